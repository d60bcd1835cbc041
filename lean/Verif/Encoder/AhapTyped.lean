import Verif.Encoder.PropsAhapFile
import Verif.Json.SpecFile
import Verif.Bits.FloatDouble

/-! The values in the keyframes that the AHAP encoder makes. -/

namespace Haptics.Ahap
open Haptics Haptics.Json

theorem isFloat_fl32 {x : ℚ} (hx : |x| ≤ 2) : IsFloat (fl32 x) := by
  by_cases h0 : x = 0
  · subst h0
    exact ⟨0, 0, by norm_num, by norm_num, by norm_num, by simp⟩
  obtain ⟨h1, h2⟩ := ilog2_spec |x| (abs_pos.2 h0)
  have hlog : ilog2 |x| ≤ 1 := by
    by_contra hc
    have : (2 : ℚ) ^ (2 : ℤ) ≤ 2 ^ (ilog2 |x|) := zpow_le_zpow_right₀ (by norm_num) (by omega)
    norm_num at this
    linarith
  set U : ℤ := max (ilog2 |x|) (-126) - 23 with hU
  have hulp : ulpOf 24 (-126) x = 2 ^ U := by unfold ulpOf; rw [hU]; norm_num
  have hpos : (0 : ℚ) < 2 ^ U := by positivity
  have hq : |x / 2 ^ U| ≤ ((2 ^ 24 : ℤ) : ℚ) := by
    rw [abs_div, abs_of_pos hpos, div_le_iff₀ hpos]
    rw [show ((2 ^ 24 : ℤ) : ℚ) = 2 ^ (24 : ℤ) by norm_num, ← zpow_add₀ (by norm_num)]
    refine h2.le.trans (zpow_le_zpow_right₀ (by norm_num) ?_)
    have := le_max_left (ilog2 |x|) (-126)
    omega
  have hr : |roundEven (x / 2 ^ U)| ≤ 2 ^ 24 := by
    obtain ⟨ha, hb⟩ := abs_le.1 hq
    have e1 := roundEven_mono ha
    have e2 := roundEven_mono hb
    rw [roundEven_int] at e2
    rw [show -((2 ^ 24 : ℤ) : ℚ) = ((-2 ^ 24 : ℤ) : ℚ) by push_cast; ring, roundEven_int] at e1
    exact abs_le.2 ⟨e1, e2⟩
  have hval : fl32 x = roundEven (x / 2 ^ U) * 2 ^ U := by
    unfold fl32
    rw [flo_eq 24 (-126) h0, hulp]
  have hUl : -149 ≤ U ∧ U ≤ -22 := by
    have := le_max_right (ilog2 |x|) (-126)
    have := max_le hlog (by norm_num : (-126 : ℤ) ≤ 1)
    omega
  rcases lt_or_eq_of_le hr with h | h
  · obtain ⟨h3, h4⟩ := abs_lt.mp h
    exact ⟨_, U, by omega, hUl.1, by omega, hval⟩
  · have h2z : (2 : ℚ) ^ (U + 1) = 2 ^ U * 2 := by rw [zpow_add₀ (by norm_num)]; norm_num
    rcases abs_eq (by norm_num : (0 : ℤ) ≤ 2 ^ 24) |>.1 h with h | h
    · refine ⟨2 ^ 23, U + 1, by norm_num, by omega, by omega, ?_⟩
      rw [hval, h, h2z]; push_cast; ring
    · refine ⟨-2 ^ 23, U + 1, by norm_num, by omega, by omega, ?_⟩
      rw [hval, h, h2z]; push_cast; ring

/-- A `float` between -1 and 1. -/
def UnitFloat (a : ℚ) : Prop := IsFloat a ∧ |a| ≤ 1

theorem unitFloat_fl32 {x : ℚ} (hx : |x| ≤ 1) : UnitFloat (fl32 x) := by
  refine ⟨isFloat_fl32 (by linarith), ?_⟩
  obtain ⟨a, b⟩ := abs_le.mp hx
  have e1 := fl32_mono a
  have e2 := fl32_mono b
  have e3 : fl32 (-1) = -1 := by simpa using fl32_int (-1) (by norm_num)
  rw [e3] at e1
  rw [fl32_one] at e2
  exact abs_le.mpr ⟨e1, e2⟩

theorem unitFloat_product {x y : ℚ} (hx : |x| ≤ 1) (hy : |y| ≤ 1) : UnitFloat (fl32 (x * y)) := by
  refine unitFloat_fl32 ?_
  rw [abs_mul]
  nlinarith [abs_nonneg x, abs_nonneg y]

/-- The values of a keyframe: it is within the effect, the amplitude is between -1 and 1, the frequency between 65 and
300 Hz. -/
structure Sound (length : Int) (k : Keyframe) : Prop where
  position : ∃ x, k.relativePosition = some x ∧ 0 ≤ x ∧ x ≤ length
  amplitude : ∀ a ∈ k.amplitudeModulation, UnitFloat a
  frequency : ∀ f ∈ k.frequencyModulation, 65 ≤ f ∧ f ≤ 300

theorem addAmplitudeKf_sound {length x : Int} {a : ℚ} (ha : UnitFloat a) (hx : 0 ≤ x ∧ x ≤ length) (kfs : List Keyframe)
    (h : ∀ k ∈ kfs, Sound length k) : ∀ k ∈ addAmplitudeKf (some a) x true kfs, Sound length k := by
  have new : Sound length ⟨some x, some a, none⟩ :=
    ⟨⟨x, rfl, hx⟩, fun b hb => by cases hb; exact ha, fun f hf => by cases hf⟩
  induction kfs with
  | nil =>
    intro k hk
    rw [addAmplitudeKf, List.mem_singleton] at hk
    exact hk ▸ new
  | cons m l ih =>
    have hm := h m List.mem_cons_self
    have hl : ∀ k ∈ l, Sound length k := fun k hk => h k (List.mem_cons_of_mem _ hk)
    unfold addAmplitudeKf
    split
    · split
      · rw [if_pos rfl]
        intro k hk
        rcases List.mem_cons.mp hk with rfl | hk
        · exact ⟨hm.position, fun b hb => by cases hb; exact ha, hm.frequency⟩
        · exact hl k hk
      · intro k hk
        rcases List.mem_cons.mp hk with rfl | hk
        · exact new
        · exact h k hk
    · intro k hk
      rcases List.mem_cons.mp hk with rfl | hk
      · exact hm
      · exact ih hl k hk

theorem addFrequencyKf_sound {length x : Int} {f : Int} (hf : 65 ≤ f ∧ f ≤ 300) (hx : 0 ≤ x ∧ x ≤ length)
    (kfs : List Keyframe) (h : ∀ k ∈ kfs, Sound length k) : ∀ k ∈ addFrequencyKf (some f) x kfs, Sound length k := by
  have new : Sound length ⟨some x, none, some f⟩ :=
    ⟨⟨x, rfl, hx⟩, fun b hb => (by cases hb), fun g hg => by cases hg; exact hf⟩
  induction kfs with
  | nil =>
    intro k hk
    rw [addFrequencyKf, List.mem_singleton] at hk
    exact hk ▸ new
  | cons m l ih =>
    have hm := h m List.mem_cons_self
    have hl : ∀ k ∈ l, Sound length k := fun k hk => h k (List.mem_cons_of_mem _ hk)
    unfold addFrequencyKf
    split
    · split
      · intro k hk
        rcases List.mem_cons.mp hk with rfl | hk
        · exact ⟨hm.position, hm.amplitude, fun b hb => by cases hb; exact hf⟩
        · exact hl k hk
      · intro k hk
        rcases List.mem_cons.mp hk with rfl | hk
        · exact new
        · exact h k hk
    · intro k hk
      rcases List.mem_cons.mp hk with rfl | hk
      · exact hm
      · exact ih hl k hk

theorem setFirstAmplitude_sound {length : Int} {a : ℚ} (ha : UnitFloat a) {kfs : List Keyframe}
    (h : ∀ k ∈ kfs, Sound length k) : ∀ k ∈ setFirstAmplitude a kfs, Sound length k := by
  cases kfs with
  | nil => exact h
  | cons m l =>
    intro k hk
    have hm := h m List.mem_cons_self
    rcases List.mem_cons.mp hk with rfl | hk
    · exact ⟨hm.position, fun b hb => by cases hb; exact ha, hm.frequency⟩
    · exact h k (List.mem_cons_of_mem _ hk)

theorem setFirstFrequency_sound {length : Int} {f : Int} (hf : 65 ≤ f ∧ f ≤ 300) {kfs : List Keyframe}
    (h : ∀ k ∈ kfs, Sound length k) : ∀ k ∈ setFirstFrequency f kfs, Sound length k := by
  cases kfs with
  | nil => exact h
  | cons m l =>
    intro k hk
    have hm := h m List.mem_cons_self
    rcases List.mem_cons.mp hk with rfl | hk
    · exact ⟨hm.position, hm.amplitude, fun b hb => by cases hb; exact hf⟩
    · exact h k (List.mem_cons_of_mem _ hk)

theorem interpolated_unit {q p : Point} {x : Int} {y : ℚ} (hq : q.1 < x) (hp : x ≤ p.1) (gq : GoodPoints [q])
    (gp : GoodPoints [p]) (h : interpolated q p x = .ok y) : |y| ≤ 1 := by
  obtain ⟨q1, q2, q3⟩ := gq q List.mem_cons_self
  obtain ⟨p1, p2, p3⟩ := gp p List.mem_cons_self
  obtain ⟨z, hz, z1, z2⟩ := linear64_bounds hq hp (by omega) (by omega) q3 p3
  unfold interpolated at h
  rw [hz] at h
  obtain rfl := Except.ok.inj h
  exact (unitFloat_fl32 (abs_le.mpr ⟨z1, z2⟩)).2

theorem goodPoints_value {l : List Point} (h : GoodPoints l) {p : Point} (hp : p ∈ l) : |fl32 p.2| ≤ 1 :=
  (unitFloat_fl32 (abs_le.mpr (h p hp).2.2)).2

theorem goodPoints_one {l : List Point} (h : GoodPoints l) {p : Point} (hp : p ∈ l) : GoodPoints [p] := by
  intro q hq
  rw [List.mem_singleton] at hq
  exact hq ▸ h p hp

theorem amplitudeLoop_sound (position length : Int) (base : ℚ) (hbase : UnitFloat base) (before : Option Point)
    (rest : List Point) (kfs : List Keyframe) (last : ℚ) (hlast : UnitFloat last) (r : List Keyframe × ℚ)
    (h2 : ∀ q ∈ before, q.1 < position + length ∧ GoodPoints [q]) (hg : GoodPoints rest)
    (hk : ∀ k ∈ kfs, Sound length k) (h : amplitudeLoop position length base before rest kfs last = .ok r) :
    (∀ k ∈ r.1, Sound length k) ∧ UnitFloat r.2 := by
  induction rest generalizing before kfs with
  | nil =>
    obtain rfl := Except.ok.inj h
    exact ⟨hk, hlast⟩
  | cons p rest ih =>
    have gp : GoodPoints [p] := goodPoints_one hg List.mem_cons_self
    have gr : GoodPoints rest := fun q hq => hg q (List.mem_cons_of_mem _ hq)
    unfold amplitudeLoop at h
    split at h
    · rename_i hp
      cases before with
      | none => cases h
      | some q =>
        obtain ⟨y, hy⟩ := interpolated_ok (h2 q rfl).1 hp
        simp only [hy] at h
        obtain rfl := Except.ok.inj h
        exact ⟨hk, unitFloat_product (interpolated_unit (h2 q rfl).1 hp (h2 q rfl).2 gp hy) hlast.2⟩
    · rename_i hp
      push Not at hp
      have h3 : ∀ q ∈ (some p : Option Point), q.1 < position + length ∧ GoodPoints [q] := by
        intro q hq; cases hq; exact ⟨hp, gp⟩
      split at h
      · rename_i hx
        have hx : 0 ≤ p.1 - position ∧ p.1 - position ≤ length := by omega
        refine ih (some p) _ h3 gr ?_ h
        have s1 : ∀ k ∈ (if before.isNone then addAmplitudeKf (some base) (p.1 - position) true kfs else kfs),
            Sound length k := by
          split
          · exact addAmplitudeKf_sound hbase hx _ hk
          · exact hk
        have s2 := addAmplitudeKf_sound
          (unitFloat_product (goodPoints_value hg List.mem_cons_self) hbase.2) hx _ s1
        split
        · exact addAmplitudeKf_sound hbase hx _ s2
        · exact s2
      · exact ih (some p) _ h3 gr hk h

theorem modulateAmplitude_sound (points : List Point) (hg : GoodPoints points) (position length : Int) (hl : 1 ≤ length)
    (base : ℚ) (hbase : UnitFloat base) (kfs : List Keyframe) (hk : ∀ k ∈ kfs, Sound length k) (r : List Keyframe × ℚ)
    (h : modulateAmplitude points position length base kfs = .ok r) : (∀ k ∈ r.1, Sound length k) ∧ UnitFloat r.2 := by
  unfold modulateAmplitude at h
  split at h
  · obtain rfl := Except.ok.inj h
    exact ⟨hk, hbase⟩
  rcases split_points points position with ⟨e, -⟩ | ⟨pre, p, rest, e1, e2, e3, e4, e5⟩
  · simp only [e] at h
    cases h
  · simp only [e2, e3] at h
    have gp : GoodPoints [p] := goodPoints_one hg (by rw [e1]; simp)
    have gr : GoodPoints rest := fun q hq => hg q (by rw [e1]; simp [hq])
    have gpr : GoodPoints (p :: rest) := fun q hq => hg q (by rw [e1]; exact List.mem_append_right _ hq)
    have vp := goodPoints_value gp List.mem_cons_self
    have hq : ∀ q, pre.getLast? = some q → q.1 < position ∧ GoodPoints [q] := fun q hq =>
      ⟨e4 q (List.mem_of_getLast? hq), goodPoints_one hg (by rw [e1]; simp [List.mem_of_getLast? hq])⟩
    split at h
    · rename_i hp
      refine amplitudeLoop_sound position length base hbase (some p) rest _ base hbase r ?_ gr
        (setFirstAmplitude_sound (unitFloat_product hbase.2 vp) hk) h
      intro q hq; cases hq; exact ⟨by omega, gp⟩
    · cases hb : pre.getLast? with
      | none =>
        rw [hb] at h
        exact amplitudeLoop_sound position length base hbase none (p :: rest) _ base hbase r
          (fun q hq => by cases hq) gpr hk h
      | some q =>
        rw [hb] at h
        obtain ⟨hq1, hq2⟩ := hq q hb
        have hq3 : ∀ q' ∈ (some q : Option Point), q'.1 < position + length ∧ GoodPoints [q'] := by
          intro q' hq'; cases hq'; exact ⟨by omega, hq2⟩
        simp only at h
        split at h
        · obtain ⟨y, hy⟩ := interpolated_ok hq1 e5
          simp only [hy] at h
          exact amplitudeLoop_sound position length base hbase (some q) (p :: rest) _ base hbase r hq3 gpr
            (setFirstAmplitude_sound (unitFloat_product (interpolated_unit hq1 e5 hq2 gp hy) hbase.2) hk) h
        · exact amplitudeLoop_sound position length base hbase (some q) (p :: rest) _ base hbase r hq3 gpr hk h

theorem roundHz_range {x : ℚ} {g : Int} (h0 : 0 ≤ x) (h1 : x ≤ 1) (h : roundHz x = .ok g) : 65 ≤ g ∧ g ≤ 300 := by
  rw [roundHz_ok (by linarith) h1] at h
  obtain rfl := Except.ok.inj h
  exact hz_range h0 h1

theorem addBaseFrequency_sound {needed : Bool} {base : ℚ} (hb : 0 ≤ base ∧ base ≤ 1) {x length : Int}
    (hx : 0 ≤ x ∧ x ≤ length) {kfs l : List Keyframe} (hk : ∀ k ∈ kfs, Sound length k)
    (h : addBaseFrequency needed base x kfs = .ok l) : ∀ k ∈ l, Sound length k := by
  unfold addBaseFrequency at h
  cases needed with
  | false => obtain rfl := Except.ok.inj h; exact hk
  | true =>
    rw [if_pos rfl, roundHz_ok (by linarith [hb.1]) hb.2] at h
    obtain rfl := Except.ok.inj h
    exact addFrequencyKf_sound (hz_range hb.1 hb.2) hx _ hk

theorem frequencyLoop_sound (position length : Int) (base : ℚ) (hb : 0 ≤ base ∧ base ≤ 1) (before : Option Point)
    (rest : List Point) (kfs : List Keyframe) (last : Int) (hlast : 65 ≤ last ∧ last ≤ 300) (r : List Keyframe × Int)
    (hk : ∀ k ∈ kfs, Sound length k) (h : frequencyLoop position length base before rest kfs last = .ok r) :
    (∀ k ∈ r.1, Sound length k) ∧ 65 ≤ r.2 ∧ r.2 ≤ 300 := by
  induction rest generalizing before kfs with
  | nil =>
    obtain rfl := Except.ok.inj h
    exact ⟨hk, hlast⟩
  | cons p rest ih =>
    unfold frequencyLoop at h
    split at h
    · cases before with
      | none => cases h
      | some q =>
        obtain ⟨g, hg⟩ := roundHz_clamp
          (fl64 (chirp64 q.1 p.1 (fl64 (q.2 + base)) (fl64 (p.2 + base)) (position + length) + base))
        simp only [hg] at h
        obtain rfl := Except.ok.inj h
        exact ⟨hk, roundHz_range (clamp01_nonneg _) (clamp01_le_one _) hg⟩
    · rename_i hp
      push Not at hp
      split at h
      · rename_i hx
        have hx : 0 ≤ p.1 - position ∧ p.1 - position ≤ length := by omega
        change (addBaseFrequency _ _ _ _).bind _ = _ at h
        cases h1 : addBaseFrequency before.isNone base (p.1 - position) kfs with
        | error e => rw [h1] at h; cases h
        | ok k1 =>
          rw [h1] at h
          have s1 := addBaseFrequency_sound hb hx hk h1
          change (roundHz _).bind _ = _ at h
          cases h2 : roundHz (clamp01 (fl64 (p.2 + base))) with
          | error e => rw [h2] at h; cases h
          | ok g =>
            rw [h2] at h
            have s2 := addFrequencyKf_sound (roundHz_range (clamp01_nonneg _) (clamp01_le_one _) h2) hx k1 s1
            change (addBaseFrequency _ _ _ _).bind _ = _ at h
            cases h3 : addBaseFrequency rest.isEmpty base (p.1 - position)
                (addFrequencyKf (some g) (p.1 - position) k1) with
            | error e => rw [h3] at h; cases h
            | ok k3 =>
              rw [h3] at h
              exact ih (some p) k3 (addBaseFrequency_sound hb hx s2 h3) h
      · exact ih (some p) _ hk h

theorem modulateFrequency_sound (points : List Point) (position length : Int) (base : ℚ) (hb : 0 ≤ base ∧ base ≤ 1)
    (kfs : List Keyframe) (last : Int) (hlast : 65 ≤ last ∧ last ≤ 300) (hk : ∀ k ∈ kfs, Sound length k)
    (r : List Keyframe × Int) (h : modulateFrequency points position length base kfs last = .ok r) :
    (∀ k ∈ r.1, Sound length k) ∧ 65 ≤ r.2 ∧ r.2 ≤ 300 := by
  unfold modulateFrequency at h
  split at h
  · obtain rfl := Except.ok.inj h
    exact ⟨hk, hlast⟩
  rcases split_points points position with ⟨e, -⟩ | ⟨pre, p, rest, e1, e2, e3, e4, e5⟩
  · simp only [e] at h
    cases h
  · simp only [e2, e3] at h
    split at h
    · change (roundHz _).bind _ = _ at h
      cases h2 : roundHz (clamp01 (fl64 (p.2 + base))) with
      | error e => rw [h2] at h; cases h
      | ok g =>
        rw [h2] at h
        exact frequencyLoop_sound position length base hb _ rest _ last hlast r
          (setFirstFrequency_sound (roundHz_range (clamp01_nonneg _) (clamp01_le_one _) h2) hk) h
    · cases hp : pre.getLast? with
      | none =>
        rw [hp] at h
        exact frequencyLoop_sound position length base hb _ _ _ last hlast r hk h
      | some q =>
        rw [hp] at h
        simp only at h
        split at h
        · change (roundHz _).bind _ = _ at h
          cases h2 : roundHz (clamp01 (chirp64 q.1 p.1 (fl64 (q.2 + base)) (fl64 (p.2 + base)) position)) with
          | error e => rw [h2] at h; cases h
          | ok g =>
            rw [h2] at h
            exact frequencyLoop_sound position length base hb _ _ _ last hlast r
              (setFirstFrequency_sound (roundHz_range (clamp01_nonneg _) (clamp01_le_one _) h2) hk) h
        · exact frequencyLoop_sound position length base hb _ _ _ last hlast r hk h

/-- The keyframes of a continuous event. -/
theorem continuousKeyframes_sound {A F : List Point} (gA : GoodPoints A) {position length : Int} (hl : 1 ≤ length)
    {a s : ℚ} (ha : UnitFloat a) (hs : 0 ≤ s ∧ s ≤ 1) {f : Int} (hf : 65 ≤ f ∧ f ≤ 300) {kfs : List Keyframe}
    (h : continuousKeyframes A F position length a s f = .ok kfs) : ∀ k ∈ kfs, Sound length k := by
  unfold continuousKeyframes at h
  have hk : ∀ k ∈ [(⟨some 0, some a, some f⟩ : Keyframe)], Sound length k := by
    intro k hk
    rw [List.mem_singleton] at hk
    subst hk
    exact ⟨⟨0, rfl, le_rfl, by omega⟩, fun b hb => by cases hb; exact ha, fun b hb => by cases hb; exact hf⟩
  cases e1 : modulateAmplitude A position length a [⟨some 0, some a, some f⟩] with
  | error e => rw [e1] at h; cases h
  | ok r =>
    rw [e1] at h
    obtain ⟨s1, s2⟩ := modulateAmplitude_sound A gA position length hl a ha _ hk r e1
    change (modulateFrequency F position length s r.1 f).bind _ = _ at h
    cases e2 : modulateFrequency F position length s r.1 f with
    | error e => rw [e2] at h; cases h
    | ok t =>
      rw [e2] at h
      obtain ⟨t1, t2⟩ := modulateFrequency_sound F position length s hs _ f hf s1 t e2
      obtain rfl := Except.ok.inj h
      intro k hk
      rcases List.mem_append.mp hk with hk | hk
      · exact t1 k hk
      · rw [List.mem_singleton] at hk
        subst hk
        exact ⟨⟨length, rfl, by omega, le_rfl⟩, fun b hb => by cases hb; exact s2, fun b hb => by cases hb; exact t2⟩

theorem amplitudeFor_unit {m : ℚ} (hm : fl64 m = m) (hm0 : 0 ≤ m) (hm1 : m ≤ 1) {ps : List Parameter}
    (h : ∀ p ∈ ps, p.Valid) : UnitFloat (amplitudeFor m ps (1 / 2)) := by
  have h2 := (amplitudeFor_near (c := m) hm hm0 hm1 (by simp) h).1
  refine ⟨?_, abs_le.mpr ⟨by linarith [h2.1], h2.2⟩⟩
  unfold amplitudeFor at h2 ⊢
  cases hv : lastIntensity ps with
  | none => exact ⟨1, -1, by norm_num, by norm_num, by norm_num, by norm_num⟩
  | some v =>
    rw [hv] at h2
    simp only at h2 ⊢
    generalize normalize64 0 1 0 m (fl64 v) = x at *
    refine isFloat_fl32 (abs_le.mpr ⟨?_, ?_⟩)
    · by_contra hc
      have e1 := fl32_mono (le_of_not_ge hc)
      have e2 : fl32 (-2) = -2 := by simpa using fl32_int (-2) (by norm_num)
      linarith [h2.1]
    · by_contra hc
      have e1 := fl32_mono (le_of_not_ge hc)
      have e2 : fl32 2 = 2 := by simpa using fl32_int 2 (by norm_num)
      linarith [h2.2]

theorem toHz_unit {f : ℚ} (h1 : 0 ≤ f) (h2 : f ≤ 1) : 65 ≤ toHz f ∧ toHz f ≤ 300 := by
  unfold toHz normalize64 ACTUAL_FREQUENCY_MIN ACTUAL_FREQUENCY_MAX
  have e1 : fl64 ((1 : ℚ) - 0) = 1 := by rw [sub_zero]; exact fl64_one
  have e2 : fl64 (((300 : Int) : ℚ) - ((65 : Int) : ℚ)) = 235 := by
    have := fl64_int 235 (by norm_num)
    rw [show ((300 : Int) : ℚ) - ((65 : Int) : ℚ) = ((235 : Int) : ℚ) by norm_num, this]; norm_num
  have e3 : fl64 (235 / 1) = 235 := by
    have := fl64_int 235 (by norm_num)
    rw [show (235 : ℚ) / 1 = ((235 : Int) : ℚ) by norm_num, this]; norm_num
  rw [e1, e2, if_pos (by norm_num), e3]
  have a1 : ((-1 : Int) : ℚ) ≤ fl64 (f - 1) := int_le_fl64 (by norm_num) (by push_cast; linarith)
  have a2 : fl64 (f - 1) ≤ ((0 : Int) : ℚ) := fl64_le_int (by norm_num) (by push_cast; linarith)
  push_cast at a1 a2
  have b1 : ((-235 : Int) : ℚ) ≤ fl64 (235 * fl64 (f - 1)) := int_le_fl64 (by norm_num) (by push_cast; linarith)
  have b2 : fl64 (235 * fl64 (f - 1)) ≤ ((0 : Int) : ℚ) := fl64_le_int (by norm_num) (by push_cast; linarith)
  push_cast at b1 b2
  have c1 : ((65 : Int) : ℚ) ≤ fl64 (fl64 (235 * fl64 (f - 1)) + ((300 : Int) : ℚ)) :=
    int_le_fl64 (by norm_num) (by push_cast; linarith)
  have c2 : fl64 (fl64 (235 * fl64 (f - 1)) + ((300 : Int) : ℚ)) ≤ ((300 : Int) : ℚ) :=
    fl64_le_int (by norm_num) (by push_cast; linarith)
  push_cast at c1 c2 ⊢
  exact ⟨c1, c2⟩

theorem frequencyFor_range {ps : List Parameter} (h : ∀ p ∈ ps, p.Valid) :
    65 ≤ frequencyFor ps 90 ∧ frequencyFor ps 90 ≤ 300 := by
  unfold frequencyFor
  cases hv : lastSharpness ps with
  | none => decide
  | some v =>
    obtain ⟨h0, h1⟩ := lastSharpness_valid h hv
    obtain ⟨u0, u1⟩ := fl64_unit h0 h1
    obtain ⟨a, b⟩ := toHz_unit u0 u1
    show 65 ≤ truncQ (toHz (fl64 v)) ∧ truncQ (toHz (fl64 v)) ≤ 300
    unfold truncQ
    rw [if_pos (by linarith)]
    exact ⟨Int.le_floor.mpr (by exact_mod_cast a), by
      have : ((⌊toHz (fl64 v)⌋ : Int) : ℚ) ≤ 300 := (Int.floor_le _).trans b
      exact_mod_cast this⟩

/-- A continuous event. -/
theorem continuousOf_sound {A F : List Point} (gA : GoodPoints A) {ts : Nat} (hts : ts < 2 ^ 32)
    {x : ℚ × ℚ × List Parameter} (hv : (Item.continuous x.1 x.2.1 x.2.2).Valid ts) {e : Effect}
    (h : ContinuousOf A F ts x e) : ∀ k ∈ e.keyframes, Sound (eventTick ts x.2.1) k := by
  obtain ⟨kfs, hk, rfl⟩ := h
  obtain ⟨m1, m2, m3, -⟩ := most_continuous
  exact continuousKeyframes_sound gA (eventTick_pos ts hv.2.2.2.1 hv.2.2.1 hts)
    (amplitudeFor_unit m1 m2 m3 hv.2.2.2.2) (sharpnessFor_unit _ hv.2.2.2.2) (frequencyFor_range hv.2.2.2.2) hk

/-- A transient. -/
theorem transientOf_sound {A F : List Point} (gA : GoodPoints A) (gF : GoodPoints F) {ts : Nat}
    {x : ℚ × List Parameter} (hv : (Item.transient x.1 x.2).Valid ts) {e : Effect} (h : TransientOf A F ts x e) :
    ∃ a f, e = eventEffect (eventTick ts x.1) [⟨some 0, some a, some f⟩] ∧ UnitFloat a ∧ -80 ≤ f ∧ f ≤ 390 ∧
      ((∀ p ∈ F, 0 ≤ p.2) → 0 ≤ f) := by
  obtain ⟨a, f, ha, hf, rfl⟩ := h
  obtain ⟨m1, m2, m3, -⟩ := most_transient
  have hb := amplitudeFor_unit m1 m2 m3 hv.2.2
  refine ⟨a, f, rfl, ?_, ?_⟩
  · unfold transientAmplitude at ha
    rcases split_points A (eventTick ts x.1) with ⟨e, -⟩ | ⟨pre, p, rest, e1, e2, e3, e4, e5⟩
    · simp only [e] at ha
      exact Except.ok.inj ha ▸ hb
    · simp only [e2, e3] at ha
      have gp : GoodPoints [p] := goodPoints_one gA (by rw [e1]; simp)
      cases hl : pre.getLast? with
      | none =>
        rw [hl] at ha
        exact Except.ok.inj ha ▸ unitFloat_product (goodPoints_value gp List.mem_cons_self) hb.2
      | some q =>
        rw [hl] at ha
        have hq := e4 q (List.mem_of_getLast? hl)
        obtain ⟨y, hy⟩ := interpolated_ok hq e5
        simp only [hy] at ha
        exact Except.ok.inj ha ▸ unitFloat_product (interpolated_unit hq e5
          (goodPoints_one gA (by rw [e1]; simp [List.mem_of_getLast? hl])) gp hy) hb.2
  · unfold transientFrequency at hf
    rcases split_points F (eventTick ts x.1) with ⟨e, -⟩ | ⟨pre, p, rest, e1, e2, e3, e4, e5⟩
    · simp only [e] at hf
      have hf : f = 90 := (Except.ok.inj hf).symm
      subst hf
      exact ⟨by norm_num, by norm_num, fun _ => by norm_num⟩
    · simp only [e2, e3] at hf
      cases hl : pre.getLast? with
      | none =>
        rw [hl] at hf
        have hf : f = 300 := (Except.ok.inj hf).symm
        subst hf
        exact ⟨by norm_num, by norm_num, fun _ => by norm_num⟩
      | some q =>
        rw [hl] at hf
        have hq := e4 q (List.mem_of_getLast? hl)
        have hqm : q ∈ F := by rw [e1]; simp [List.mem_of_getLast? hl]
        have hpm : p ∈ F := by rw [e1]; simp
        obtain ⟨q1, q2, q3⟩ := gF q hqm
        obtain ⟨p1, p2, p3⟩ := gF p hpm
        obtain ⟨z, hz, z1, z2⟩ := linear64_bounds hq e5 (by omega) (by omega) q3 p3
        simp only [hz] at hf
        obtain ⟨a1, a2⟩ := toHz_bounds z1 z2
        rw [castInt_ok (by linarith) (by linarith)] at hf
        have hf : f = truncQ (toHz z) + 90 := (Except.ok.inj hf).symm
        obtain ⟨t1, t2⟩ := truncQ_bounds (m := -170) (n := 300) (by push_cast; linarith) (by norm_num)
          (by push_cast; linarith) (by norm_num)
        refine ⟨by omega, by omega, fun hpos => ?_⟩
        have hz0 : 0 ≤ z := by
          unfold linear64 at hz
          rw [if_neg (by omega), if_neg (by omega), if_neg (by omega)] at hz
          obtain rfl := Option.some.inj hz
          have d1 : (0 : ℚ) ≤ (p.1 : ℚ) - q.1 := by
            have : (q.1 : ℚ) ≤ p.1 := by exact_mod_cast (lt_of_lt_of_le hq e5).le
            linarith
          have k1 : (0 : ℚ) ≤ (p.1 : ℚ) - (eventTick ts x.1 : Int) := by
            have : ((eventTick ts x.1 : Int) : ℚ) ≤ p.1 := by exact_mod_cast e5
            linarith
          have k2 : (0 : ℚ) ≤ ((eventTick ts x.1 : Int) : ℚ) - q.1 := by
            have : (q.1 : ℚ) ≤ (eventTick ts x.1 : Int) := by exact_mod_cast hq.le
            linarith
          exact flo_nonneg _ _ (div_nonneg (flo_nonneg _ _ (add_nonneg
            (flo_nonneg _ _ (mul_nonneg (hpos q hqm) k1)) (flo_nonneg _ _ (mul_nonneg (hpos p hpm) k2)))) d1)
        obtain ⟨u1, -⟩ := toHz_unit hz0 z2
        have : 0 ≤ truncQ (toHz z) := by
          unfold truncQ
          rw [if_pos (by linarith)]
          exact Int.floor_nonneg.mpr (by linarith)
        omega

end Haptics.Ahap
