import Verif.Main.Synth
import Verif.Main.SpecSynth
import Verif.Bits.FloatDouble
import Mathlib.Data.List.Forall2
import Verif.Eval.PropsRender

/-! C82: the synthesizer as a program. -/

namespace Haptics.SynthMain
open Haptics Haptics.Args
open Haptics.Json (lit)

theorem mapE_get {α β : Type} (f : α → Except Err β) (l : List α) (r : List β) (h : mapE f l = .ok r) :
    r.length = l.length ∧ ∀ (i : Nat) (a : α), l[i]? = some a → ∃ b, r[i]? = some b ∧ f a = .ok b := by
  induction l generalizing r with
  | nil =>
    have := Except.ok.inj h
    subst this
    exact ⟨rfl, fun i a ha => by simp at ha⟩
  | cons x l ih =>
    unfold mapE at h
    split at h
    · cases h
    · rename_i b hb
      split at h
      · cases h
      · rename_i r' hr'
        have := Except.ok.inj h
        subst this
        obtain ⟨h1, h2⟩ := ih r' hr'
        refine ⟨by rw [List.length_cons, List.length_cons, h1], fun i a ha => ?_⟩
        cases i with
        | zero =>
          have : x = a := Option.some.inj ha
          subst this
          exact ⟨b, rfl, hb⟩
        | succ i => exact h2 i a (by simpa using ha)

/-- The factors of all channels. -/
noncomputable def factors (ps : List Perception) : List ℝ := (channelsOf ps).map (fun pc => factor pc.1 pc.2)

theorem decodePerception_keeps (parts : Parts) (ts : Nat) (p q : Perception)
    (h : decodePerception parts ts p = .ok q) :
    q.channels.map (fun c => factor q c) = p.channels.map (fun c => factor p c) := by
  unfold decodePerception at h
  cases hc : mapE (decodeChannel parts ts) p.channels with
  | error e => rw [hc] at h; cases h
  | ok cs =>
    rw [hc] at h
    have := Except.ok.inj h
    subst this
    obtain ⟨h1, h2⟩ := mapE_get _ _ _ hc
    apply List.ext_getElem?
    intro i
    rw [List.getElem?_map, List.getElem?_map]
    cases hi : p.channels[i]? with
    | none =>
      have : cs[i]? = none := by
        rw [List.getElem?_eq_none_iff] at hi ⊢
        omega
      simp only
      rw [this]
      rfl
    | some c =>
      obtain ⟨c', e1, e2⟩ := h2 i c hi
      simp only
      rw [e1]
      unfold decodeChannel at e2
      cases hb : mapE (decodeBand parts ts) c.bands with
      | error e => rw [hb] at e2; cases e2
      | ok bs =>
        rw [hb] at e2
        have := Except.ok.inj e2
        subst this
        rfl

theorem factors_cons (p : Perception) (ps : List Perception) :
    factors (p :: ps) = p.channels.map (fun c => factor p c) ++ factors ps := by
  unfold factors channelsOf
  rw [List.flatMap_cons, List.map_append, List.map_map]
  rfl

theorem decode_keeps (parts : Parts) (ts : Nat) (ps qs : List Perception)
    (h : mapE (decodePerception parts ts) ps = .ok qs) : factors qs = factors ps := by
  induction ps generalizing qs with
  | nil =>
    have := Except.ok.inj h
    subst this
    rfl
  | cons p ps ih =>
    unfold mapE at h
    split at h
    · cases h
    · rename_i q hq
      split at h
      · cases h
      · rename_i qs' hqs
        have := Except.ok.inj h
        subst this
        rw [factors_cons, factors_cons, ih qs' hqs, decodePerception_keeps _ _ _ _ hq]

theorem linearize_keeps (h : Experience) : factors h.linearize.perceptions = factors h.perceptions := by
  unfold Experience.linearize
  simp only
  induction h.perceptions with
  | nil => rfl
  | cons p ps ih =>
    rw [List.map_cons, factors_cons, factors_cons, ih]
    unfold Perception.linearizeLibrary
    simp only [List.map_map]
    rfl

/-- **C82.** The signals that are written: one per channel of the experience, in order, all of the same length, and every
sample is NaN or lies within the gain of its channel times the power of ten of its perception. -/
theorem c82_signals (parts : Parts) (h : Experience) (fs pad : Int) (sig : List (List (Option ℝ)))
    (hs : synthesize parts h fs pad = .ok sig) :
    ∃ ts length n, h.timescale = some ts ∧ h.linearize.timeLength = .ok length ∧
      sampleCount length fs pad ts = .ok n ∧ sig ≠ [] ∧ sig.length = (channelsOf h.perceptions).length ∧
      ∀ (i : Nat) (p : Perception) (c : Channel), (channelsOf h.perceptions)[i]? = some (p, c) →
        ∃ s, sig[i]? = some s ∧ s.length = n ∧
          ∀ x ∈ s, x = none ∨ ∃ r, x = some r ∧ |r| ≤ |(c.gain : ℝ)| * (10 : ℝ) ^ (p.perceptionUnitExponent.getD 0) := by
  unfold synthesize at hs
  cases hl : h.linearize.timeLength with
  | error e => rw [hl] at hs; cases hs
  | ok length =>
    rw [hl] at hs
    change playFile parts h.linearize length fs pad = _ at hs
    unfold playFile at hs
    cases hp : mapE (decodePerception parts (h.linearize.timescale.getD 1000)) h.linearize.perceptions with
    | error e => rw [hp] at hs; cases hs
    | ok ps =>
      rw [hp] at hs
      have hts : h.linearize.timescale = h.timescale := rfl
      change (match h.linearize.timescale with | none => _ | some timescale => _) = _ at hs
      rw [hts] at hs
      cases ht : h.timescale with
      | none => rw [ht] at hs; cases hs
      | some ts =>
        rw [ht] at hs
        simp only at hs
        cases ha : mapE (playChannel parts length fs pad ts) (channelsOf ps) with
        | error e => rw [ha] at hs; cases hs
        | ok amps =>
          rw [ha] at hs
          change (if amps.isEmpty = true then _ else _) = _ at hs
          by_cases he : amps.isEmpty = true
          · rw [if_pos he] at hs
            cases hs
          · rw [if_neg he] at hs
            have := Except.ok.inj hs
            subst this
            have hfac : factors ps = factors h.perceptions :=
              (decode_keeps _ _ _ _ hp).trans (linearize_keeps h)
            have hlen : (channelsOf ps).length = (channelsOf h.perceptions).length := by
              have := congrArg List.length hfac
              unfold factors at this
              simpa using this
            obtain ⟨h1, h2⟩ := mapE_get _ _ _ ha
            have hne : amps ≠ [] := by simpa using he
            have hpos : 0 < (channelsOf ps).length := by
              rw [← h1]
              exact List.length_pos_iff.mpr hne
            obtain ⟨n, hn⟩ : ∃ n, sampleCount length fs pad ts = .ok n := by
              obtain ⟨b, -, hb⟩ := h2 0 _ (List.getElem?_eq_getElem hpos)
              unfold playChannel at hb
              cases hc : sampleCount length fs pad ts with
              | error e => rw [hc] at hb; cases hb
              | ok n => exact ⟨n, rfl⟩
            refine ⟨ts, length, n, rfl, rfl, hn, hne, h1.trans hlen, ?_⟩
            intro i p c hi
            have hilt : i < (channelsOf ps).length := by
              rw [hlen]
              exact (List.getElem?_eq_some_iff.mp hi).1
            obtain ⟨s, hs1, hs2⟩ := h2 i _ (List.getElem?_eq_getElem hilt)
            have hf : factor (channelsOf ps)[i].1 (channelsOf ps)[i].2 = factor p c := by
              have := congrArg (fun l : List ℝ => l[i]?) hfac
              unfold factors at this
              simp only [List.getElem?_map] at this
              rw [hi, List.getElem?_eq_getElem hilt] at this
              exact Option.some.inj this
            unfold playChannel at hs2
            rw [hn] at hs2
            change ((channelsOf ps)[i].2.evaluateChannel parts.samples parts.other n fs pad ts).bind _ = _ at hs2
            cases hv : (channelsOf ps)[i].2.evaluateChannel parts.samples parts.other n fs pad ts with
            | error e => rw [hv] at hs2; cases hs2
            | ok r =>
              rw [hv] at hs2
              have := Except.ok.inj hs2
              subst this
              obtain ⟨g1, g2⟩ := c32_evaluateChannel_partial _ _ _ _ _ _ _ _ hv
              refine ⟨_, hs1, by rw [List.length_map, g1], ?_⟩
              intro x hx
              obtain ⟨y, hy, rfl⟩ := List.mem_map.mp hx
              rcases g2 y hy with rfl | ⟨r', rfl, b1, b2⟩
              · exact Or.inl rfl
              · refine Or.inr ⟨_, rfl, ?_⟩
                rw [hf]
                unfold factor
                rw [abs_mul, abs_mul, abs_of_pos (zpow_pos (by norm_num : (0 : ℝ) < 10) _)]
                have hr : |r'| ≤ 1 := abs_le.mpr ⟨b1, b2⟩
                have hnn : 0 ≤ |(c.gain : ℝ)| * (10 : ℝ) ^ (p.perceptionUnitExponent.getD 0) :=
                  mul_nonneg (abs_nonneg _) (le_of_lt (zpow_pos (by norm_num) _))
                calc |r'| * (|(c.gain : ℝ)| * (10 : ℝ) ^ (p.perceptionUnitExponent.getD 0))
                    ≤ 1 * (|(c.gain : ℝ)| * (10 : ℝ) ^ (p.perceptionUnitExponent.getD 0)) :=
                      mul_le_mul_of_nonneg_right hr hnn
                  _ = _ := one_mul _

theorem roundAway_dist (x : ℚ) : |roundAway x - x| ≤ 1 / 2 := by
  unfold roundAway
  split
  · have h1 := Int.floor_le (x + 1 / 2)
    have h2 := Int.lt_floor_add_one (x + 1 / 2)
    rw [abs_le]
    constructor <;> linarith
  · have h1 := Int.le_ceil (x - 1 / 2)
    have h2 := Int.ceil_lt_add_one (x - 1 / 2)
    rw [abs_le]
    constructor <;> linarith

theorem roundAway_int (x : ℚ) : ∃ z : Int, roundAway x = z := by
  unfold roundAway
  split
  · exact ⟨_, rfl⟩
  · exact ⟨_, rfl⟩

/-- Three operations in `double`. -/
theorem quotient_close (f a t : ℚ) (hf : 0 < f) (hf' : f ≤ 2 ^ 31) (ht : 1 ≤ t) :
    |fl64 (fl64 (f * fl64 a) / t) - f * a / t| ≤ |f * a / t| / 2 ^ 51 + 1 / 2 ^ 60 := by
  have h0 : (0 : ℚ) < t := by linarith
  have d1 : |f * fl64 a / t - f * a / t| ≤ |f * a / t| / 2 ^ 53 + 1 / 2 ^ 69 := by
    rw [← sub_div, ← mul_sub, abs_div, abs_mul, abs_of_pos hf, abs_of_pos h0, abs_div, abs_mul, abs_of_pos hf, abs_of_pos h0]
    have h1 := fl64_within a
    have h2 : f * |fl64 a - a| / t ≤ f * (|a| / 2 ^ 53 + 1 / 2 ^ 100) / t := by gcongr
    refine h2.trans ?_
    have h3 : f * (|a| / 2 ^ 53 + 1 / 2 ^ 100) / t = f * |a| / t / 2 ^ 53 + f / t / 2 ^ 100 := by field_simp
    rw [h3]
    have h4 : f / t ≤ 2 ^ 31 := by
      rw [div_le_iff₀ h0]; nlinarith
    linarith
  have d2 : |fl64 (f * fl64 a) / t - f * fl64 a / t| ≤ |f * fl64 a / t| / 2 ^ 53 + 1 / 2 ^ 100 := by
    rw [← sub_div, abs_div, abs_of_pos h0, abs_div, abs_of_pos h0]
    have h1 := fl64_within (f * fl64 a)
    have h2 : |fl64 (f * fl64 a) - f * fl64 a| / t ≤ (|f * fl64 a| / 2 ^ 53 + 1 / 2 ^ 100) / t := by gcongr
    refine h2.trans ?_
    rw [add_div, div_right_comm]
    have h4 : (1 : ℚ) / 2 ^ 100 / t ≤ 1 / 2 ^ 100 := div_le_self (by positivity) ht
    linarith
  have d3 := fl64_within (fl64 (f * fl64 a) / t)
  generalize fl64 (fl64 (f * fl64 a) / t) = z at *
  generalize fl64 (f * fl64 a) / t = w at *
  generalize f * fl64 a / t = u at *
  generalize f * a / t = E at *
  have k1 : |u| ≤ |E| + |u - E| := by
    have := abs_add_le E (u - E); rwa [add_sub_cancel] at this
  have k2 : |w| ≤ |u| + |w - u| := by
    have := abs_add_le u (w - u); rwa [add_sub_cancel] at this
  have k3 : |z - E| ≤ |z - w| + |w - u| + |u - E| := by
    have := abs_add_three (z - w) (w - u) (u - E)
    rwa [show z - w + (w - u) + (u - E) = z - E by ring] at this
  have hE := abs_nonneg E
  linarith

/-- The samples last as long as the experience and twice the padding, *taken in ticks*. -/
theorem count_dist (length : ℚ) (fs pad : Int) (ts n : Nat) (hfs : 0 < fs) (hfs' : fs < 2 ^ 31)
    (h : sampleCount length fs pad ts = .ok n) :
    |(n : ℚ) / fs - (length / ts + 2 * pad / ts)| ≤ (1 / 2 + 1 / 2 ^ 17) / fs := by
  unfold sampleCount at h
  by_cases h0 : ts = 0
  · rw [if_pos h0] at h
    cases h
  · rw [if_neg h0] at h
    simp only at h
    have hfq : (0 : ℚ) < fs := by exact_mod_cast hfs
    have hfq' : (fs : ℚ) ≤ 2 ^ 31 := by exact_mod_cast hfs'.le
    have htq : (0 : ℚ) < ts := by exact_mod_cast Nat.pos_of_ne_zero h0
    have htq' : (1 : ℚ) ≤ ts := by exact_mod_cast Nat.pos_of_ne_zero h0
    have hr := quotient_close fs (length + 2 * pad) ts hfq hfq' htq'
    generalize fl64 (fl64 (fs * fl64 (length + 2 * pad)) / ts) = y at h hr
    by_cases hv : 0 ≤ roundAway y ∧ roundAway y < 2 ^ 32
    · rw [if_pos hv] at h
      have hn := Except.ok.inj h
      obtain ⟨z, hz⟩ := roundAway_int y
      have hd := roundAway_dist y
      rw [hz] at hd hn hv
      have hz0 : 0 ≤ z := by exact_mod_cast hv.1
      have ht : truncQ (z : ℚ) = z := by
        unfold truncQ
        rw [if_pos (by exact_mod_cast hz0)]
        simp
      rw [ht] at hn
      have hnz : (n : ℚ) = z := by
        have : (n : ℤ) = z := by omega
        exact_mod_cast this
      rw [hnz]
      have e : (z : ℚ) / fs - (length / ts + 2 * pad / ts) = (z - fs * (length + 2 * pad) / ts) / fs := by
        field_simp
      rw [e, abs_div, abs_of_pos hfq]
      apply div_le_div_of_nonneg_right _ hfq.le
      generalize (fs * (length + 2 * pad) / ts : ℚ) = E at hr
      have a1 := abs_le.1 hr
      have a2 := abs_le.1 hd
      have a3 : |E| ≤ 2 ^ 33 := by
        rw [abs_le]
        constructor
        · rcases abs_cases E with ⟨h1, h2⟩ | ⟨h1, h2⟩ <;> rw [h1] at a1 <;> linarith [hv.1, hv.2]
        · rcases abs_cases E with ⟨h1, h2⟩ | ⟨h1, h2⟩ <;> rw [h1] at a1 <;> linarith [hv.1, hv.2]
      rw [abs_le]
      constructor <;> linarith
    · rw [if_neg hv] at h
      cases h

/-- **C82 (partial).** Without padding, or when ticks are milliseconds, the signals last as long as the experience with
the padding (in milliseconds) before and after it, up to half a sample and a rounding error.
Missing: other timescales (`c82_padding_negation`). -/
theorem c82_duration_partial (length : ℚ) (fs pad : Int) (ts n : Nat) (hfs : 0 < fs) (hfs' : fs < 2 ^ 31) (hp : pad = 0 ∨ ts = 1000)
    (h : sampleCount length fs pad ts = .ok n) :
    |(n : ℚ) / fs - (length / ts + 2 * (pad / 1000))| ≤ (1 / 2 + 1 / 2 ^ 17) / fs := by
  have := count_dist length fs pad ts n hfs hfs' h
  rcases hp with rfl | rfl
  · simpa using this
  · rw [mul_div_assoc] at this
    exact_mod_cast this

example : (sampleCount 2000 8000 100 1000).toOption = some 17600 := by decide +kernel

/-- A channel without bands, with padding of 100 ms. -/
example (parts : Parts) : (synthesize parts { perceptions := [{ channels := [{}] }] } 8000 100).isOk = true := by
  have hc : sampleCount 0 8000 100 1000 = .ok 1600 := by
    have h : (sampleCount 0 8000 100 1000).toOption = some 1600 := by decide +kernel
    cases hs : sampleCount 0 8000 100 1000 with
    | error e => rw [hs] at h; cases h
    | ok n => rw [hs] at h; exact congrArg _ (Option.some.inj h)
  have hl : (Experience.linearize { perceptions := [{ channels := [{}] }] }).timeLength = .ok 0 := rfl
  have hp : ∀ p : Perception, (playChannel parts 0 8000 100 1000 (p, {})) =
      .ok ((List.replicate 1600 (some (0 : ℝ))).map (Option.map (fun x => x * factor p {}))) := by
    intro p
    unfold playChannel
    rw [hc]
    rfl
  unfold synthesize
  rw [hl]
  simp only [bind, Except.bind, playFile, Experience.linearize, Perception.linearizeLibrary, List.map_cons, List.map_nil,
    Option.getD_some, mapE, decodePerception, decodeChannel, pure, Except.pure, channelsOf, List.flatMap_cons,
    List.flatMap_nil, List.append_nil, hp]
  rfl

theorem mapE_forall₂ {α β : Type} (f : α → Except Err β) : ∀ (l : List α) (r : List β), mapE f l = .ok r →
    List.Forall₂ (fun a b => f a = .ok b) l r := by
  intro l
  induction l with
  | nil => intro r h; rw [← Except.ok.inj h]; exact .nil
  | cons x l ih =>
    intro r h
    unfold mapE at h
    split at h
    · cases h
    · rename_i b hb
      split at h
      · cases h
      · rename_i r' hr'
        rw [← Except.ok.inj h]
        exact .cons hb (ih r' hr')

/-- What decoding does to a channel. -/
def ChannelDecoded (parts : Parts) (ts : Nat) (x y : Perception × Channel) : Prop :=
  ∃ bands, List.Forall₂ (Decoded parts ts) x.2.bands bands ∧ y.2 = { x.2 with bands := bands } ∧
    y.1.perceptionUnitExponent = x.1.perceptionUnitExponent

theorem decodeChannel_decoded {parts : Parts} {ts : Nat} {c c' : Channel} (h : decodeChannel parts ts c = .ok c') :
    ∃ bands, List.Forall₂ (Decoded parts ts) c.bands bands ∧ c' = { c with bands := bands } := by
  unfold decodeChannel at h
  cases hb : mapE (decodeBand parts ts) c.bands with
  | error e => rw [hb] at h; cases h
  | ok bs =>
    rw [hb] at h
    refine ⟨bs, (mapE_forall₂ _ _ _ hb).imp (fun b b' hd => ?_), (Except.ok.inj h).symm⟩
    unfold decodeBand at hd
    split at hd
    · exact .wavelet _ (by assumption) hd
    · rw [← Except.ok.inj hd]; exact .other (by assumption)

theorem decodePerception_decoded {parts : Parts} {ts : Nat} {p q : Perception} (h : decodePerception parts ts p = .ok q) :
    List.Forall₂ (ChannelDecoded parts ts) (p.channels.map (fun c => (p, c))) (q.channels.map (fun c => (q, c))) := by
  unfold decodePerception at h
  cases hc : mapE (decodeChannel parts ts) p.channels with
  | error e => rw [hc] at h; cases h
  | ok cs =>
    rw [hc] at h
    have := Except.ok.inj h
    subst this
    rw [List.forall₂_map_left_iff, List.forall₂_map_right_iff]
    refine (mapE_forall₂ _ _ _ hc).imp (fun c c' hd => ?_)
    obtain ⟨bands, h1, h2⟩ := decodeChannel_decoded hd
    exact ⟨bands, h1, h2, rfl⟩

theorem decode_channels {parts : Parts} {ts : Nat} {ps qs : List Perception}
    (h : List.Forall₂ (fun p q => decodePerception parts ts p = .ok q) ps qs) :
    List.Forall₂ (ChannelDecoded parts ts) (channelsOf ps) (channelsOf qs) := by
  induction h with
  | nil => exact .nil
  | cons hx _ ih =>
    unfold channelsOf at ih ⊢
    rw [List.flatMap_cons, List.flatMap_cons]
    exact List.rel_append (decodePerception_decoded hx) ih

theorem forall₂_trans' {α β γ : Type} {R : α → β → Prop} {S : β → γ → Prop} {T : α → γ → Prop}
    (h : ∀ a b c, R a b → S b c → T a c) : ∀ {l1 : List α} {l2 : List β} {l3 : List γ},
    List.Forall₂ R l1 l2 → List.Forall₂ S l2 l3 → List.Forall₂ T l1 l3 := by
  intro l1 l2 l3 h1
  induction h1 generalizing l3 with
  | nil => intro h2; cases h2; exact .nil
  | cons hx _ ih =>
    intro h2
    cases h2 with
    | cons hy h2 => exact .cons (h _ _ _ hx hy) (ih h2)

/-- **C82.** Each signal is what its channel says, references replaced: all its bands, the wavelet bands decoded, at the
timescale of the experience, times gain and power of ten. -/
theorem c82_content (parts : Parts) (h : Experience) (fs pad : Int) (sig : List (List (Option ℝ)))
    (hs : synthesize parts h fs pad = .ok sig) :
    ∃ ts length n, h.timescale = some ts ∧ h.linearize.timeLength = .ok length ∧ sampleCount length fs pad ts = .ok n ∧
      List.Forall₂ (Played parts ts n fs pad) (channelsOf h.linearize.perceptions) sig := by
  obtain ⟨ts, length, n, h1, h2, h3, -⟩ := c82_signals parts h fs pad sig hs
  refine ⟨ts, length, n, h1, h2, h3, ?_⟩
  have hts : h.linearize.timescale = some ts := h1
  unfold synthesize at hs
  rw [h2] at hs
  change playFile parts h.linearize length fs pad = _ at hs
  unfold playFile at hs
  rw [hts] at hs
  cases hp : mapE (decodePerception parts ts) h.linearize.perceptions with
  | error e =>
    change (mapE (decodePerception parts ts) h.linearize.perceptions).bind _ = _ at hs
    rw [hp] at hs; cases hs
  | ok ps =>
    change (mapE (decodePerception parts ts) h.linearize.perceptions).bind _ = _ at hs
    rw [hp] at hs
    change (mapE (playChannel parts length fs pad ts) (channelsOf ps)).bind _ = _ at hs
    cases ha : mapE (playChannel parts length fs pad ts) (channelsOf ps) with
    | error e => rw [ha] at hs; cases hs
    | ok amps =>
      rw [ha] at hs
      change (if amps.isEmpty = true then _ else _) = _ at hs
      by_cases he : amps.isEmpty = true
      · rw [if_pos he] at hs; cases hs
      · rw [if_neg he] at hs
        have := Except.ok.inj hs
        subst this
        refine forall₂_trans' ?_ (decode_channels (mapE_forall₂ _ _ _ hp)) (mapE_forall₂ _ _ _ ha)
        rintro ⟨p, c⟩ ⟨q, c'⟩ s ⟨bands, d1, d2, d3⟩ hpc
        dsimp only at d1 d2 d3
        subst d2
        unfold playChannel at hpc
        rw [h3] at hpc
        change (({ c with bands := bands } : Channel).evaluateChannel parts.samples parts.other n fs pad ts).bind _ = _ at hpc
        cases hv : ({ c with bands := bands } : Channel).evaluateChannel parts.samples parts.other n fs pad ts with
        | error e => rw [hv] at hpc; cases hpc
        | ok r =>
          rw [hv] at hpc
          refine ⟨bands, r, d1, hv, ?_⟩
          rw [← Except.ok.inj hpc]
          unfold factor
          rw [d3]

theorem roundAway_near (x : ℚ) (n : ℕ) (h : |x - n| < 1 / 2) : roundAway x = n := by
  obtain ⟨z, hz⟩ := roundAway_int x
  have hd := abs_le.1 (roundAway_dist x)
  have hx := abs_lt.1 h
  rw [hz] at hd ⊢
  have h1 : (z : ℚ) < (n : ℤ) + 1 := by push_cast; linarith [hd.2, hx.2]
  have h2 : ((n : ℤ) : ℚ) < z + 1 := by push_cast; linarith [hd.1, hx.1]
  have h3 : z < (n : ℤ) + 1 := by exact_mod_cast h1
  have h4 : (n : ℤ) < z + 1 := by exact_mod_cast h2
  have : z = (n : ℤ) := by omega
  rw [this]
  norm_cast

/-- From samples to ticks and back. -/
theorem count_exact (n rate ts : ℕ) (hr : 0 < rate) (hr' : rate < 2 ^ 31) (ht : 0 < ts) (ht' : ts < 2 ^ 32) (hn : n < 2 ^ 32) :
    sampleCount (fl64 (ts * fl64 ((n : ℚ) / rate))) rate 0 ts = .ok n := by
  have hrq : (1 : ℚ) ≤ rate := by exact_mod_cast hr
  have hrq' : (rate : ℚ) ≤ 2 ^ 31 := by exact_mod_cast hr'.le
  have htq : (1 : ℚ) ≤ ts := by exact_mod_cast ht
  have htq' : (ts : ℚ) ≤ 2 ^ 32 := by exact_mod_cast ht'.le
  have hnq : (n : ℚ) ≤ 2 ^ 32 := by exact_mod_cast hn.le
  have hn0 : (0 : ℚ) ≤ n := by positivity
  -- the length in ticks
  have d1 : |rate * fl64 (n / rate) - n| ≤ (n : ℚ) / 2 ^ 53 + 1 / 2 ^ 69 := by
    have h := fl64_within ((n : ℚ) / rate)
    have e : rate * fl64 (n / rate) - n = rate * (fl64 (n / rate) - n / rate) := by
      field_simp
    rw [e, abs_mul, abs_of_pos (by linarith : (0 : ℚ) < rate)]
    rw [abs_of_nonneg (by positivity : (0 : ℚ) ≤ n / rate)] at h
    refine (mul_le_mul_of_nonneg_left h (by linarith)).trans ?_
    have e2 : (rate : ℚ) * (n / rate / 2 ^ 53 + 1 / 2 ^ 100) = n / 2 ^ 53 + rate / 2 ^ 100 := by
      field_simp
    rw [e2]
    linarith
  have hq0 : 0 ≤ fl64 ((n : ℚ) / rate) := flo_nonneg _ _ (by positivity)
  generalize fl64 ((n : ℚ) / rate) = q at *
  have d2 := fl64_within (ts * q)
  rw [abs_of_nonneg (by positivity : (0 : ℚ) ≤ ts * q)] at d2
  have hL0 : 0 ≤ fl64 (ts * q) := flo_nonneg _ _ (by positivity)
  have hLd : fl64 (fl64 (ts * q)) = fl64 (ts * q) := fl64_fl64 _
  generalize fl64 (ts * q) = L at *
  have d3 : |rate * L / ts - n| ≤ (n : ℚ) / 2 ^ 51 + 1 / 2 ^ 60 := by
    have k1 : |rate * L / ts - rate * q| ≤ rate * q / 2 ^ 53 + 1 / 2 ^ 69 := by
      have e : rate * L / ts - rate * q = rate * (L - ts * q) / ts := by field_simp
      rw [e, abs_div, abs_mul, abs_of_pos (by linarith : (0 : ℚ) < rate), abs_of_pos (by linarith : (0 : ℚ) < ts),
        div_le_iff₀ (by linarith)]
      refine (mul_le_mul_of_nonneg_left d2 (by linarith)).trans ?_
      have : rate / 2 ^ 100 ≤ 1 / 2 ^ 69 * (ts : ℚ) := by nlinarith
      have e3 : (rate : ℚ) * (ts * q / 2 ^ 53 + 1 / 2 ^ 100) = rate * q / 2 ^ 53 * ts + rate / 2 ^ 100 := by ring
      rw [e3]
      linarith
    have a1 := abs_le.1 d1
    have a2 := abs_le.1 k1
    rw [abs_le]
    constructor <;> linarith [a1.1, a1.2, a2.1, a2.2]
  have d4 := quotient_close rate L ts (by linarith) hrq' htq
  have hE : |rate * L / ts| ≤ 2 ^ 33 := by
    have := abs_le.1 d3
    rw [abs_le]
    constructor <;> linarith [this.1, this.2]
  have d5 : |fl64 (fl64 (rate * fl64 L) / ts) - n| < 1 / 2 := by
    have a1 := abs_le.1 d3
    have a2 := abs_le.1 d4
    rw [abs_lt]
    constructor <;> linarith [a1.1, a1.2, a2.1, a2.2]
  unfold sampleCount
  rw [if_neg (by omega)]
  simp only [Int.cast_natCast, Int.cast_zero, mul_zero, add_zero]
  rw [roundAway_near _ _ d5, if_pos ⟨hn0, by exact_mod_cast hn⟩]
  congr 1
  unfold truncQ
  rw [if_pos hn0]
  simp

theorem foldl_max_replicate (x : ℚ) (hx : 0 ≤ x) (l : List ℚ) (h : ∀ y ∈ l, y = x) :
    l.foldl max 0 = if l = [] then 0 else x := by
  have : ∀ a, a ≤ x → l.foldl max a = if l = [] then a else x := by
    induction l with
    | nil => intro a _; rfl
    | cons y l ih =>
      intro a ha
      have hy := h y List.mem_cons_self
      subst hy
      rw [List.foldl_cons, max_eq_right ha, ih (fun z hz => h z (List.mem_cons_of_mem _ hz)) y le_rfl]
      simp
  exact this 0 hx

/-- **C82.** A recording has as many samples as before: if all channels have `n` samples at a rate, the signals that are
synthesized at this rate without padding have `n` samples, whatever the timescale is. -/
theorem c82_recording (parts : Parts) (h : Experience) (ts rate n : ℕ) (ht : h.timescale = some ts) (ht' : ts < 2 ^ 32)
    (hr : 0 < rate) (hr' : rate < 2 ^ 31) (hn : n < 2 ^ 32)
    (hc : ∀ p ∈ h.perceptions, ∀ c ∈ p.channels, c.frequencySampling = some rate ∧ c.sampleCount = some n)
    (sig : List (List (Option ℝ))) (hs : synthesize parts h rate 0 = .ok sig) : ∀ s ∈ sig, s.length = n := by
  obtain ⟨ts', length, m, h1, h2, h3, h4, h5, h6⟩ := c82_signals parts h rate 0 sig hs
  rw [ht] at h1
  obtain rfl := Option.some.inj h1
  have hts : 0 < ts := by
    by_contra h0
    unfold sampleCount at h3
    rw [if_pos (by omega)] at h3
    cases h3
  have hlen : ∀ s ∈ sig, s.length = m := by
    intro s hs
    obtain ⟨i, hi, rfl⟩ := List.getElem_of_mem hs
    have hi' : i < (channelsOf h.perceptions).length := by omega
    obtain ⟨s', g1, g2, -⟩ := h6 i _ _ (List.getElem?_eq_getElem hi')
    rw [List.getElem?_eq_getElem hi] at g1
    rw [Option.some.inj g1]
    exact g2
  have hl : length = fl64 (ts * fl64 ((n : ℚ) / rate)) := by
    unfold Experience.timeLength at h2
    have : h.linearize.timescale = some ts := ht
    rw [this] at h2
    simp only at h2
    have hcs : ∀ c ∈ h.linearize.perceptions.flatMap Perception.channels,
        c.frequencySampling = some rate ∧ c.sampleCount = some n := by
      intro c hcm
      obtain ⟨p, hp, hcp⟩ := List.mem_flatMap.1 hcm
      obtain ⟨p0, hp0, rfl⟩ := List.mem_map.1 hp
      obtain ⟨c0, hc0, rfl⟩ := List.mem_map.1 hcp
      exact hc p0 hp0 c0 hc0
    have hne : h.linearize.perceptions.flatMap Perception.channels ≠ [] := by
      intro he
      have hpos : 0 < (channelsOf h.perceptions).length := by
        rw [← h5]; exact List.length_pos_iff.mpr h4
      obtain ⟨p, hp, hcp⟩ := List.mem_flatMap.1 (List.getElem_mem hpos)
      obtain ⟨c, hc', -⟩ := List.mem_map.1 hcp
      have : ({ c with bands := c.bands.map (fun b =>
          { b with effects := b.effects.map (linearizeEffect p.effectLibrary) }) } : Channel) ∈
          h.linearize.perceptions.flatMap Perception.channels :=
        List.mem_flatMap.2 ⟨_, List.mem_map.2 ⟨p, hp, rfl⟩, List.mem_map.2 ⟨c, hc', rfl⟩⟩
      rw [he] at this
      cases this
    generalize h.linearize.perceptions.flatMap Perception.channels = cs at h2 hcs hne
    have hm : ∀ cs : List Channel, (∀ c ∈ cs, c.frequencySampling = some rate ∧ c.sampleCount = some n) →
        mapE (fun c => c.lengths ts) cs = .ok (cs.map (fun _ => [fl64 (ts * fl64 ((n : ℚ) / rate))])) := by
      intro cs hcs
      induction cs with
      | nil => rfl
      | cons c cs ih =>
        have e : c.lengths ts = .ok [fl64 (ts * fl64 ((n : ℚ) / rate))] := by
          unfold Channel.lengths
          rw [(hcs c List.mem_cons_self).1, (hcs c List.mem_cons_self).2]
          simp only
          rw [if_neg (by omega)]
        unfold mapE
        rw [e, ih (fun c hc => hcs c (List.mem_cons_of_mem _ hc))]
        rfl
    rw [hm cs hcs] at h2
    have h2 := (Except.ok.inj h2).symm
    rw [foldl_max_replicate (fl64 (ts * fl64 ((n : ℚ) / rate)))] at h2
    · rw [h2, if_neg]
      intro he
      cases cs with
      | nil => exact hne rfl
      | cons c cs => simp at he
    · exact flo_nonneg _ _ (mul_nonneg (by positivity) (flo_nonneg _ _ (by positivity)))
    · intro y hy
      obtain ⟨l, hl, hyl⟩ := List.mem_flatten.1 hy
      obtain ⟨c, -, rfl⟩ := List.mem_map.1 hl
      simpa using hyl
  rw [hl, count_exact n rate ts hr hr' hts ht' hn] at h3
  obtain rfl := Except.ok.inj h3
  exact hlen

/-- Seven samples at 44100 Hz. -/
example (parts : Parts) :
    (synthesize parts { perceptions := [{ channels := [{ frequencySampling := some 44100, sampleCount := some 7 }] }] }
      (44100 : ℕ) 0).isOk = true := by
  have hc := count_exact 7 44100 1000 (by norm_num) (by norm_num) (by norm_num) (by norm_num) (by norm_num)
  have hp : ∀ p : Perception, (playChannel parts (fl64 ((1000 : ℕ) * fl64 ((7 : ℕ) / (44100 : ℕ)))) (44100 : ℕ) 0 1000
      (p, { frequencySampling := some 44100, sampleCount := some 7 })) =
      .ok ((List.replicate 7 (some (0 : ℝ))).map (Option.map (fun x => x * factor p
        { frequencySampling := some 44100, sampleCount := some 7 }))) := by
    intro p
    unfold playChannel
    rw [hc]
    rfl
  have hl : (Experience.linearize { perceptions :=
      [{ channels := [{ frequencySampling := some 44100, sampleCount := some 7 }] }] }).timeLength =
      .ok (fl64 ((1000 : ℕ) * fl64 ((7 : ℕ) / (44100 : ℕ)))) := by
    have h0 : 0 ≤ fl64 ((1000 : ℕ) * fl64 ((7 : ℕ) / (44100 : ℕ))) :=
      flo_nonneg _ _ (mul_nonneg (by positivity) (flo_nonneg _ _ (by positivity)))
    change Except.ok (max 0 (fl64 ((1000 : ℕ) * fl64 ((7 : ℕ) / (44100 : ℕ))))) = _
    rw [max_eq_right h0]
  unfold synthesize
  rw [hl]
  simp only [bind, Except.bind, playFile, Experience.linearize, Perception.linearizeLibrary, List.map_cons, List.map_nil,
    Option.getD_some, mapE, decodePerception, decodeChannel, pure, Except.pure, channelsOf, List.flatMap_cons,
    List.flatMap_nil, List.append_nil, hp]
  rfl

/-- **C82, what does not hold.** One second of experience at 48000 ticks per second, with a padding of one second before
and after it, should last three seconds; the signals end after 1.05 s, of which the first second is padding. -/
theorem c82_padding_negation : (sampleCount 48000 8000 1000 48000).toOption = some 8333 ∧
    ¬ |(8333 : ℚ) / 8000 - (48000 / 48000 + 2 * (1000 / 1000))| ≤ 1.9 := by
  constructor
  · decide +kernel
  · rw [abs_le]
    norm_num

/-- **C82, what does not hold.** An experience without timescale and one without channels – which is what remains of a
file that cannot be loaded – make the program end with an exception. -/
theorem c82_throws_negation (parts : Parts) (h : Experience) (fs pad : Int)
    (hc : h.timescale = none ∨ h.perceptions = []) : synthesize parts h fs pad = .error .throw := by
  unfold synthesize
  cases ht : h.timescale with
  | none =>
    have : h.linearize.timeLength = .error .throw := by
      unfold Experience.timeLength Experience.linearize
      simp only [ht]
    rw [this]
    rfl
  | some ts =>
    rcases hc with hc | hc
    · rw [hc] at ht
      cases ht
    · have e : h.linearize.perceptions = [] := by
        unfold Experience.linearize
        simp only [hc, List.map_nil]
      have e2 : h.linearize.timescale = some ts := ht
      have : h.linearize.timeLength = .ok 0 := by
        unfold Experience.timeLength
        rw [e2, e]
        rfl
      rw [this]
      change playFile parts h.linearize 0 fs pad = _
      unfold playFile
      rw [e, e2]
      rfl

/-! ### The program -/

/-- **C82.** The program ends with 0 or 1, writes a file exactly when it ends with 0 and was not asked for help, and then
under the name and at the rate that were asked for, or `out.wav` and 8000 Hz. -/
theorem c82_run (env : Env) (tokens : List Str) (code : Int) (out : Option Output)
    (h : run env tokens = .ok (code, out)) :
    (code = 0 ∨ code = 1) ∧ (out.isSome ↔ code = 0 ∧ lit "-h" ∉ tokens ∧ lit "--help" ∉ tokens) ∧
    ∀ w, out = some w →
      ((valueOf tokens (lit "-o") (lit "--output") ≠ [] ∧ w.file = valueOf tokens (lit "-o") (lit "--output")) ∨
        (valueOf tokens (lit "-o") (lit "--output") = [] ∧ w.file = lit "out.wav")) ∧
      0 < w.rate ∧
      (stoi (valueOf tokens (lit "-fs") (lit "--sampling_frequency")) = .ok w.rate ∨
        (valueOf tokens (lit "-fs") (lit "--sampling_frequency") = [] ∧ w.rate = 8000)) ∧
      ∃ x pad, padOf tokens = .ok pad ∧ inputOf env tokens (valueOf tokens (lit "-f") (lit "--file")) = .ok (some x) ∧
        synthesize env.parts x w.rate pad = .ok w.signals ∧ ohmFile env.bits tokens x.linearize = .ok w.ohm := by
  have n : ∀ x : Str, cmdOptionExists tokens x = true ↔ x ∈ tokens := by
    intro x
    unfold cmdOptionExists
    simp
  unfold run at h
  by_cases hh : (cmdOptionExists tokens (lit "-h") || cmdOptionExists tokens (lit "--help")) = true
  · rw [if_pos hh] at h
    obtain ⟨rfl, rfl⟩ := Prod.mk.inj (Except.ok.inj h)
    rw [Bool.or_eq_true, n, n] at hh
    exact ⟨Or.inl rfl, by simp; tauto, fun w hw => by cases hw⟩
  · rw [if_neg hh] at h
    rw [Bool.or_eq_true, n, n, not_or] at hh
    have fail : ∀ {c : Int} {o : Option Output}, (1, none) = (c, o) →
        (c = 0 ∨ c = 1) ∧ (o.isSome ↔ c = 0 ∧ lit "-h" ∉ tokens ∧ lit "--help" ∉ tokens) ∧ o = none := by
      rintro c o e
      obtain ⟨rfl, rfl⟩ := Prod.mk.inj e
      exact ⟨Or.inr rfl, by simp, rfl⟩
    simp only at h
    split at h
    · obtain ⟨a, b, c⟩ := fail (Except.ok.inj h)
      exact ⟨a, b, fun w hw => by rw [c] at hw; cases hw⟩
    · cases hr : rateOf tokens with
      | error e => rw [hr] at h; cases h
      | ok rate =>
        rw [hr] at h
        cases rate with
        | none =>
          obtain ⟨a, b, c⟩ := fail (Except.ok.inj h)
          exact ⟨a, b, fun w hw => by rw [c] at hw; cases hw⟩
        | some fs =>
          change (padOf tokens).bind _ = _ at h
          cases hp : padOf tokens with
          | error e => rw [hp] at h; cases h
          | ok pad =>
            rw [hp] at h
            change (inputOf env tokens _).bind _ = _ at h
            cases hi : inputOf env tokens (valueOf tokens (lit "-f") (lit "--file")) with
            | error e => rw [hi] at h; cases h
            | ok input =>
              rw [hi] at h
              cases input with
              | none =>
                obtain ⟨a, b, c⟩ := fail (Except.ok.inj h)
                exact ⟨a, b, fun w hw => by rw [c] at hw; cases hw⟩
              | some x =>
                change (synthesize env.parts x fs pad).bind _ = _ at h
                cases hs : synthesize env.parts x fs pad with
                | error e => rw [hs] at h; cases h
                | ok sig =>
                  rw [hs] at h
                  change (ohmFile env.bits tokens x.linearize).bind _ = _ at h
                  cases ho : ohmFile env.bits tokens x.linearize with
                  | error e => rw [ho] at h; cases h
                  | ok ohm =>
                  rw [ho] at h
                  obtain ⟨rfl, rfl⟩ := Prod.mk.inj (Except.ok.inj h)
                  refine ⟨Or.inl rfl, by simpa using hh, ?_⟩
                  rintro w hw
                  have hw := Option.some.inj hw
                  subst hw
                  have hrate : 0 < fs ∧ (stoi (valueOf tokens (lit "-fs") (lit "--sampling_frequency")) = .ok fs ∨
                      (valueOf tokens (lit "-fs") (lit "--sampling_frequency") = [] ∧ fs = 8000)) := by
                    unfold rateOf at hr
                    split at hr
                    · rename_i he
                      have := Option.some.inj (Except.ok.inj hr)
                      subst this
                      exact ⟨by norm_num, Or.inr ⟨by simpa using he, rfl⟩⟩
                    · cases hst : stoi (valueOf tokens (lit "-fs") (lit "--sampling_frequency")) with
                      | error e => rw [hst] at hr; cases hr
                      | ok v =>
                        rw [hst] at hr
                        have := Except.ok.inj hr
                        by_cases hv : v ≤ 0
                        · rw [if_pos hv] at this
                          cases this
                        · rw [if_neg hv] at this
                          have := Option.some.inj this
                          subst this
                          exact ⟨by omega, Or.inl rfl⟩
                  refine ⟨?_, hrate.1, hrate.2, x, pad, rfl, rfl, hs, ho⟩
                  simp only
                  unfold outputName
                  split
                  · rename_i he
                    exact Or.inr ⟨by simpa using he, rfl⟩
                  · rename_i he
                    exact Or.inl ⟨by simpa using he, rfl⟩

/-- The padding is never negative. -/
theorem c82_pad (tokens : List Str) (pad : Int) (h : padOf tokens = .ok pad) : 0 ≤ pad := by
  unfold padOf at h
  split at h
  · have := Except.ok.inj h
    omega
  · cases hs : stoi (getCmdOption tokens (lit "--pad")) with
    | error e => rw [hs] at h; cases h
    | ok v =>
      rw [hs] at h
      have : max v 0 = pad := Except.ok.inj h
      omega

end Haptics.SynthMain
