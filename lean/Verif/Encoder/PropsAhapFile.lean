import Verif.Encoder.PropsAhapCurve

/-! C77, C78: the events of AHAP files. -/

namespace Haptics.Ahap
open Haptics

/-! ### Amplitude and frequency of an event -/

theorem amplitude_near {m v : ℚ} (hm : fl64 m = m) (hm0 : 0 ≤ m) (hm1 : m ≤ 1) (h0 : 0 ≤ v) (h1 : v ≤ 1) :
    (0 ≤ fl32 (normalize64 0 1 0 m (fl64 v)) ∧ fl32 (normalize64 0 1 0 m (fl64 v)) ≤ 1) ∧
    |fl32 (normalize64 0 1 0 m (fl64 v)) - m * v| ≤ 1 / 2 ^ 21 := by
  unfold normalize64
  have e1 : fl64 ((1 : ℚ) - 0) = 1 := by rw [sub_zero]; exact fl64_one
  rw [e1, if_pos (by norm_num), sub_zero, hm, div_one, hm]
  obtain ⟨u0, u1⟩ := fl64_unit h0 h1
  have a := fl64_near (x := v) (B := 1) le_rfl (by rw [abs_le]; constructor <;> linarith)
  obtain ⟨a1, a2⟩ := abs_le.mp a
  generalize fl64 v = u at *
  have b := fl64_near (x := u - 1) (B := 1) le_rfl (by rw [abs_le]; constructor <;> linarith)
  obtain ⟨b1, b2⟩ := abs_le.mp b
  have b3 : ((-1 : Int) : ℚ) ≤ fl64 (u - 1) := int_le_fl64 (by norm_num) (by push_cast; linarith)
  have b4 : fl64 (u - 1) ≤ ((0 : Int) : ℚ) := fl64_le_int (by norm_num) (by push_cast; linarith)
  push_cast at b3 b4
  generalize fl64 (u - 1) = w at *
  have c := fl64_near (x := m * w) (B := 1) le_rfl (by rw [abs_le]; constructor <;> nlinarith)
  obtain ⟨c1, c2⟩ := abs_le.mp c
  have c3 : -m ≤ fl64 (m * w) := by
    have : fl64 (-m) ≤ fl64 (m * w) := fl64_mono (by nlinarith)
    rwa [show fl64 (-m) = -m by unfold fl64; rw [flo_neg]; exact congrArg Neg.neg hm] at this
  have c4 : fl64 (m * w) ≤ ((0 : Int) : ℚ) := fl64_le_int (by norm_num) (by push_cast; nlinarith)
  push_cast at c4
  have e2 : |m * w - m * (v - 1)| ≤ 2 / 2 ^ 52 := by
    rw [← mul_sub, abs_mul, abs_of_nonneg hm0]
    have : |w - (v - 1)| ≤ 2 / 2 ^ 52 := by rw [abs_le]; constructor <;> linarith
    nlinarith [abs_nonneg (w - (v - 1))]
  obtain ⟨d1, d2⟩ := abs_le.mp e2
  generalize fl64 (m * w) = x at *
  have f := fl64_near (x := x + m) (B := 1) le_rfl (by rw [abs_le]; constructor <;> linarith)
  obtain ⟨f1, f2⟩ := abs_le.mp f
  have f3 : 0 ≤ fl64 (x + m) := flo_nonneg _ _ (by linarith)
  have f4 : fl64 (x + m) ≤ ((1 : Int) : ℚ) := fl64_le_int (by norm_num) (by push_cast; linarith)
  push_cast at f4
  generalize fl64 (x + m) = y at *
  have g := fl32_err y 1 le_rfl (by rw [abs_le]; constructor <;> linarith)
  obtain ⟨g1, g2⟩ := abs_le.mp g
  refine ⟨⟨flo_nonneg _ _ f3, ?_⟩, ?_⟩
  · have := fl32_mono f4
    have h1 := fl32_int 1 (by norm_num)
    push_cast at h1
    rwa [h1] at this
  · rw [abs_le]
    constructor <;> linarith

theorem lastIntensity_valid {ps : List Parameter} (h : ∀ p ∈ ps, p.Valid) {v : ℚ} (hv : lastIntensity ps = some v) :
    0 ≤ v ∧ v ≤ 1 := by
  have : v ∈ ps.filterMap (fun p => match p with | .intensity v => some v | _ => none) := List.mem_of_getLast? hv
  obtain ⟨p, hp, he⟩ := List.mem_filterMap.mp this
  cases p with
  | sharpness w => simp at he
  | intensity w =>
    simp only [Option.some.injEq] at he
    exact he ▸ h _ hp

theorem lastSharpness_valid {ps : List Parameter} (h : ∀ p ∈ ps, p.Valid) {v : ℚ} (hv : lastSharpness ps = some v) :
    0 ≤ v ∧ v ≤ 1 := by
  have : v ∈ ps.filterMap (fun p => match p with | .sharpness v => some v | _ => none) := List.mem_of_getLast? hv
  obtain ⟨p, hp, he⟩ := List.mem_filterMap.mp this
  cases p with
  | intensity w => simp at he
  | sharpness w =>
    simp only [Option.some.injEq] at he
    exact he ▸ h _ hp

theorem amplitudeFor_near {m c : ℚ} (hm : fl64 m = m) (hm0 : 0 ≤ m) (hm1 : m ≤ 1) (hc : |m - c| ≤ 1 / 2 ^ 50)
    {ps : List Parameter} (h : ∀ p ∈ ps, p.Valid) :
    (0 ≤ amplitudeFor m ps (1 / 2) ∧ amplitudeFor m ps (1 / 2) ≤ 1) ∧
    (match lastIntensity ps with
      | none => amplitudeFor m ps (1 / 2) = 1 / 2
      | some v => |amplitudeFor m ps (1 / 2) - c * v| ≤ 1 / 10 ^ 6) := by
  unfold amplitudeFor
  cases hv : lastIntensity ps with
  | none => exact ⟨by norm_num, rfl⟩
  | some v =>
    obtain ⟨h0, h1⟩ := lastIntensity_valid h hv
    obtain ⟨a, b⟩ := amplitude_near hm hm0 hm1 h0 h1
    refine ⟨a, ?_⟩
    show |fl32 (normalize64 0 1 0 m (fl64 v)) - c * v| ≤ 1 / 10 ^ 6
    have e : |m * v - c * v| ≤ 1 / 2 ^ 50 := by
      rw [← sub_mul, abs_mul, abs_of_nonneg h0]
      nlinarith [abs_nonneg (m - c)]
    obtain ⟨b1, b2⟩ := abs_le.mp b
    obtain ⟨e1, e2⟩ := abs_le.mp e
    rw [abs_le]; constructor <;> linarith

theorem most_continuous : fl64 ACTUAL_AMPLITUDE_MIN_C = ACTUAL_AMPLITUDE_MIN_C ∧ 0 ≤ ACTUAL_AMPLITUDE_MIN_C ∧
    ACTUAL_AMPLITUDE_MIN_C ≤ 1 ∧ |ACTUAL_AMPLITUDE_MIN_C - 6138 / 10000| ≤ 1 / 2 ^ 50 := by decide +kernel
theorem most_transient : fl64 ACTUAL_AMPLITUDE_MIN_T = ACTUAL_AMPLITUDE_MIN_T ∧ 0 ≤ ACTUAL_AMPLITUDE_MIN_T ∧
    ACTUAL_AMPLITUDE_MIN_T ≤ 1 ∧ |ACTUAL_AMPLITUDE_MIN_T - 792 / 1000| ≤ 1 / 2 ^ 50 := by decide +kernel

theorem sharpnessFor_near {ps : List Parameter} (h : ∀ p ∈ ps, p.Valid) :
    (match lastSharpness ps with
      | none => sharpnessFor ps 1 = 1 ∧ frequencyFor ps 90 = 90
      | some v => |sharpnessFor ps 1 - v| ≤ 1 / 10 ^ 6 ∧ inHz v - 1 - 1 / 1000 ≤ frequencyFor ps 90 ∧
        frequencyFor ps 90 ≤ inHz v + 1 / 1000) := by
  unfold sharpnessFor frequencyFor
  cases hv : lastSharpness ps with
  | none => exact ⟨rfl, rfl⟩
  | some v =>
    obtain ⟨h0, h1⟩ := lastSharpness_valid h hv
    show |fl64 v - v| ≤ 1 / 10 ^ 6 ∧ inHz v - 1 - 1 / 1000 ≤ truncQ (toHz (fl64 v)) ∧
      (truncQ (toHz (fl64 v)) : ℚ) ≤ inHz v + 1 / 1000
    have a := fl64_near (x := v) (B := 1) le_rfl (by rw [abs_le]; constructor <;> linarith)
    obtain ⟨a1, a2⟩ := abs_le.mp a
    obtain ⟨u0, u1⟩ := fl64_unit h0 h1
    have b := toHz_near (f := fl64 v) (by linarith) u1
    obtain ⟨b1, b2⟩ := abs_le.mp b
    unfold inHz at *
    have hpos : 0 ≤ toHz (fl64 v) := by linarith
    refine ⟨by rw [abs_le]; constructor <;> linarith, ?_⟩
    unfold truncQ
    rw [if_pos hpos]
    have c1 := Int.floor_le (toHz (fl64 v))
    have c2 := Int.lt_floor_add_one (toHz (fl64 v))
    constructor <;> linarith

/-! ### Continuous events -/

theorem continuous_of {A F : List Point} (hA : Rising A) (hF : Rising F) (gA : GoodPoints A) (gF : GoodPoints F)
    {ts : Nat} (hts : ts < 2 ^ 32) {t d : ℚ} {ps : List Parameter} (hv : (Item.continuous t d ps).Valid ts) {e : Effect}
    (h : ContinuousOf A F ts (t, d, ps) e) : IsContinuous A F ts t d ps e := by
  obtain ⟨kfs, hk, he⟩ := h
  obtain ⟨m1, m2, m3, m4⟩ := most_continuous
  obtain ⟨a1, a2⟩ := amplitudeFor_near m1 m2 m3 m4 hv.2.2.2.2
  exact ⟨_, _, _, a2, sharpnessFor_near hv.2.2.2.2, kfs,
    c77_keyframes A F hA hF gA gF _ _ (eventTick_pos ts hv.2.2.2.1 hv.2.2.1 hts) _ _ a1
      (sharpnessFor_unit ps hv.2.2.2.2) _ kfs hk, he⟩

/-! ### Transients -/

theorem head_split {points pre : List Point} {p q : Point} {rest : List Point} (h : points = pre ++ p :: rest)
    (hq : points.head? = some q) : pre = [] ∧ q = p ∨ q ∈ pre := by
  subst h
  cases pre with
  | nil => exact Or.inl ⟨rfl, (Option.some.inj hq).symm⟩
  | cons z l =>
    obtain rfl := Option.some.inj hq
    exact Or.inr List.mem_cons_self

/-- The point before an iterator and the one at it are neighbours, and they are the only ones around the time. -/
theorem split_cases (points : List Point) (hr : Rising points) (x : Int) :
    (pointsFrom points x = [] ∧ ∀ p ∈ points, p.1 < x) ∨
    (∃ p rest, pointsFrom points x = p :: rest ∧ (pointsBefore points x).getLast? = none ∧
      points.head? = some p ∧ x ≤ p.1 ∧ ∀ a b, Ivs.Neighbours points a b → ¬ a.1 < x) ∨
    (∃ p rest q, pointsFrom points x = p :: rest ∧ (pointsBefore points x).getLast? = some q ∧
      q ∈ points ∧ p ∈ points ∧ q.1 < x ∧ x ≤ p.1 ∧ (∀ z, points.head? = some z → z.1 < x) ∧
      ∀ a b, Ivs.Neighbours points a b → a.1 < x → x ≤ b.1 → a = q ∧ b = p) := by
  have hsp : pointsBefore points x ++ pointsFrom points x = points := List.takeWhile_append_dropWhile
  have hb : ∀ p ∈ pointsBefore points x, p.1 < x := fun p hp => by
    simpa using List.mem_takeWhile_imp hp
  cases hf : pointsFrom points x with
  | nil =>
    refine Or.inl ⟨rfl, fun p hp => hb p ?_⟩
    rw [hf, List.append_nil] at hsp
    rwa [hsp]
  | cons p rest =>
    have hp : x ≤ p.1 := by
      have := List.head?_dropWhile_not (fun p : Point => decide (p.1 < x)) points
      unfold pointsFrom at hf
      rw [hf] at this
      simpa using this
    rw [hf] at hsp
    rcases List.eq_nil_or_concat (pointsBefore points x) with hpre | ⟨init, q, hpre⟩
    · refine Or.inr (Or.inl ⟨p, rest, rfl, by rw [hpre]; rfl, ?_, hp, ?_⟩)
      · rw [← hsp, hpre]; rfl
      · intro a b hn hax
        have ham := (neighbours_mem hn).1
        rw [← hsp, hpre, List.nil_append] at ham
        rw [← hsp, hpre, List.nil_append] at hr
        rcases List.mem_cons.mp ham with rfl | ham
        · omega
        · have := (List.pairwise_cons.mp hr).1 a ham
          omega
    · rw [List.concat_eq_append] at hpre
      have hq : q.1 < x := hb q (by rw [hpre]; simp)
      refine Or.inr (Or.inr ⟨p, rest, q, rfl, by rw [hpre]; simp, ?_, ?_, hq, hp, ?_, ?_⟩)
      · rw [← hsp, hpre]; simp
      · rw [← hsp]; simp
      · intro z hz
        rcases head_split hsp.symm hz with ⟨h0, -⟩ | hz
        · rw [h0] at hpre
          exact absurd hpre (by simp)
        · exact hb z hz
      · have hn0 : Ivs.Neighbours points q p := ⟨init, rest, by rw [← hsp, hpre]; simp⟩
        intro a b hn ha hb
        exact neighbours_unique (x := x - 1) hr hn hn0 (by omega) (by omega) (by omega) (by omega)

theorem transient_of {A F : List Point} (hA : Rising A) (hF : Rising F) (gA : GoodPoints A) (gF : GoodPoints F)
    {ts : Nat} {t : ℚ} {ps : List Parameter} (hv : (Item.transient t ps).Valid ts) {e : Effect}
    (h : TransientOf A F ts (t, ps) e) :
    ∃ k, IsTransient A F ts t ps k ∧ e.keyframes.map (fun k =>
      { k with relativePosition := some (k.relativePosition.getD 0 + e.position) }) = [k] := by
  obtain ⟨a, f, ha, hf, he⟩ := h
  obtain ⟨m1, m2, m3, m4⟩ := most_transient
  obtain ⟨a1, a2⟩ := amplitudeFor_near m1 m2 m3 m4 hv.2.2
  refine ⟨⟨some (eventTick ts t), some a, some f⟩, ⟨rfl, ?_, ?_⟩, ?_⟩
  · change transientAmplitude A (eventTick ts t) (amplitudeFor ACTUAL_AMPLITUDE_MIN_T ps (1 / 2)) = .ok a at ha
    refine ⟨amplitudeFor ACTUAL_AMPLITUDE_MIN_T ps (1 / 2), a, rfl, a2, ?_⟩
    generalize amplitudeFor ACTUAL_AMPLITUDE_MIN_T ps (1 / 2) = base at *
    unfold transientAmplitude at ha
    rcases split_cases A hA (eventTick ts t) with ⟨e1, e2⟩ | ⟨p, rest, e1, e2, e3, e4, e5⟩ |
        ⟨p, rest, q, e1, e2, e3, e4, e5, e6, e7, e8⟩
    · rw [e1] at ha
      have ha : base = a := by
        cases hx : (pointsBefore A (eventTick ts t)).getLast? <;> rw [hx] at ha <;> exact Except.ok.inj ha
      refine ⟨fun p q hn _ hq => ?_, fun p hp hq => ?_, fun _ => ha.symm⟩
      · have := e2 q (neighbours_mem hn).2; omega
      · have := e2 p (List.mem_of_head? hp); omega
    · rw [e1, e2] at ha
      have ha := Except.ok.inj ha
      refine ⟨fun a b hn h1 _ => absurd h1 (e5 a b hn), fun z hz _ => ?_, fun hall => ?_⟩
      · rw [e3] at hz
        obtain rfl := Option.some.inj hz
        obtain ⟨-, -, v1, v2⟩ := gA p (List.mem_of_head? e3)
        have hv : |p.2| ≤ 1 := abs_le.mpr ⟨v1, v2⟩
        rw [← ha]
        exact product_near a1 hv (fl32_unit hv)
      · have := hall p (List.mem_of_head? e3); omega
    · rw [e1, e2] at ha
      change (interpolated q p (eventTick ts t)).bind _ = _ at ha
      cases hy : interpolated q p (eventTick ts t) with
      | error x => rw [hy] at ha; cases ha
      | ok y =>
        rw [hy] at ha
        have ha := Except.ok.inj ha
        refine ⟨fun b c hn h1 h2 => ?_, fun z hz hq => ?_, fun hall => ?_⟩
        · obtain ⟨rfl, rfl⟩ := e8 b c hn h1 h2
          rw [← ha]
          exact interpolated_near a1 h1 h2 (gA b e3) (gA c e4) hy
        · have := e7 z hz; omega
        · have := hall p e4; omega
  · change transientFrequency F (eventTick ts t) = .ok f at hf
    refine ⟨f, rfl, ?_⟩
    unfold transientFrequency at hf
    rcases split_cases F hF (eventTick ts t) with ⟨e1, e2⟩ | ⟨p, rest, e1, e2, e3, e4, e5⟩ |
        ⟨p, rest, q, e1, e2, e3, e4, e5, e6, e7, e8⟩
    · rw [e1] at hf
      have hf : 90 = f := by
        cases hx : (pointsBefore F (eventTick ts t)).getLast? <;> rw [hx] at hf <;> exact Except.ok.inj hf
      refine ⟨fun p q hn _ hq => ?_, fun p hp hq => ?_, fun _ => hf.symm⟩
      · have := e2 q (neighbours_mem hn).2; omega
      · have := e2 p (List.mem_of_head? hp); omega
    · rw [e1, e2] at hf
      have hf : 300 = f := Except.ok.inj hf
      refine ⟨fun a b hn h1 _ => absurd h1 (e5 a b hn), fun _ _ _ => hf.symm, fun hall => ?_⟩
      have := hall p (List.mem_of_head? e3); omega
    · rw [e1, e2] at hf
      obtain ⟨y, hy, hy1, hy2⟩ := linear64_bounds e5 e6 (by have := (gF q e3).1; omega)
        (by have := (gF p e4).2.1; omega) (gF q e3).2.2 (gF p e4).2.2
      obtain ⟨y', hy', hnear⟩ := linear64_near e5 e6 (by have := (gF q e3).1; omega)
        (by have := (gF p e4).2.1; omega) (gF q e3).2.2 (gF p e4).2.2
      rw [hy] at hy'
      obtain rfl := Option.some.inj hy'
      have hf : (castInt (toHz y)).bind (fun freq => .ok (freq + 90)) = .ok f := by
        simp only [hy] at hf
        exact hf
      obtain ⟨b1, b2⟩ := toHz_bounds hy1 hy2
      rw [castInt_ok (by linarith) (by linarith)] at hf
      have hf90 : truncQ (toHz y) + 90 = f := Except.ok.inj hf
      refine ⟨fun b c hn h1 h2 => ?_, fun z hz hq => ?_, fun hall => ?_⟩
      · obtain ⟨rfl, rfl⟩ := e8 b c hn h1 h2
        have c := toHz_near hy1 hy2
        obtain ⟨c1, c2⟩ := abs_le.mp c
        obtain ⟨d1, d2⟩ := abs_le.mp hnear
        have g : |(truncQ (toHz y) : ℚ) - toHz y| ≤ 1 := by
          unfold truncQ
          split
          · have g1 := Int.floor_le (toHz y)
            have g2 := Int.lt_floor_add_one (toHz y)
            rw [abs_le]; constructor <;> linarith
          · have g1 := Int.le_ceil (toHz y)
            have g2 := Int.ceil_lt_add_one (toHz y)
            rw [abs_le]; constructor <;> linarith
        obtain ⟨g1, g2⟩ := abs_le.mp g
        rw [← hf90]
        push_cast
        unfold inHz at *
        rw [abs_le]; constructor <;> linarith
      · have := e7 z hz; omega
      · have := hall p e4; omega
  · rw [he]
    simp [eventEffect]

theorem transients_of {A F : List Point} (hA : Rising A) (hF : Rising F) (gA : GoodPoints A) (gF : GoodPoints F)
    {ts : Nat} {l : List (ℚ × List Parameter)} (hv : ∀ x ∈ l, (Item.transient x.1 x.2).Valid ts) {T : List Effect}
    (h : List.Forall₂ (TransientOf A F ts) l T) :
    ∃ kfs, List.Forall₂ (fun x k => IsTransient A F ts x.1 x.2 k) l kfs ∧ transientBand T = bandOf kfs := by
  suffices ∃ kfs, List.Forall₂ (fun x k => IsTransient A F ts x.1 x.2 k) l kfs ∧
      (transientEffect T).keyframes = kfs by
    obtain ⟨kfs, h1, h2⟩ := this
    refine ⟨kfs, h1, ?_⟩
    rw [← h2]
    rfl
  induction h with
  | nil => exact ⟨[], .nil, rfl⟩
  | @cons x e l T h _ ih =>
    obtain ⟨k, hk, e1⟩ := transient_of hA hF gA gF (t := x.1) (ps := x.2) (hv x List.mem_cons_self) h
    obtain ⟨kfs, h1, h2⟩ := ih (fun y hy => hv y (List.mem_cons_of_mem _ hy))
    refine ⟨k :: kfs, .cons hk h1, ?_⟩
    unfold transientEffect at h2 ⊢
    rw [List.flatMap_cons, e1]
    exact congrArg (k :: ·) h2

theorem transients_valid {ts : Nat} {items : List Item} (h : ∀ i ∈ items, i.Valid ts) :
    ∀ x ∈ transients items, (Item.transient x.1 x.2).Valid ts := by
  intro x hx
  obtain ⟨i, hi, he⟩ := List.mem_filterMap.mp hx
  cases i with
  | transient t ps => obtain rfl := Option.some.inj he; exact h _ hi
  | continuous t d ps => cases he
  | intensityCurve t ps => cases he
  | sharpnessCurve t ps => cases he

theorem continuous_valid {ts : Nat} {items : List Item} (h : ∀ i ∈ items, i.Valid ts) :
    ∀ x ∈ continuous items, (Item.continuous x.1 x.2.1 x.2.2).Valid ts := by
  intro x hx
  obtain ⟨i, hi, he⟩ := List.mem_filterMap.mp hx
  cases i with
  | transient t ps => cases he
  | continuous t d ps => obtain rfl := Option.some.inj he; exact h _ hi
  | intensityCurve t ps => cases he
  | sharpnessCurve t ps => cases he

theorem forall₂_valid {α β : Type} {R S : α → β → Prop} {l : List α} {m : List β} (h : List.Forall₂ R l m)
    (hs : ∀ x ∈ l, ∀ y, R x y → S x y) : List.Forall₂ S l m := by
  induction h with
  | nil => exact .nil
  | cons h _ ih => exact .cons (hs _ List.mem_cons_self _ h) (ih (fun x hx => hs x (List.mem_cons_of_mem _ hx)))

/-- How the channel of a file is made. -/
theorem encode_parts (ts : Nat) (hts : ts < 2 ^ 32) (items : List Item) (h : ∀ i ∈ items, i.Valid ts) (p : Perception)
    (hp : Ready p) (hc : Covered ts items) :
    ∃ c T C, encode (fileOf items) ts p = .ok (some { p with channels := [c] }) ∧
      List.Forall₂ (fun x e => TransientOf (intensityPoints ts items) (sharpnessPoints ts items) ts x e)
        (transients items) T ∧
      List.Forall₂ (ContinuousOf (intensityPoints ts items) (sharpnessPoints ts items) ts) (continuous items) C ∧
      (∀ e ∈ C, e.Timed) ∧ fillChannel (channelOf p) T C = .ok c := by
  have gF := good_sharpness ts hts items h
  obtain ⟨T, C, e1, e2, e3⟩ := (extractEvents_cases (intensityPoints ts items) (sharpnessPoints ts items) ts hts gF
    items h).1 hc
  obtain ⟨c, c1, -⟩ := fillChannel_ok hts h e3 hp T
  refine ⟨c, T, C, ?_, e2, e3, continuous_timed hts h e3, c1⟩
  rw [encode_eq ts hts items h p hp.1, e1]
  show (fillChannel (channelOf p) T C).bind _ = _
  rw [c1]
  rfl

/-- **C78.** What becomes of a file with values in the ranges of the format, whose curves are in the order of time and
reach all its continuous events: the perception has one channel; it has the bands it had, and one more band with one
effect holding all transients, in the order of the file.  The continuous events are effects of their own, distributed
to vectorial bands, each of which plays one of them at a time. -/
theorem c78_file (ts : Nat) (hts : ts < 2 ^ 32) (items : List Item) (h : ∀ i ∈ items, i.Valid ts) (p : Perception)
    (hp : Ready p) (hc : Covered ts items) (hA : Rising (intensityPoints ts items))
    (hF : Rising (sharpnessPoints ts items)) :
    ∃ c kfs C, encode (fileOf items) ts p = .ok (some { p with channels := [c] }) ∧
      List.Forall₂ (fun x k => IsTransient (intensityPoints ts items) (sharpnessPoints ts items) ts x.1 x.2 k)
        (transients items) kfs ∧
      List.Forall₂ (fun x e => IsContinuous (intensityPoints ts items) (sharpnessPoints ts items) ts x.1 x.2.1 x.2.2 e)
        (continuous items) C ∧
      Extends 65 300 { channelOf p with bands := (channelOf p).bands ++ [bandOf kfs] } c ∧
      c.effects.Perm ((channelOf p).effects ++ (bandOf kfs).effects ++ C) ∧
      ∀ b ∈ c.bands, b.bandType = BandType.VectorialWave → b.Sequential := by
  have gA := good_intensity ts hts items h
  have gF := good_sharpness ts hts items h
  obtain ⟨T, C, e1, e2, e3⟩ := (extractEvents_cases (intensityPoints ts items) (sharpnessPoints ts items) ts hts gF
    items h).1 hc
  obtain ⟨kfs, k1, k2⟩ := transients_of hA hF gA gF (transients_valid h) e2
  obtain ⟨c, c1, c2, c3, c4⟩ := fillChannel_ok hts h e3 hp T
  have k3 : [transientEffect T] = (bandOf kfs).effects := congrArg Band.effects k2
  refine ⟨c, kfs, C, ?_, k1, ?_, k2 ▸ c2, k3 ▸ c3, c4⟩
  · rw [encode_eq ts hts items h p hp.1, e1]
    show (fillChannel (channelOf p) T C).bind _ = _
    rw [c1]
    rfl
  · exact forall₂_valid e3 (fun x hx y hy => continuous_of hA hF gA gF hts (continuous_valid h x hx) hy)

/-- A file with two curves in two parts each, a continuous event across them and transients, one before the curves. -/
def wholeFile : List Item :=
  [.intensityCurve (1 / 10) [(0, 1), (1 / 5, 1 / 2)], .intensityCurve (1 / 2) [(0, 1 / 4), (1, 1)],
   .sharpnessCurve 0 [(1 / 5, 0), (2, 1 / 2)], .transient (3 / 10) [.intensity 1, .sharpness (1 / 2)],
   .continuous (1 / 10) 1 [.sharpness (1 / 4), .intensity (1 / 2)], .transient 0 []]

theorem wholeFile_valid : ∀ i ∈ wholeFile, i.Valid 1000 := by
  intro i hi
  simp only [wholeFile, List.mem_cons, List.not_mem_nil, or_false] at hi
  rcases hi with rfl | rfl | rfl | rfl | rfl | rfl
  · refine ⟨by norm_num, fun p hp => ?_⟩
    simp only [List.mem_cons, List.not_mem_nil, or_false] at hp
    rcases hp with rfl | rfl <;> norm_num
  · refine ⟨by norm_num, fun p hp => ?_⟩
    simp only [List.mem_cons, List.not_mem_nil, or_false] at hp
    rcases hp with rfl | rfl <;> norm_num
  · refine ⟨by norm_num, fun p hp => ?_⟩
    simp only [List.mem_cons, List.not_mem_nil, or_false] at hp
    rcases hp with rfl | rfl <;> norm_num
  · refine ⟨by norm_num, by norm_num, fun p hp => ?_⟩
    simp only [List.mem_cons, List.not_mem_nil, or_false] at hp
    rcases hp with rfl | rfl <;> norm_num [Parameter.Valid]
  · refine ⟨by norm_num, by norm_num, by norm_num, by norm_num, fun p hp => ?_⟩
    simp only [List.mem_cons, List.not_mem_nil, or_false] at hp
    rcases hp with rfl | rfl <;> norm_num [Parameter.Valid]
  · exact ⟨by norm_num, by norm_num, fun p hp => by cases hp⟩

example : (∀ i ∈ wholeFile, i.Valid 1000) ∧ Ready emptyPerception ∧ Covered 1000 wholeFile ∧
    Rising (intensityPoints 1000 wholeFile) ∧ Rising (sharpnessPoints 1000 wholeFile) :=
  ⟨wholeFile_valid, ⟨Nat.zero_le _, fun c hc => by cases hc⟩, by decide +kernel⟩

/-- Points of the curves of a valid file meet the hypotheses of `c77_keyframes`. -/
example : GoodPoints (intensityPoints 1000 wholeFile) ∧ GoodPoints (sharpnessPoints 1000 wholeFile) ∧
    (continuousKeyframes (intensityPoints 1000 wholeFile) (sharpnessPoints 1000 wholeFile) 100 1000 (1 / 2) (1 / 4)
      123).toOption.map (·.map (·.relativePosition)) = some [some 0, some 100, some 200, some 400, some 1000] :=
  ⟨good_intensity 1000 (by norm_num) _ wholeFile_valid, good_sharpness 1000 (by norm_num) _ wholeFile_valid,
    by decide +kernel⟩

/-! ### What a designer may expect and does not get -/

/-- **C77, what does not hold.** The last point of an intensity curve has no effect on an event that goes on after it:
at that point the amplitude is already the one of the event, instead of 0 as the curve says. -/
theorem c77_last_point_negation : ∃ (A : List Point) (kfs : List Keyframe), Rising A ∧ GoodPoints A ∧
    (500, 0) ∈ A ∧ continuousKeyframes A [] 0 1000 (1 / 2) 1 90 = .ok kfs ∧ ⟨some 500, some (1 / 2), none⟩ ∈ kfs := by
  refine ⟨[(0, 1), (500, 0)], [⟨some 0, some (1 / 2), some 90⟩, ⟨some 500, some (1 / 2), none⟩,
    ⟨some 1000, some (1 / 2), some 90⟩], by decide +kernel, ?_, by decide, by decide +kernel, by simp⟩
  intro p hp
  simp only [List.mem_cons, List.not_mem_nil, or_false] at hp
  rcases hp with rfl | rfl <;> norm_num

/-- **C77, what does not hold.** At the end of an event within a sharpness curve the frequency is not the one of curve
and event: the sharpness of the event is added twice, and the curve rises half as fast.  Here the sharpness is 1/4 and
the curve is at 1/4: together 182.5 Hz. -/
theorem c77_end_frequency_negation : ∃ (F : List Point) (kfs : List Keyframe), Rising F ∧ GoodPoints F ∧
    Ivs.Neighbours F (0, 0) (1000, 1 / 2) ∧ Ivs.lineAt (0, 0) (1000, 1 / 2) (500 : Int) = 1 / 4 ∧
    inHz (1 / 4 + 1 / 4) = 365 / 2 ∧
    continuousKeyframes [] F 0 500 (1 / 2) (1 / 4) 123 = .ok kfs ∧
    kfs.getLast? = some ⟨some 500, some (1 / 2), some 212⟩ := by
  refine ⟨[(0, 0), (1000, 1 / 2)], [⟨some 0, some (1 / 2), some 124⟩, ⟨some 500, some (1 / 2), some 212⟩],
    by decide +kernel, ?_, ⟨[], [], rfl⟩, by decide +kernel, by decide +kernel, by decide +kernel, rfl⟩
  intro p hp
  simp only [List.mem_cons, List.not_mem_nil, or_false] at hp
  rcases hp with rfl | rfl <;> norm_num

/-- **C77.** Events are at the tick nearest to their time, control points at the last one before it, within a
thousandth of a tick. -/
theorem c77_ticks (ts : Nat) (hts : ts < 2 ^ 32) (s t : ℚ) (hs : 0 ≤ s) (ht : 0 ≤ t) (h : (s + t) * ts ≤ 2 ^ 29) :
    |(eventTick ts t : ℚ) - t * ts| ≤ 1 / 2 + 1 / 1000 ∧
    (s + t) * ts - 1 - 1 / 1000 < (pointTick ts s t : ℚ) ∧ (pointTick ts s t : ℚ) ≤ (s + t) * ts + 1 / 1000 := by
  have hp : 0 ≤ s * ts := mul_nonneg hs (Nat.cast_nonneg _)
  obtain ⟨a, b, -⟩ := pointTick_close ts hs ht h hts
  exact ⟨(eventTick_close ts ht (by linarith) hts).1, a, b⟩

example : (1000 : Nat) < 2 ^ 32 ∧ ((1 / 10 : ℚ) + 7 / 3) * (1000 : Nat) ≤ 2 ^ 29 := by norm_num

/-- **C77, what does not hold.** A control point and an event at the same time can be at different ticks. -/
theorem c77_tick_negation : ∃ t : ℚ, eventTick 1000 t = 1001 ∧ pointTick 1000 t 0 = 1000 :=
  ⟨1001 / 1000, by decide +kernel⟩

/-- **C78.** A perception with two channels or more is refused. -/
theorem c78_refused (json : Json.Json) (ts : Nat) (p : Perception) (h : 2 ≤ p.channels.length) :
    encode json ts p = .ok none := by
  unfold encode
  rw [if_pos (by omega)]

/-- **C78, what does not hold.** A file without transients still makes a transient band, with an effect that has no
keyframes. -/
theorem c78_empty_band (ts : Nat) (hts : ts < 2 ^ 32) (items : List Item) (h : ∀ i ∈ items, i.Valid ts)
    (p : Perception) (hp : Ready p) (hc : Covered ts items) (hA : Rising (intensityPoints ts items))
    (hF : Rising (sharpnessPoints ts items)) (ht : transients items = []) :
    ∃ c, encode (fileOf items) ts p = .ok (some { p with channels := [c] }) ∧
      c.bands[(channelOf p).bands.length]? = some (bandOf []) := by
  obtain ⟨c, kfs, C, h1, h2, -, h4, -⟩ := c78_file ts hts items h p hp hc hA hF
  refine ⟨c, h1, ?_⟩
  rw [ht] at h2
  cases h2
  obtain ⟨b', g1, -, -, g2⟩ := h4.old (channelOf p).bands.length (bandOf []) (by simp)
  rw [g1, g2 (by decide)]

/-- The two events of this file are in the wrong order. -/
def backwards : List Item := [.transient 1 [], .transient (1 / 2) []]

theorem backwards_valid : ∀ i ∈ backwards, i.Valid 1000 := by
  intro i hi
  simp only [backwards, List.mem_cons, List.not_mem_nil, or_false] at hi
  rcases hi with rfl | rfl <;> exact ⟨by norm_num, by norm_num, fun p hp => by cases hp⟩

/-- **C78, what does not hold.** Transients are not put in the order of time: the keyframes of the effect go back when
the file does. -/
theorem c78_order_negation : ∃ c kfs, encode (fileOf backwards) 1000 emptyPerception
      = .ok (some { emptyPerception with channels := [c] }) ∧ c.bands[0]? = some (bandOf kfs) ∧
    kfs.map (·.relativePosition) = [some 1000, some 500] := by
  obtain ⟨c, kfs, C, h1, h2, -, h4, -⟩ := c78_file 1000 (by norm_num) backwards backwards_valid emptyPerception
    ⟨Nat.zero_le _, fun c hc => by cases hc⟩ (by decide +kernel) (by decide +kernel) (by decide +kernel)
  refine ⟨c, kfs, h1, ?_, ?_⟩
  · obtain ⟨b', g1, -, -, g2⟩ := h4.old 0 (bandOf kfs) rfl
    rw [g1, g2 (show BandType.Transient ≠ BandType.VectorialWave by decide)]
  · change List.Forall₂ _ [(1, []), (1 / 2, [])] kfs at h2
    cases h2 with
    | cons a h2 =>
      cases h2 with
      | cons b h2 =>
        cases h2
        rw [List.map_cons, List.map_cons, List.map_nil, a.time, b.time]
        decide +kernel

end Haptics.Ahap
