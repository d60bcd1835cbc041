import Verif.Main.RateLemmas
import Verif.Eval.PropsSplines

/-! Lemmas of C104: Akima and Bézier curves at two sampling frequencies. -/

namespace Haptics
open Splines

/-! ### Akima -/

theorem scaled_getD (m p0 : ℤ) (pts : List (ℤ × ℚ)) (i : ℕ) :
    (scaled m p0 pts).getD i (0, 0) = (m * ((scaled 1 p0 pts).getD i (0, 0)).1, ((scaled 1 p0 pts).getD i (0, 0)).2) := by
  unfold scaled
  rw [List.getD_eq_getElem?_getD, List.getD_eq_getElem?_getD, List.getElem?_map, List.getElem?_map]
  cases pts[i]? with
  | none => simp
  | some q => simp

theorem scaled_length (m p0 : ℤ) (pts : List (ℤ × ℚ)) : (scaled m p0 pts).length = pts.length := by
  unfold scaled
  exact List.length_map _

theorem lineSlope_scaled {m : ℤ} (p0 : ℤ) (pts : List (ℤ × ℚ)) (i : ℕ) :
    lineSlope (scaled m p0 pts) i = lineSlope (scaled 1 p0 pts) i / m := by
  unfold lineSlope
  rw [scaled_getD m p0 pts (i + 1), scaled_getD m p0 pts i]
  simp only
  push_cast
  rw [← mul_sub, div_div, mul_comm (m : ℝ)]

theorem extendedSlope_scaled {m : ℤ} (p0 : ℤ) (pts : List (ℤ × ℚ)) (j : ℤ) :
    extendedSlope (scaled m p0 pts) j = extendedSlope (scaled 1 p0 pts) j / m := by
  unfold extendedSlope
  simp only [scaled_length, lineSlope_scaled (m := m)]
  split_ifs <;> ring

theorem changeAfter_scaled {m : ℤ} (hm : 0 < m) (p0 : ℤ) (pts : List (ℤ × ℚ)) (i : ℕ) :
    changeAfter (scaled m p0 pts) i = changeAfter (scaled 1 p0 pts) i / m := by
  have h : (0 : ℝ) < m := by exact_mod_cast hm
  unfold changeAfter
  rw [extendedSlope_scaled, extendedSlope_scaled (m := m), ← sub_div, abs_div, abs_of_pos h]

theorem changeBefore_scaled {m : ℤ} (hm : 0 < m) (p0 : ℤ) (pts : List (ℤ × ℚ)) (i : ℕ) :
    changeBefore (scaled m p0 pts) i = changeBefore (scaled 1 p0 pts) i / m := by
  have h : (0 : ℝ) < m := by exact_mod_cast hm
  unfold changeBefore
  rw [extendedSlope_scaled, extendedSlope_scaled (m := m), ← sub_div, abs_div, abs_of_pos h]

theorem akimaSlope_scaled {m : ℤ} (hm : 0 < m) (p0 : ℤ) (pts : List (ℤ × ℚ)) (i : ℕ) :
    akimaSlope (scaled m p0 pts) i = akimaSlope (scaled 1 p0 pts) i / m := by
  have h : (0 : ℝ) < m := by exact_mod_cast hm
  have hiff : (∀ j < (scaled m p0 pts).length, (changeAfter (scaled m p0 pts) j + changeBefore (scaled m p0 pts) j) / 10 ^ 8 <
        changeAfter (scaled m p0 pts) i + changeBefore (scaled m p0 pts) i) ↔
      ∀ j < (scaled 1 p0 pts).length, (changeAfter (scaled 1 p0 pts) j + changeBefore (scaled 1 p0 pts) j) / 10 ^ 8 <
        changeAfter (scaled 1 p0 pts) i + changeBefore (scaled 1 p0 pts) i := by
    simp only [scaled_length, changeAfter_scaled hm, changeBefore_scaled hm]
    refine forall_congr' fun j => imp_congr Iff.rfl ?_
    rw [← add_div, ← add_div, div_right_comm]
    exact div_lt_div_iff_of_pos_right h
  unfold akimaSlope
  by_cases hc : ∀ j < (scaled 1 p0 pts).length, (changeAfter (scaled 1 p0 pts) j + changeBefore (scaled 1 p0 pts) j) / 10 ^ 8 <
        changeAfter (scaled 1 p0 pts) i + changeBefore (scaled 1 p0 pts) i
  · rw [if_pos (hiff.mpr hc), if_pos hc]
    simp only [changeAfter_scaled hm, changeBefore_scaled hm, extendedSlope_scaled (m := m)]
    rw [← add_div]
    generalize changeAfter (scaled 1 p0 pts) i = a
    generalize changeBefore (scaled 1 p0 pts) i = b
    by_cases hab : a + b = 0
    · rw [hab]; simp
    · field_simp
  · rw [if_neg (fun h => hc (hiff.mp h)), if_neg hc]
    exact extendedSlope_scaled p0 pts _

theorem hermite_scaled {m : ℝ} (hm : 0 < m) (x0 y0 s0 x1 y1 s1 x : ℝ) :
    hermite (m * x0) y0 (s0 / m) (m * x1) y1 (s1 / m) x = hermite x0 y0 s0 x1 y1 s1 (x / m) := by
  unfold hermite
  have e : (x - m * x0) / (m * x1 - m * x0) = (x / m - x0) / (x1 - x0) := by
    rw [← mul_sub, show x - m * x0 = m * (x / m - x0) by field_simp, mul_div_mul_left _ _ hm.ne']
  rw [e]
  simp only
  generalize (x / m - x0) / (x1 - x0) = u
  field_simp

theorem hermite_ends (x0 y0 s0 x1 y1 s1 : ℝ) (h : x0 < x1) :
    hermite x0 y0 s0 x1 y1 s1 x0 = y0 ∧ hermite x0 y0 s0 x1 y1 s1 x1 = y1 := by
  unfold hermite
  constructor
  · rw [sub_self, zero_div]; simp
  · rw [div_self (by intro hc; linarith)]; norm_num

/-- The value of an Akima curve at `x` ticks. -/
def AkimaAt (p0 : ℤ) (pts : List (ℤ × ℚ)) (x v : ℝ) : Prop :=
  ∃ k, k + 1 < pts.length ∧ (((scaled 1 p0 pts).getD k (0, 0)).1 : ℝ) ≤ x ∧ x ≤ (((scaled 1 p0 pts).getD (k + 1) (0, 0)).1 : ℝ) ∧
    v = hermite ((scaled 1 p0 pts).getD k (0, 0)).1 ((scaled 1 p0 pts).getD k (0, 0)).2 (akimaSlope (scaled 1 p0 pts) k)
      ((scaled 1 p0 pts).getD (k + 1) (0, 0)).1 ((scaled 1 p0 pts).getD (k + 1) (0, 0)).2 (akimaSlope (scaled 1 p0 pts) (k + 1)) x

theorem akimaAt_unique {p0 : ℤ} {pts : List (ℤ × ℚ)} (ho : (pts.map Prod.fst).Pairwise (· < ·)) {x v w : ℝ} (hv : AkimaAt p0 pts x v)
    (hw : AkimaAt p0 pts x w) : v = w := by
  have hinc := scaled_increasing (m := 1) (p0 := p0) (by decide) ho
  have hl := scaled_length 1 p0 pts
  unfold AkimaAt at hv hw
  generalize scaled 1 p0 pts = P at *
  have key : ∀ {k k' : ℕ}, k < k' → k' + 1 < pts.length → x ≤ ((P.getD (k + 1) (0, 0)).1 : ℝ) → ((P.getD k' (0, 0)).1 : ℝ) ≤ x →
      hermite (P.getD k (0, 0)).1 (P.getD k (0, 0)).2 (akimaSlope P k) (P.getD (k + 1) (0, 0)).1 (P.getD (k + 1) (0, 0)).2 (akimaSlope P (k + 1)) x =
      hermite (P.getD k' (0, 0)).1 (P.getD k' (0, 0)).2 (akimaSlope P k') (P.getD (k' + 1) (0, 0)).1 (P.getD (k' + 1) (0, 0)).2 (akimaSlope P (k' + 1)) x := by
    intro k k' hk hk' h1 h2
    have hkk : k' = k + 1 := by
      by_contra hne
      have h3 := getD_lt P hinc (k + 1) k' (by omega) (by omega)
      have h4 : ((P.getD (k + 1) (0, 0)).1 : ℝ) < (P.getD k' (0, 0)).1 := by exact_mod_cast h3
      linarith
    subst hkk
    have hx : x = ((P.getD (k + 1) (0, 0)).1 : ℝ) := le_antisymm h1 h2
    have l1 : ((P.getD k (0, 0)).1 : ℝ) < (P.getD (k + 1) (0, 0)).1 := by exact_mod_cast getD_lt P hinc k (k + 1) (by omega) (by omega)
    have l2 : ((P.getD (k + 1) (0, 0)).1 : ℝ) < (P.getD (k + 1 + 1) (0, 0)).1 := by
      exact_mod_cast getD_lt P hinc (k + 1) (k + 1 + 1) (by omega) (by omega)
    rw [hx, (hermite_ends _ _ _ _ _ _ l1).2, (hermite_ends _ _ _ _ _ _ l2).1]
  obtain ⟨k, k1, k2, k3, rfl⟩ := hv
  obtain ⟨k', k1', k2', k3', rfl⟩ := hw
  rcases Nat.lt_trichotomy k k' with h | h | h
  · exact key h k1' k3 k2'
  · subst h; rfl
  · exact (key h k1 k3' k2).symm

theorem akima_value {m p0 : ℤ} (hm : 0 < m) {pts : List (ℤ × ℚ)} (ho : (pts.map Prod.fst).Pairwise (· < ·)) (h3 : 3 ≤ pts.length)
    (hh : pts.head?.map Prod.fst = some p0) {r : List ℝ} (hr : akima (scaled m p0 pts) = .ok r) {i : ℕ} (hi : i < r.length) :
    AkimaAt p0 pts ((i : ℝ) / m) (r.getD i 0) := by
  have hm' : (0 : ℝ) < m := by exact_mod_cast hm
  have h0 : ((scaled m p0 pts).getD 0 (0, 0)).1 = 0 := by
    cases pts with
    | nil => cases hh
    | cons q l =>
      have : q.1 = p0 := Option.some.inj hh
      simp [scaled, this]
  obtain ⟨r', e, -, -, hv⟩ := c87_akima (scaled m p0 pts) (by rw [scaled_length]; exact h3) h0 (scaled_increasing hm ho)
  rw [hr] at e
  have := Except.ok.inj e
  subst this
  obtain ⟨k, k1, k2, k3, k4⟩ := hv i hi
  rw [scaled_length] at k1
  rw [scaled_getD] at k2 k3
  rw [scaled_getD m p0 pts k, scaled_getD m p0 pts (k + 1), akimaSlope_scaled hm, akimaSlope_scaled hm] at k4
  simp only at k2 k3 k4
  refine ⟨k, k1, ?_, ?_, ?_⟩
  · rw [le_div_iff₀ hm', mul_comm]; exact_mod_cast k2
  · rw [div_le_iff₀ hm', mul_comm]; exact_mod_cast k3
  · rw [k4]
    push_cast
    exact hermite_scaled hm' _ _ _ _ _ _ _

/-! ### Bézier -/

/-- The parameter of a Bézier curve with the control positions 0, `α` and `β` at which it is at `x`. -/
noncomputable def parameterAt (α β x : ℝ) : Option ℝ :=
  if β - 2 * α ≠ 0 then
    if α ^ 2 - x * (2 * α - β) < 0 then none else some ((-α + Real.sqrt (α ^ 2 - x * (2 * α - β))) / (β - 2 * α))
  else if 2 * α = 0 then none else some (x / (2 * α))

theorem bezierT_scaled {m : ℤ} (hm : 0 < m) (α β : ℤ) (i : ℕ) :
    bezierT (m * α + 1) (m * β + 1) ((i : ℤ) + 1) = parameterAt α β ((i : ℝ) / m) := by
  have hm' : (0 : ℝ) < m := by exact_mod_cast hm
  have e1 : (1 - 2 * (m * α + 1) + (m * β + 1) : ℤ) = m * (β - 2 * α) := by ring
  have hiff : (m * (β - 2 * α) ≠ 0) ↔ ((β : ℝ) - 2 * α ≠ 0) := by
    have : ((β : ℝ) - 2 * α) = ((β - 2 * α : ℤ) : ℝ) := by push_cast; ring
    rw [this, Int.cast_ne_zero]
    constructor
    · intro h hc; exact h (by rw [hc, mul_zero])
    · intro h hc; exact h (by rcases mul_eq_zero.mp hc with h' | h' <;> omega)
  have e2 : ((m * α + 1 : ℤ) : ℝ) ^ 2 - 2 * ((i : ℤ) + 1 : ℤ) * ((m * α + 1 : ℤ) : ℝ) + (((i : ℤ) + 1 : ℤ) : ℝ) * 1
      + (((i : ℤ) + 1 : ℤ) : ℝ) * ((m * β + 1 : ℤ) : ℝ) - 1 * ((m * β + 1 : ℤ) : ℝ)
      = (m : ℝ) ^ 2 * ((α : ℝ) ^ 2 - (i : ℝ) / m * (2 * α - β)) := by
    push_cast
    field_simp
    ring
  unfold bezierT parameterAt
  simp only [e1, e2]
  by_cases hc : m * (β - 2 * α) ≠ 0
  · rw [if_pos hc, if_pos (hiff.mp hc)]
    have hs : ((m : ℝ) ^ 2 * ((α : ℝ) ^ 2 - (i : ℝ) / m * (2 * α - β)) < 0) ↔ ((α : ℝ) ^ 2 - (i : ℝ) / m * (2 * α - β)) < 0 := by
      constructor
      · intro h; by_contra hn; push Not at hn; have := mul_nonneg (sq_nonneg (m : ℝ)) hn; linarith
      · intro h; exact mul_neg_of_pos_of_neg (by positivity) h
    simp only [hs]
    split
    · rfl
    · unfold fdiv
      rw [if_neg (by exact_mod_cast hc)]
      rw [Real.sqrt_mul (sq_nonneg _), Real.sqrt_sq hm'.le]
      congr 1
      push_cast
      rw [show (1 - ((m : ℝ) * α + 1) + m * Real.sqrt ((α : ℝ) ^ 2 - (i : ℝ) / m * (2 * α - β))) =
        m * (-α + Real.sqrt ((α : ℝ) ^ 2 - (i : ℝ) / m * (2 * α - β))) by ring, mul_div_mul_left _ _ hm'.ne']
  · rw [if_neg hc, if_neg (fun h => hc (hiff.mpr h))]
    have e3 : ((2 * (1 - (m * α + 1)) : ℤ) : ℝ) = -(m * (2 * α)) := by push_cast; ring
    have e4 : ((1 - ((i : ℤ) + 1) : ℤ) : ℝ) = -(m * ((i : ℝ) / m)) := by push_cast; field_simp; ring
    unfold fdiv
    rw [e3, e4]
    by_cases hz : (2 : ℝ) * α = 0
    · rw [if_pos (by rw [hz]; simp), if_pos hz]
    · rw [if_neg (by simpa [hm.ne'] using hz), if_neg hz, neg_div_neg_eq, mul_div_mul_left _ _ hm'.ne']

theorem bezier_proportional {m m' : ℤ} (hm : 0 < m) (hm' : 0 < m') (p0 : ℤ) : ∀ (n : ℕ) (pts : List (ℤ × ℚ)), pts.length ≤ n → (pts.map Prod.fst).Pairwise (· < ·) →
    ∀ c c', bezier (scaled m p0 pts) = .ok c → bezier (scaled m' p0 pts) = .ok c' → ∀ a b : ℕ, a < c.length → b < c'.length →
    (a : ℤ) * m' = b * m → c[a]? = c'[b]?
  | n, [], _, _, c, c', h, _, _, _, _, _, _ => by cases h
  | n, [q], _, _, c, c', h, h', a, b, ha, hb, _ => by
    have := Except.ok.inj h
    subst this
    have := Except.ok.inj h'
    subst this
    simp only [List.length_singleton, Nat.lt_one_iff] at ha hb
    subst ha hb
    rfl
  | n, [q, q'], _, _, c, c', h, h', a, b, ha, hb, _ => by
    have := Except.ok.inj h
    subst this
    have := Except.ok.inj h'
    subst this
    simp only [List.length_singleton, Nat.lt_one_iff] at ha hb
    subst ha hb
    rfl
  | 0, q0 :: q1 :: q2 :: l, hn, _, _, _, _, _, _, _, _, _, _ => by simp at hn
  | n + 1, q0 :: q1 :: q2 :: l, hn, ho, c, c', h, h', a, b, ha, hb, hab => by
    have hs : ∀ m : ℤ, scaled m p0 (q0 :: q1 :: q2 :: l) = (m * (q0.1 - p0), (q0.2 : ℝ)) :: (m * (q1.1 - p0), (q1.2 : ℝ)) :: (m * (q2.1 - p0), (q2.2 : ℝ)) :: scaled m p0 l :=
      fun _ => rfl
    have hs2 : ∀ m : ℤ, scaled m p0 (q2 :: l) = (m * (q2.1 - p0), (q2.2 : ℝ)) :: scaled m p0 l := fun _ => rfl
    rw [hs, bezier, ← hs2] at h h'
    have hseg : ∀ m : ℤ, 0 < m → ∀ s, bezierSegment (m * (q0.1 - p0), (q0.2 : ℝ)) (m * (q1.1 - p0), (q1.2 : ℝ)) (m * (q2.1 - p0), (q2.2 : ℝ)) = .ok s →
        s.length = (m * (q2.1 - q0.1)).toNat ∧ ∀ i < s.length, s[i]? = some ((parameterAt ((q1.1 - q0.1 : ℤ) : ℝ) ((q2.1 - q0.1 : ℤ) : ℝ) ((i : ℝ) / m)).map (bezierY q0.2 q1.2 q2.2)) := by
      intro m hm s hs
      unfold bezierSegment at hs
      have e1 : m * (q1.1 - p0) - m * (q0.1 - p0) + 1 = m * (q1.1 - q0.1) + 1 := by ring
      have e2 : m * (q2.1 - p0) - m * (q0.1 - p0) + 1 = m * (q2.1 - q0.1) + 1 := by ring
      simp only [e1, e2] at hs
      split at hs
      · cases hs
      · have := Except.ok.inj hs
        subst this
        have hl : ((m * (q2.1 - q0.1) + 1 - 1).toNat) = (m * (q2.1 - q0.1)).toNat := by rw [add_sub_cancel_right]
        refine ⟨by simp, fun i hi => ?_⟩
        simp only [List.length_map, List.length_range] at hi
        rw [List.getElem?_map, List.getElem?_map, List.getElem?_range hi]
        simp only [Option.map_some]
        rw [bezierT_scaled hm]
    generalize hS : bezierSegment (m * (q0.1 - p0), (q0.2 : ℝ)) (m * (q1.1 - p0), (q1.2 : ℝ)) (m * (q2.1 - p0), (q2.2 : ℝ)) = S at h
    generalize hS' : bezierSegment (m' * (q0.1 - p0), (q0.2 : ℝ)) (m' * (q1.1 - p0), (q1.2 : ℝ)) (m' * (q2.1 - p0), (q2.2 : ℝ)) = S' at h'
    cases S with
    | error x => cases h
    | ok s =>
    cases S' with
    | error x => cases h'
    | ok s' =>
    simp only at h h'
    generalize hR : bezier (scaled m p0 (q2 :: l)) = R at h
    generalize hR' : bezier (scaled m' p0 (q2 :: l)) = R' at h'
    cases R with
    | error x => cases h
    | ok r =>
    cases R' with
    | error x => cases h'
    | ok r' =>
    have := Except.ok.inj h
    subst this
    have := Except.ok.inj h'
    subst this
    obtain ⟨l1, v1⟩ := hseg m hm s hS
    obtain ⟨l2, v2⟩ := hseg m' hm' s' hS'
    have hq : q0.1 < q2.1 := by
      simp only [List.map_cons, List.pairwise_cons] at ho
      exact ho.1 _ (by simp)
    have z1 : (s.length : ℤ) = m * (q2.1 - q0.1) := by
      rw [l1]; have : 0 ≤ m * (q2.1 - q0.1) := mul_nonneg hm.le (by omega); omega
    have z2 : (s'.length : ℤ) = m' * (q2.1 - q0.1) := by
      rw [l2]; have : 0 ≤ m' * (q2.1 - q0.1) := mul_nonneg hm'.le (by omega); omega
    generalize q2.1 - q0.1 = B at *
    have hiff : a < s.length ↔ b < s'.length := by
      have w1 : a < s.length ↔ (a : ℤ) * m' < m * B * m' := by
        rw [← z1, mul_lt_mul_iff_left₀ hm']; omega
      have w2 : b < s'.length ↔ (b : ℤ) * m < m' * B * m := by
        rw [← z2, mul_lt_mul_iff_left₀ hm]; omega
      rw [w1, w2, hab, show m * B * m' = m' * B * m by ring]
    by_cases hlt : a < s.length
    · have hlt' := hiff.mp hlt
      rw [List.getElem?_append_left hlt, List.getElem?_append_left hlt', v1 a hlt, v2 b hlt']
      have : (a : ℝ) / m = (b : ℝ) / m' := by
        rw [div_eq_div_iff (by exact_mod_cast hm.ne') (by exact_mod_cast hm'.ne')]
        exact_mod_cast hab
      rw [this]
    · have hlt' : ¬ b < s'.length := fun hc => hlt (hiff.mpr hc)
      rw [List.getElem?_append_right (by omega), List.getElem?_append_right (by omega)]
      rw [List.length_append] at ha hb
      refine bezier_proportional hm hm' p0 n (q2 :: l) (by simp at hn ⊢; omega) ?_ r r' hR hR' _ _ (by omega) (by omega) ?_
      · simp only [List.map_cons, List.pairwise_cons] at ho ⊢
        exact ho.2.2
      · rw [Nat.cast_sub (by omega), Nat.cast_sub (by omega), z1, z2]
        linear_combination hab

/-! ### All but B-splines -/

/-- The interpolations of the program, but B-splines, depend only on the proportions of times. -/
theorem proportional_splines (rnd : ℝ → ℝ) (fuel : ℕ) {ct : ℕ} (h5 : ct ≠ 5) : Proportional (splines rnd fuel) ct := by
  by_cases h35 : 3 ≤ ct ∧ ct ≤ 5
  · have hl : ct ≠ CurveType.Linear := by show ct ≠ 2; omega
    intro pts p0 m m' c c' hm hm' ho h3 hh hc hc' a b ha hb hab
    unfold interpolateCurve splines at hc hc'
    simp only at hc hc'
    rw [if_neg hl, if_pos h35] at hc hc'
    by_cases ct3 : ct = 3
    · rw [if_pos ct3] at hc hc'
      generalize hr : akima (scaled m p0 pts) = r at hc
      generalize hr' : akima (scaled m' p0 pts) = r' at hc'
      cases r with
      | error x => cases hc
      | ok r =>
      cases r' with
      | error x => cases hc'
      | ok r' =>
      have := Except.ok.inj hc
      subst this
      have := Except.ok.inj hc'
      subst this
      rw [List.length_map] at ha hb
      have v1 := akima_value (by omega) ho h3 hh hr ha
      have v2 := akima_value (by omega) ho h3 hh hr' hb
      have hq : (a : ℝ) / m = (b : ℝ) / m' := by
        have r1 : (m : ℝ) ≠ 0 := by exact_mod_cast (show m ≠ 0 by omega)
        have r2 : (m' : ℝ) ≠ 0 := by exact_mod_cast (show m' ≠ 0 by omega)
        rw [div_eq_div_iff r1 r2]
        exact_mod_cast hab
      rw [hq] at v1
      have hv := akimaAt_unique ho v1 v2
      rw [getD_get _ _ _ ha, getD_get _ _ _ hb] at hv
      rw [List.getElem?_map, List.getElem?_map, List.getElem?_eq_getElem ha, List.getElem?_eq_getElem hb, hv]
    · rw [if_neg ct3, if_pos (by omega)] at hc hc'
      exact bezier_proportional (by omega) (by omega) p0 _ pts le_rfl ho c c' hc hc' a b ha hb hab
  · exact proportional_segments h35

end Haptics
