import Verif.Eval.Natural
import Verif.Eval.SpecNatural
import Verif.Eval.PropsCurve
import Mathlib.Tactic.FieldSimp
import Mathlib.Tactic.Ring
import Mathlib.Tactic.Linarith

/-! ## C112: cubic splines through keyframes -/

namespace Haptics.Splines
open Haptics

section Generic
variable {K : Type} [Field K] [LinearOrder K] [IsStrictOrderedRing K]

theorem step_duration (pts : List (ℤ × K)) (i : ℕ) : step pts i = duration pts i := by
  unfold step duration timeAt
  push_cast
  rfl

theorem sweep_bounds (pts : List (ℤ × K)) : ∀ i, (∀ j ≤ i, 0 < step pts j) →
    0 ≤ (sweep pts i).1 ∧ (sweep pts i).1 < 1
  | 0, _ => by simp [sweep]
  | i + 1, h => by
    obtain ⟨h1, h2⟩ := sweep_bounds pts i fun j hj => h j (by omega)
    have h3 := h i (by omega)
    have h4 := h (i + 1) le_rfl
    have hl : step pts (i + 1) < pivot pts (i + 1) (sweep pts i).1 := by
      unfold pivot
      rw [show timeAt pts (i + 1 + 1) - timeAt pts (i + 1 - 1) = step pts (i + 1) + step pts i from by unfold step; rw [Nat.add_sub_cancel]; ring, Nat.add_sub_cancel]
      nlinarith
    simp only [sweep]
    exact ⟨div_nonneg h4.le (h4.trans hl).le, (div_lt_one (h4.trans hl)).mpr hl⟩

theorem pivot_pos (pts : List (ℤ × K)) (i : ℕ) (h : ∀ j ≤ i + 1, 0 < step pts j) : 0 < pivot pts (i + 1) (sweep pts i).1 := by
  obtain ⟨h1, h2⟩ := sweep_bounds pts i fun j hj => h j (by omega)
  have h3 := h i (by omega)
  have h4 := h (i + 1) le_rfl
  unfold pivot
  rw [show timeAt pts (i + 1 + 1) - timeAt pts (i + 1 - 1) = step pts (i + 1) + step pts i from by unfold step; rw [Nat.add_sub_cancel]; ring, Nat.add_sub_cancel]
  nlinarith

theorem backward_step (pts : List (ℤ × K)) (n j : ℕ) (h : j < n) :
    backward pts n (n - j) = (sweep pts j).2 - (sweep pts j).1 * backward pts n (n - (j + 1)) := by
  obtain ⟨d, rfl⟩ : ∃ d, n = j + 1 + d := ⟨n - (j + 1), by omega⟩
  rw [show j + 1 + d - j = d + 1 by omega, show j + 1 + d - (j + 1) = d by omega, backward, show j + 1 + d - (d + 1) = j by omega]

/-- The equations of a natural spline. -/
theorem tridiagonal (pts : List (ℤ × K)) (n j : ℕ) (hj : j + 1 < n) (h : ∀ j < n, 0 < step pts j) :
    step pts j * backward pts n (n - j) + 2 * (step pts j + step pts (j + 1)) * backward pts n (n - (j + 1)) +
      step pts (j + 1) * backward pts n (n - (j + 2)) = alpha pts (j + 1) := by
  have h1 := backward_step pts n j (by omega)
  have h2 := backward_step pts n (j + 1) (by omega)
  have hp := pivot_pos pts j fun i hi => h i (by omega)
  rw [h1]
  simp only [sweep] at h2
  have h3 : pivot pts (j + 1) (sweep pts j).1 * backward pts n (n - (j + 1)) =
      alpha pts (j + 1) - step pts j * (sweep pts j).2 - step pts (j + 1) * backward pts n (n - (j + 2)) := by
    rw [h2]
    field_simp
  have h4 : pivot pts (j + 1) (sweep pts j).1 = 2 * (step pts j + step pts (j + 1)) - step pts j * (sweep pts j).1 := by
    unfold pivot step
    rw [Nat.add_sub_cancel]
    ring
  rw [h4] at h3
  linear_combination h3

/-- **C112** The coefficients that are computed are those of the natural cubic spline through the keyframes. -/
theorem c112_coefficients (pts : List (ℤ × K)) (h : ∀ i, i + 1 < pts.length → (pts.getD i (0, 0)).1 < (pts.getD (i + 1) (0, 0)).1) :
    NaturalSpline pts (naturalCoefficients pts) := by
  have hs : ∀ j < pts.length - 1, 0 < step pts j := by
    intro j hj
    rw [step_duration]
    unfold duration
    exact_mod_cast sub_pos.mpr (h j (by omega))
  constructor
  · intro i _
    simp [valueOf, naturalCoefficients, levelAt]
  · intro i hi
    have := hs i (by omega)
    rw [← step_duration]
    simp only [valueOf, naturalCoefficients, levelAt]
    field_simp
    ring
  · intro i hi
    have h1 := hs i (by omega)
    have h2 := hs (i + 1) (by omega)
    have h3 := tridiagonal pts (pts.length - 1) i (by omega) hs
    rw [← step_duration]
    simp only [slopeOf, naturalCoefficients]
    unfold alpha at h3
    rw [if_neg (by omega), Nat.add_sub_cancel] at h3
    rw [show i + 1 + 1 = i + 2 from rfl] at h3 ⊢
    generalize backward pts (pts.length - 1) (pts.length - 1 - i) = c0 at h3 ⊢
    generalize backward pts (pts.length - 1) (pts.length - 1 - (i + 1)) = c1 at h3 ⊢
    generalize backward pts (pts.length - 1) (pts.length - 1 - (i + 2)) = c2 at h3 ⊢
    field_simp at h3 ⊢
    linear_combination h3
  · intro i hi
    have h1 := hs i (by omega)
    rw [← step_duration]
    simp only [curvatureOf, naturalCoefficients]
    field_simp
    ring
  · intro n hn
    have h1 := hs n (by omega)
    rw [← step_duration]
    simp only [curvatureOf, naturalCoefficients]
    rw [show pts.length - 1 - (n + 1) = 0 by omega, backward_step pts _ 0 (by omega)]
    simp only [sweep, backward]
    refine ⟨by ring, ?_⟩
    field_simp
    ring

/-- Up to the second keyframe nothing but the first level is played. -/
theorem first_flat (pts : List (ℤ × K)) (p0 p1 : ℤ × K) (l : List (ℤ × K)) (hp : pts = p0 :: p1 :: l) (h0 : p0.1 = 0) (r : List K)
    (hlast : 0 < (pts.getLastD (0, 0)).1) (hr : cubicInterpolation pts = .ok r) (t : ℕ) (ht : (t : ℤ) ≤ p1.1) : r[t]? = some p0.2 := by
  unfold cubicInterpolation at hr
  rw [if_neg (by rw [hp]; simp)] at hr
  split at hr
  · cases hr
  · generalize hv : (fun i => polynomial (naturalCoefficients pts i)) = v at hr
    have hv0 : v 0 0 = p0.2 := by
      rw [← hv]
      simp [polynomial, naturalCoefficients, levelAt, hp]
    generalize (pts.getLastD (0, 0)).1 = last at hr hlast
    rw [hp] at hr
    unfold naturalSamples at hr
    rw [if_pos (by omega)] at hr
    simp only at hr
    split at hr
    · cases hr
    · cases hr
      rw [List.getElem?_append_left (by rw [List.length_replicate]; omega), List.getElem?_replicate_of_lt (by omega), h0]
      simp [hv0]

/-- **C112** is false of the code: `delta` does not move with the sample.  The signal keeps the level of the first keyframe, and so does not
reach that of the second one. -/
theorem c112_keyframe_negation (p0 p1 : ℤ × K) (l : List (ℤ × K)) (h0 : p0.1 = 0) (h1 : 0 ≤ p1.1) (hlast : 0 < ((p0 :: p1 :: l).getLastD (0, 0)).1)
    (hne : p0.2 ≠ p1.2) (r : List K) (hr : cubicInterpolation (p0 :: p1 :: l) = .ok r) :
    r[p1.1.toNat]? = some p0.2 ∧ r[p1.1.toNat]? ≠ some p1.2 := by
  have h := first_flat _ p0 p1 l rfl h0 r hlast hr p1.1.toNat (by omega)
  exact ⟨h, by rw [h]; simpa using hne⟩

theorem naturalSamples_length (v : ℕ → K → K) (last : ℤ) : ∀ (l : List (ℤ × K)) (p : ℤ × K) (i t : ℕ), ((p :: l).map Prod.fst).Pairwise (· < ·) →
    ((p :: l).getLastD (0, 0)).1 = last → (t : ℤ) ≤ last + 1 → p.1 ≤ t → ∃ r, naturalSamples v last i t (p :: l) = .ok r ∧
      last ≤ t + r.length ∧ (t + r.length : ℤ) ≤ last + 1
  | [], p, i, t, _, hl, ht, hp => by
    have : p.1 = last := hl
    refine ⟨[], ?_, by simp; omega, by simpa using ht⟩
    unfold naturalSamples
    rw [if_neg (by omega)]
  | q :: l, p, i, t, hi, hl, ht, hp => by
    unfold naturalSamples
    by_cases htl : (t : ℤ) < last
    · rw [if_pos htl]
      have hi' : ((q :: l).map Prod.fst).Pairwise (· < ·) := (List.pairwise_cons.mp hi).2
      have hl' : ((q :: l).getLastD (0, 0)).1 = last := by rw [← hl]; simp [List.getLastD]
      have hq : q.1 ≤ last := by
        rw [← hl']
        cases l with
        | nil => simp
        | cons a l =>
          have hm : (List.getLastD (q :: a :: l) (0, 0)) = (a :: l).getLast (by simp) := by
            rw [List.getLastD_eq_getLast?, List.getLast?_cons_cons, List.getLast?_eq_some_getLast (by simp), Option.getD_some]
          rw [hm]
          exact ((List.pairwise_cons.mp hi').1 _ (List.mem_map_of_mem (List.getLast_mem _))).le
      obtain ⟨r, h1, h2, h3⟩ := naturalSamples_length v last l q (i + 1) (t + (q.1 + 1 - t).toNat) hi' hl' (by omega) (by omega)
      simp only [h1]
      refine ⟨_, rfl, ?_, ?_⟩ <;> rw [List.length_append, List.length_replicate] <;> push_cast at h2 h3 ⊢ <;> omega
    · rw [if_neg htl]
      exact ⟨[], rfl, by simp; omega, by simpa using ht⟩

/-- **C112 (partial)** For keyframes in the order of time, from 0 on, the function returns one value per sample, up to the one at the last
keyframe or the one before it.  Missing: that the last value is always there (C52), and that the values are those of the spline
(`c112_keyframe_negation`). -/
theorem c112_length_partial (p : ℤ × K) (l : List (ℤ × K)) (h0 : p.1 = 0) (hinc : ((p :: l).map Prod.fst).Pairwise (· < ·)) :
    ∃ r, cubicInterpolation (p :: l) = .ok r ∧ ((p :: l).getLastD (0, 0)).1 ≤ r.length ∧ (r.length : ℤ) ≤ ((p :: l).getLastD (0, 0)).1 + 1 := by
  have hs : ∀ j < (p :: l).length - 1, 0 < step (p :: l) j := by
    intro j hj
    rw [step_duration]
    unfold duration
    have hlt : j + 1 < (p :: l).length := by omega
    have h := List.pairwise_iff_getElem.mp hinc j (j + 1) (by simpa using (by omega : j < (p :: l).length)) (by simpa using hlt) (by omega)
    rw [List.getElem_map, List.getElem_map] at h
    rw [List.getD_eq_getElem?_getD, List.getD_eq_getElem?_getD, List.getElem?_eq_getElem hlt, List.getElem?_eq_getElem (by omega), Option.getD_some,
      Option.getD_some]
    exact_mod_cast sub_pos.mpr h
  have hlast : (0 : ℤ) ≤ ((p :: l).getLastD (0, 0)).1 := by
    cases l with
    | nil => simp [h0]
    | cons a l =>
      have hm : (List.getLastD (p :: a :: l) (0, 0)) = (a :: l).getLast (by simp) := by
        rw [List.getLastD_eq_getLast?, List.getLast?_cons_cons, List.getLast?_eq_some_getLast (by simp), Option.getD_some]
      rw [hm, ← h0]
      exact ((List.pairwise_cons.mp hinc).1 _ (List.mem_map_of_mem (List.getLast_mem _))).le
  obtain ⟨r, h1, h2, h3⟩ := naturalSamples_length (fun i => polynomial (naturalCoefficients (p :: l) i)) _ l p 0 0 hinc rfl (by push_cast; omega) (by push_cast; omega)
  refine ⟨r, ?_, by push_cast at h2; omega, by push_cast at h3; omega⟩
  unfold cubicInterpolation
  rw [if_neg (by simp), if_neg ?_, h1]
  rw [Bool.not_eq_true, List.any_eq_false]
  intro i hi
  rw [List.mem_range] at hi
  simp only [decide_eq_true_eq]
  rintro (h | ⟨h, h'⟩)
  · exact absurd h (hs i hi).ne'
  · obtain ⟨j, rfl⟩ : ∃ j, i = j + 1 := ⟨i - 1, by omega⟩
    exact absurd h' (pivot_pos (p :: l) j fun k hk => hs k (by omega)).ne'

theorem increasing_steps (pts : List (ℤ × K)) (hinc : (pts.map Prod.fst).Pairwise (· < ·)) (i : ℕ) (hi : i + 1 < pts.length) :
    (pts.getD i (0, 0)).1 < (pts.getD (i + 1) (0, 0)).1 := by
  have h := List.pairwise_iff_getElem.mp hinc i (i + 1) (by simpa using (by omega : i < pts.length)) (by simpa using hi) (by omega)
  rw [List.getElem_map, List.getElem_map] at h
  rw [List.getD_eq_getElem?_getD, List.getD_eq_getElem?_getD, List.getElem?_eq_getElem hi, List.getElem?_eq_getElem (by omega), Option.getD_some,
    Option.getD_some]
  exact h

theorem naturalSamples_at (v : ℕ → K → K) (last : ℤ) : ∀ (l : List (ℤ × K)) (p : ℤ × K) (i t : ℕ) (r : List K), p.1 + 1 = t →
    ((p :: l).map Prod.fst).Pairwise (· < ·) → naturalSamples v last i t (p :: l) = .ok r → ∀ (m : ℕ) (q0 q1 : ℤ × K), (p :: l)[m]? = some q0 →
      (p :: l)[m + 1]? = some q1 → ∀ j : ℕ, q0.1 < j → (j : ℤ) ≤ q1.1 → j - t < r.length → r[j - t]? = some (v (i + m) 1)
  | [], p, i, t, r, _, _, _, m, q0, q1, _, h1, _, _, _, _ => by simp at h1
  | q :: l, p, i, t, r, hp, hi, hr, m, q0, q1, h0, h1, j, hj0, hj1, hj => by
    have hi' : ((q :: l).map Prod.fst).Pairwise (· < ·) := (List.pairwise_cons.mp hi).2
    have hpq : p.1 < q.1 := (List.pairwise_cons.mp hi).1 _ (by simp)
    unfold naturalSamples at hr
    split at hr
    · simp only at hr
      split at hr
      · cases hr
      · rename_i r' hr'
        cases hr
        have hd : ((((t : ℤ) - p.1 : ℤ)) : K) = 1 := by
          rw [← hp]
          simp
        rw [hd] at hj ⊢
        cases m with
        | zero =>
          cases h0
          cases h1
          rw [List.getElem?_append_left (by rw [List.length_replicate]; omega), List.getElem?_replicate_of_lt (by omega)]
          rfl
        | succ m =>
          rw [List.getElem?_cons_succ] at h0 h1
          have hq : q.1 ≤ q0.1 := by
            cases m with
            | zero => cases h0; exact le_rfl
            | succ m =>
              rw [List.getElem?_cons_succ] at h0
              exact ((List.pairwise_cons.mp hi').1 _ (List.mem_map_of_mem (List.mem_of_getElem? h0))).le
          have hn : j - t = (q.1 + 1 - t).toNat + (j - (t + (q.1 + 1 - t).toNat)) := by omega
          rw [List.length_append, List.length_replicate] at hj
          have ih := naturalSamples_at v last l q (i + 1) _ r' (by push_cast; omega) hi' hr' m q0 q1 h0 h1 j hj0 hj1 (by omega)
          rw [hn, List.getElem?_append_right (by rw [List.length_replicate]; omega), List.length_replicate, Nat.add_sub_cancel_left, ih]
          congr 2
          omega
    · cases hr
      simp at hj

/-- **C112 (partial)** What the samples are: the level of the first keyframe up to the second one; after keyframe `i + 1` and up to the next
one, the value of the natural spline one sample after keyframe `i + 1`.  So a sample is that of the spline if it is the first one after a
keyframe. -/
theorem c112_samples_partial (p0 p1 : ℤ × K) (l : List (ℤ × K)) (h0 : p0.1 = 0) (hinc : ((p0 :: p1 :: l).map Prod.fst).Pairwise (· < ·)) (r : List K)
    (hr : cubicInterpolation (p0 :: p1 :: l) = .ok r) : ∃ s, NaturalSpline (p0 :: p1 :: l) s ∧ (∀ j : ℕ, (j : ℤ) ≤ p1.1 → r[j]? = some p0.2) ∧
      ∀ (i : ℕ) (q0 q1 : ℤ × K), (p1 :: l)[i]? = some q0 → (p1 :: l)[i + 1]? = some q1 → ∀ j < r.length, q0.1 < j → (j : ℤ) ≤ q1.1 →
        r[j]? = some (valueOf (s (i + 1)) 1) := by
  have hpq : p0.1 < p1.1 := (List.pairwise_cons.mp hinc).1 _ (by simp)
  have hi' : ((p1 :: l).map Prod.fst).Pairwise (· < ·) := (List.pairwise_cons.mp hinc).2
  have hlast : p1.1 ≤ ((p0 :: p1 :: l).getLastD (0, 0)).1 := by
    cases l with
    | nil => simp
    | cons a l =>
      have hm : (List.getLastD (p0 :: p1 :: a :: l) (0, 0)) = (a :: l).getLast (by simp) := by
        rw [List.getLastD_eq_getLast?, List.getLast?_cons_cons, List.getLast?_cons_cons, List.getLast?_eq_some_getLast (by simp), Option.getD_some]
      rw [hm]
      exact ((List.pairwise_cons.mp hi').1 _ (List.mem_map_of_mem (List.getLast_mem _))).le
  refine ⟨naturalCoefficients (p0 :: p1 :: l), c112_coefficients _ ?_, fun j hj => first_flat _ p0 p1 l rfl h0 r (by omega) hr j hj, ?_⟩
  · exact increasing_steps _ hinc
  · intro i q0 q1 hq0 hq1 j hj hj0 hj1
    have hq : p1.1 ≤ q0.1 := by
      cases i with
      | zero => cases hq0; exact le_rfl
      | succ i =>
        rw [List.getElem?_cons_succ] at hq0
        exact ((List.pairwise_cons.mp hi').1 _ (List.mem_map_of_mem (List.mem_of_getElem? hq0))).le
    unfold cubicInterpolation at hr
    rw [if_neg (by simp)] at hr
    split at hr
    · cases hr
    · unfold naturalSamples at hr
      rw [if_pos (by push_cast; omega)] at hr
      simp only at hr
      split at hr
      · cases hr
      · rename_i r' hr'
        cases hr
        rw [List.length_append, List.length_replicate] at hj
        have h := naturalSamples_at _ _ l p1 1 _ r' (by push_cast; omega) hi' hr' i q0 q1 hq0 hq1 j hj0 hj1 (by push_cast at hj ⊢; omega)
        rw [List.getElem?_append_right (by rw [List.length_replicate]; push_cast; omega), List.length_replicate]
        rw [Nat.zero_add] at h
        rw [h, add_comm 1 i]
        rfl

end Generic

/-- The hypotheses of `c112_samples_partial`, and the samples after the second keyframe: those of the spline one sample after it. -/
example : ∃ r, cubicInterpolation [((0 : ℤ), (0 : ℚ)), (2, 1), (4, 0)] = .ok r ∧ ∃ s, NaturalSpline [((0 : ℤ), (0 : ℚ)), (2, 1), (4, 0)] s ∧
    r[4]? = some (valueOf (s 1) 1) := by
  refine ⟨[0, 0, 0, 11 / 16, 11 / 16], by decide +kernel, ?_⟩
  obtain ⟨s, h1, -, h3⟩ := c112_samples_partial ((0 : ℤ), (0 : ℚ)) (2, 1) [(4, 0)] rfl (by decide) [0, 0, 0, 11 / 16, 11 / 16] (by decide +kernel)
  exact ⟨s, h1, h3 0 (2, 1) (4, 0) rfl rfl 4 (by decide) (by decide) (by decide)⟩

/-- Three keyframes: their spline goes through the level 1 at sample 2; the signal is 0 there, and constant after it. -/
example : cubicInterpolation [((0 : ℤ), (0 : ℚ)), (2, 1), (4, 0)] = .ok [0, 0, 0, 11 / 16, 11 / 16] ∧
    valueOf (naturalCoefficients [((0 : ℤ), (0 : ℚ)), (2, 1), (4, 0)] 0) 2 = 1 ∧
    NaturalSpline [((0 : ℤ), (0 : ℚ)), (2, 1), (4, 0)] (naturalCoefficients [((0 : ℤ), (0 : ℚ)), (2, 1), (4, 0)]) := by
  refine ⟨by decide +kernel, by decide +kernel, c112_coefficients _ ?_⟩
  intro i hi
  match i, hi with
  | 0, _ => decide
  | 1, _ => decide

/-- **C112 (partial)** For linear and cubic curves, `interpolationCodec` computes what is played. -/
theorem c112_codec_partial (other : Nat → List (Int × ℝ) → Except Err (List (Option ℝ))) (pts : List (ℤ × ℝ)) (curveType : ℕ) (hp : pts ≠ [])
    (hc : curveType = CurveType.Linear ∨ curveType = CurveType.Cubic) : interpolationCodec pts curveType = interpolateCurve other curveType pts := by
  unfold interpolationCodec interpolateCurve
  rw [List.getLast?_eq_some_getLast hp, List.getLastD_eq_getLast?, List.getLast?_eq_some_getLast hp]
  rcases hc with rfl | rfl
  · simp only [if_true, Option.getD_some]
    congr 1
  · rw [if_neg (by decide), if_neg (by decide)]
    simp only [Option.getD_some]
    congr 1

/-- **C112** is false of the code for the other curve types: `interpolationCodec` computes silence. -/
theorem c112_codec_negation (p0 p1 : ℤ × ℝ) (l : List (ℤ × ℝ)) (curveType : ℕ) (hc : curveType ≠ CurveType.Linear ∧ curveType ≠ CurveType.Cubic)
    (h0 : p0.1 = 0) (hinc : Increasing (p0 :: p1 :: l)) (hend : EndApart (p0 :: p1 :: l)) :
    ∃ r, interpolationCodec (p0 :: p1 :: l) curveType = .ok r ∧ (r.length : ℤ) = ((p0 :: p1 :: l).getLastD (0, 0)).1 + 1 ∧
      ∀ i < r.length, r[i]? = some (some 0) := by
  obtain ⟨r, h1, h2, h3⟩ := c52_partial (codecSegment curveType) p0 p1 l h0 hinc hend
  refine ⟨r, ?_, h2, fun i hi => ?_⟩
  · unfold interpolationCodec
    rw [List.getLast?_eq_some_getLast (by simp)]
    rw [← h1, List.getLastD_eq_getLast?, List.getLast?_eq_some_getLast (by simp), Option.getD_some]
  · obtain ⟨pre, q0, q1, post, -, -, -, h⟩ := h3 i hi
    rw [h, codecSegment, if_neg hc.2, if_neg hc.1]

/-- Non-vacuity of `c112_codec_negation`: an Akima curve of three keyframes. -/
example : ∃ r, interpolationCodec [(0, 1), (2, 1), (4, 1)] 3 = .ok r ∧ r.length = 5 ∧ ∀ i < 5, r[i]? = some (some 0) := by
  obtain ⟨r, h1, h2, h3⟩ := c112_codec_negation (0, 1) (2, 1) [(4, 1)] 3 (by decide) rfl (by simp [Increasing]) (by
    intro pre a b h _
    match pre, h with
    | [_], h =>
      simp at h
      obtain ⟨-, rfl, rfl⟩ := h
      norm_num
    | [], h => simp at h
    | _ :: _ :: l, h =>
      have := congrArg List.length h
      simp at this)
  have hl : r.length = 5 := by
    have : ((([(0, 1), (2, 1), (4, 1)] : List (ℤ × ℝ)).getLastD (0, 0)).1) = 4 := rfl
    rw [this] at h2
    omega
  exact ⟨r, h1, hl, fun i hi => h3 i (by omega)⟩

end Haptics.Splines
