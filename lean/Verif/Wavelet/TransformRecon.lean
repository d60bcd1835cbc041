import Verif.Wavelet.TransformLemmas

/-! One level of the transform: analysis, synthesis and the error of both. -/

namespace Haptics.Wavelet.Transform
open Haptics

theorem LP_0_eq : LP_0 = 1920106726523033 / 2 ^ 51 := by decide +kernel
theorem LP_1_eq : LP_1 = 6798685439622839 / 2 ^ 54 := by decide +kernel
theorem LP_2_eq : LP_2 = -3985664212135143 / 2 ^ 55 := by decide +kernel
theorem LP_3_eq : LP_3 = -6874140273552989 / 2 ^ 58 := by decide +kernel
theorem LP_4_eq : LP_4 = 2725827490004865 / 2 ^ 56 := by decide +kernel
theorem HP_0_eq : HP_0 = -7102047056463097 / 2 ^ 53 := by decide +kernel
theorem HP_1_eq : HP_1 = 3765840411780075 / 2 ^ 53 := by decide +kernel
theorem HP_2_eq : HP_2 = 5863963071498637 / 2 ^ 57 := by decide +kernel
theorem HP_3_eq : HP_3 = -2325258302068747 / 2 ^ 55 := by decide +kernel

/-- The low-pass filter of the analysis. -/
def low (f : ℤ → ℚ) (m : ℤ) : ℚ :=
  LP_4 * (f (m + 4) + f (m + -4)) + LP_3 * (f (m + 3) + f (m + -3)) + LP_2 * (f (m + 2) + f (m + -2)) +
    LP_1 * (f (m + 1) + f (m + -1)) + LP_0 * f m

/-- The high-pass filter of the analysis. -/
def high (f : ℤ → ℚ) (m : ℤ) : ℚ :=
  HP_3 * (f (m + 3) + f (m + -3)) + HP_2 * (f (m + 2) + f (m + -2)) + HP_1 * (f (m + 1) + f (m + -1)) + HP_0 * f m

theorem low_neg (f : ℤ → ℚ) (h : ∀ t, f (-t) = f t) (t : ℤ) : low f (-t) = low f t := by
  have e : ∀ a : ℤ, f (-t + a) = f (t + -a) := by
    intro a
    rw [← h]
    congr 1
    ring
  unfold low
  rw [e, e, e, e, e, e, e, e, h]
  simp only [neg_neg]
  ring

theorem high_neg (f : ℤ → ℚ) (h : ∀ t, f (-t) = f t) (t : ℤ) : high f (-t) = high f t := by
  have e : ∀ a : ℤ, f (-t + a) = f (t + -a) := by
    intro a
    rw [← h]
    congr 1
    ring
  unfold high
  rw [e, e, e, e, e, e, h]
  simp only [neg_neg]
  ring

theorem low_add (f : ℤ → ℚ) (p : ℤ) (h : ∀ t, f (t + p) = f t) (t : ℤ) : low f (t + p) = low f t := by
  unfold low
  simp only [add_right_comm t p, h]

theorem high_add (f : ℤ → ℚ) (p : ℤ) (h : ∀ t, f (t + p) = f t) (t : ℤ) : high f (t + p) = high f t := by
  unfold high
  simp only [add_right_comm t p, h]

theorem recon_even (f : ℤ → ℚ) (M : ℚ) (hf : ∀ t, |f t| ≤ M) (j : ℤ) :
    |LP_3 * (high f (j + 3) + high f (j + -3)) + LP_1 * (high f (j + 1) + high f (j + -1))
      - HP_2 * (low f (j + 2) + low f (j + -2)) - HP_0 * low f j - f j| ≤ M / 2 ^ 49 := by
  have b : ∀ a : ℤ, -M ≤ f (j + a) ∧ f (j + a) ≤ M := fun a => abs_le.1 (hf _)
  have b0 : -M ≤ f j ∧ f j ≤ M := abs_le.1 (hf _)
  unfold high low
  simp only [add_assoc, Int.reduceAdd, Int.reduceNeg, add_zero]
  rw [LP_0_eq, LP_1_eq, LP_2_eq, LP_3_eq, LP_4_eq, HP_0_eq, HP_1_eq, HP_2_eq, HP_3_eq, abs_le]
  have b6 := b 6; have b5 := b 5; have b4 := b 4; have b3 := b 3; have b2 := b 2; have b1 := b 1
  have c6 := b (-6); have c5 := b (-5); have c4 := b (-4); have c3 := b (-3); have c2 := b (-2); have c1 := b (-1)
  generalize f (j + 6) = x6 at *
  generalize f (j + 5) = x5 at *
  generalize f (j + 4) = x4 at *
  generalize f (j + 3) = x3 at *
  generalize f (j + 2) = x2 at *
  generalize f (j + 1) = x1 at *
  generalize f (j + -6) = y6 at *
  generalize f (j + -5) = y5 at *
  generalize f (j + -4) = y4 at *
  generalize f (j + -3) = y3 at *
  generalize f (j + -2) = y2 at *
  generalize f (j + -1) = y1 at *
  generalize f j = x0 at *
  clear b hf
  constructor <;> linarith

theorem recon_odd (f : ℤ → ℚ) (M : ℚ) (hf : ∀ t, |f t| ≤ M) (j : ℤ) :
    |HP_3 * (low f (j + 3) + low f (j + -3)) + HP_1 * (low f (j + 1) + low f (j + -1))
      - LP_4 * (high f (j + 4) + high f (j + -4)) - LP_2 * (high f (j + 2) + high f (j + -2)) - LP_0 * high f j
      - f j| ≤ M / 2 ^ 49 := by
  have b : ∀ a : ℤ, -M ≤ f (j + a) ∧ f (j + a) ≤ M := fun a => abs_le.1 (hf _)
  have b0 : -M ≤ f j ∧ f j ≤ M := abs_le.1 (hf _)
  unfold high low
  simp only [add_assoc, Int.reduceAdd, Int.reduceNeg, add_zero]
  rw [LP_0_eq, LP_1_eq, LP_2_eq, LP_3_eq, LP_4_eq, HP_0_eq, HP_1_eq, HP_2_eq, HP_3_eq, abs_le]
  have b7 := b 7; have b6 := b 6; have b5 := b 5; have b4 := b 4; have b3 := b 3; have b2 := b 2; have b1 := b 1
  have c7 := b (-7); have c6 := b (-6); have c5 := b (-5); have c4 := b (-4); have c3 := b (-3); have c2 := b (-2)
  have c1 := b (-1)
  generalize f (j + 7) = x7 at *
  generalize f (j + 6) = x6 at *
  generalize f (j + 5) = x5 at *
  generalize f (j + 4) = x4 at *
  generalize f (j + 3) = x3 at *
  generalize f (j + 2) = x2 at *
  generalize f (j + 1) = x1 at *
  generalize f (j + -7) = y7 at *
  generalize f (j + -6) = y6 at *
  generalize f (j + -5) = y5 at *
  generalize f (j + -4) = y4 at *
  generalize f (j + -3) = y3 at *
  generalize f (j + -2) = y2 at *
  generalize f (j + -1) = y1 at *
  generalize f j = x0 at *
  clear b hf
  constructor <;> linarith

/-! ### The convolutions with rounding -/

theorem convAt9 (rnd : ℚ → ℚ) (x : List ℚ) (c0 c1 c2 c3 c4 c5 c6 c7 c8 : ℚ) (j : ℕ) :
    convAt rnd x c0 [c1, c2, c3, c4, c5, c6, c7, c8] 4 j = accumulate rnd (rnd (ext x (j + 4) * c0))
      [ext x (j + 3) * c1, ext x (j + 2) * c2, ext x (j + 1) * c3, ext x j * c4, ext x (j + -1) * c5,
        ext x (j + -2) * c6, ext x (j + -3) * c7, ext x (j + -4) * c8] := by
  unfold convAt
  simp only [List.mapIdx_cons, List.mapIdx_nil]
  push_cast
  simp only [add_sub_assoc]
  norm_num

theorem convAt7 (rnd : ℚ → ℚ) (x : List ℚ) (c0 c1 c2 c3 c4 c5 c6 : ℚ) (j : ℕ) :
    convAt rnd x c0 [c1, c2, c3, c4, c5, c6] 3 j = accumulate rnd (rnd (ext x (j + 3) * c0))
      [ext x (j + 2) * c1, ext x (j + 1) * c2, ext x j * c3, ext x (j + -1) * c4, ext x (j + -2) * c5,
        ext x (j + -3) * c6] := by
  unfold convAt
  simp only [List.mapIdx_cons, List.mapIdx_nil]
  push_cast
  simp only [add_sub_assoc]
  norm_num

theorem mul_abs_le {a M : ℚ} (c : ℚ) (h : |a| ≤ M) : |a * c| ≤ M * |c| := by
  rw [abs_mul]
  exact mul_le_mul_of_nonneg_right h (abs_nonneg c)

theorem convAt9_err {rnd : ℚ → ℚ} (hr : Rounding rnd) (x : List ℚ) (M : ℚ) (hM : 1 ≤ M) (hx : ∀ t, |ext x t| ≤ M)
    (c4 c3 c2 c1 c0 : ℚ) (hc : 2 * (|c4| + |c3| + |c2| + |c1|) + |c0| ≤ 2) (j : ℕ) :
    |convAt rnd x c4 [c3, c2, c1, c0, c1, c2, c3, c4] 4 j -
      (c4 * (ext x (j + 4) + ext x (j + -4)) + c3 * (ext x (j + 3) + ext x (j + -3)) +
        c2 * (ext x (j + 2) + ext x (j + -2)) + c1 * (ext x (j + 1) + ext x (j + -1)) + c0 * ext x j)| ≤ M / 2 ^ 45 := by
  rw [convAt9]
  have hM2 : M * (2 * (|c4| + |c3| + |c2| + |c1|) + |c0|) ≤ M * 2 := mul_le_mul_of_nonneg_left hc (by linarith)
  have h := accumulate_first hr (2 * M) (by linarith) (ext x (j + 4) * c4)
    [ext x (j + 3) * c3, ext x (j + 2) * c2, ext x (j + 1) * c1, ext x j * c0, ext x (j + -1) * c1,
        ext x (j + -2) * c2, ext x (j + -3) * c3, ext x (j + -4) * c4] (by
      simp only [List.map_cons, List.map_nil, List.sum_cons, List.sum_nil]
      linarith [mul_abs_le c4 (hx (j + 4)), mul_abs_le c3 (hx (j + 3)), mul_abs_le c2 (hx (j + 2)),
        mul_abs_le c1 (hx (j + 1)), mul_abs_le c0 (hx j), mul_abs_le c4 (hx (j + -4)), mul_abs_le c3 (hx (j + -3)),
        mul_abs_le c2 (hx (j + -2)), mul_abs_le c1 (hx (j + -1))]) (by simp)
  simp only [List.sum_cons, List.sum_nil] at h
  rw [show 2 * M / 2 ^ 46 = M / 2 ^ 45 by ring] at h
  convert h using 2
  ring

theorem convAt7_err {rnd : ℚ → ℚ} (hr : Rounding rnd) (x : List ℚ) (M : ℚ) (hM : 1 ≤ M) (hx : ∀ t, |ext x t| ≤ M)
    (c3 c2 c1 c0 : ℚ) (hc : 2 * (|c3| + |c2| + |c1|) + |c0| ≤ 2) (j : ℕ) :
    |convAt rnd x c3 [c2, c1, c0, c1, c2, c3] 3 j -
      (c3 * (ext x (j + 3) + ext x (j + -3)) + c2 * (ext x (j + 2) + ext x (j + -2)) +
        c1 * (ext x (j + 1) + ext x (j + -1)) + c0 * ext x j)| ≤ M / 2 ^ 45 := by
  rw [convAt7]
  have hM2 : M * (2 * (|c3| + |c2| + |c1|) + |c0|) ≤ M * 2 := mul_le_mul_of_nonneg_left hc (by linarith)
  have h := accumulate_first hr (2 * M) (by linarith) (ext x (j + 3) * c3)
    [ext x (j + 2) * c2, ext x (j + 1) * c1, ext x j * c0, ext x (j + -1) * c1,
        ext x (j + -2) * c2, ext x (j + -3) * c3] (by
      simp only [List.map_cons, List.map_nil, List.sum_cons, List.sum_nil]
      linarith [mul_abs_le c3 (hx (j + 3)), mul_abs_le c2 (hx (j + 2)),
        mul_abs_le c1 (hx (j + 1)), mul_abs_le c0 (hx j), mul_abs_le c3 (hx (j + -3)),
        mul_abs_le c2 (hx (j + -2)), mul_abs_le c1 (hx (j + -1))]) (by simp)
  simp only [List.sum_cons, List.sum_nil] at h
  rw [show 2 * M / 2 ^ 46 = M / 2 ^ 45 by ring] at h
  convert h using 2
  ring

theorem lp_norm : 2 * (|LP_4| + |LP_3| + |LP_2| + |LP_1|) + |LP_0| ≤ 2 - 1 / 32 := by decide +kernel
theorem hp_norm : 2 * (|HP_3| + |HP_2| + |HP_1|) + |HP_0| ≤ 2 - 1 / 32 := by decide +kernel

theorem low_le (f : ℤ → ℚ) (M : ℚ) (hf : ∀ t, |f t| ≤ M) (t : ℤ) : |low f t| ≤ (2 - 1 / 32) * M := by
  have hM : 0 ≤ M := (abs_nonneg _).trans (hf 0)
  have b : ∀ a : ℤ, -M ≤ f (t + a) ∧ f (t + a) ≤ M := fun a => abs_le.1 (hf _)
  have b0 : -M ≤ f t ∧ f t ≤ M := abs_le.1 (hf _)
  unfold low
  rw [LP_0_eq, LP_1_eq, LP_2_eq, LP_3_eq, LP_4_eq, abs_le]
  constructor <;> linarith [b 1, b 2, b 3, b 4, b (-1), b (-2), b (-3), b (-4)]

theorem high_le (f : ℤ → ℚ) (M : ℚ) (hf : ∀ t, |f t| ≤ M) (t : ℤ) : |high f t| ≤ (2 - 1 / 32) * M := by
  have hM : 0 ≤ M := (abs_nonneg _).trans (hf 0)
  have b : ∀ a : ℤ, -M ≤ f (t + a) ∧ f (t + a) ≤ M := fun a => abs_le.1 (hf _)
  have b0 : -M ≤ f t ∧ f t ≤ M := abs_le.1 (hf _)
  unfold high
  rw [HP_0_eq, HP_1_eq, HP_2_eq, HP_3_eq, abs_le]
  constructor <;> linarith [b 1, b 2, b 3, b (-1), b (-2), b (-3)]

end Haptics.Wavelet.Transform
