import Verif.Eval.Spec
import Mathlib.Tactic.Linarith
import Mathlib.Tactic.Positivity
import Mathlib.Tactic.FieldSimp
import Mathlib.Tactic.Ring

namespace Haptics

theorem fdiv_of_ne {a b : ℝ} (h : b ≠ 0) : fdiv a b = some (a / b) := by simp [fdiv, h]

theorem Between.comm {a b x : ℝ} (h : Between a b x) : Between b a x := by
  unfold Between at *; rwa [min_comm, max_comm]

theorem between_left (a b : ℝ) : Between a b a := ⟨min_le_left _ _, le_max_left _ _⟩
theorem between_right (a b : ℝ) : Between a b b := ⟨min_le_right _ _, le_max_right _ _⟩

/-- A convex combination is between its ends. -/
theorem between_convex (a b s : ℝ) (h0 : 0 ≤ s) (h1 : s ≤ 1) : Between a b (a + (b - a) * s) := by
  unfold Between
  rcases le_total a b with h | h
  · rw [min_eq_left h, max_eq_right h]
    constructor <;> nlinarith
  · rw [min_eq_right h, max_eq_left h]
    constructor <;> nlinarith

theorem abs_le_of_between {a b x B : ℝ} (h : Between a b x) (ha : |a| ≤ B) (hb : |b| ≤ B) : |x| ≤ B := by
  obtain ⟨h1, h2⟩ := h
  rw [abs_le] at *
  constructor
  · exact le_trans (le_min ha.1 hb.1) h1
  · exact le_trans h2 (max_le ha.2 hb.2)

theorem linearSegment_eq {t0 t1 : ℝ} (f0 f1 t : ℝ) (h : t0 ≠ t1) :
    linearSegment t0 f0 t1 f1 t = some (f0 + (f1 - f0) * ((t - t0) / (t1 - t0))) := by
  have h' : t1 - t0 ≠ 0 := sub_ne_zero.mpr (Ne.symm h)
  rw [linearSegment, fdiv_of_ne h']
  congr 1
  field_simp
  ring

theorem cubicSegment_eq {t0 t1 : ℝ} (f0 f1 t : ℝ) (h : t0 ≠ t1) :
    cubicSegment t0 f0 t1 f1 t = some (f0 + (f1 - f0) *
      (((t - t0) / (t1 - t0)) ^ 2 * (3 - 2 * ((t - t0) / (t1 - t0))))) := by
  have h' : t1 - t0 ≠ 0 := sub_ne_zero.mpr (Ne.symm h)
  rw [cubicSegment, fdiv_of_ne (pow_ne_zero 3 h')]
  simp only [Option.map_some]
  congr 1
  field_simp
  ring

theorem smooth_unit {u : ℝ} (h0 : 0 ≤ u) (h1 : u ≤ 1) : 0 ≤ u ^ 2 * (3 - 2 * u) ∧ u ^ 2 * (3 - 2 * u) ≤ 1 := by
  constructor
  · have : 0 ≤ 3 - 2 * u := by linarith
    positivity
  · nlinarith [sq_nonneg (1 - u), mul_nonneg (sq_nonneg (1 - u)) h0]

theorem ratio_unit {t0 t1 t : ℝ} (h : t0 < t1) (h0 : t0 ≤ t) (h1 : t ≤ t1) :
    0 ≤ (t - t0) / (t1 - t0) ∧ (t - t0) / (t1 - t0) ≤ 1 := by
  have : 0 < t1 - t0 := by linarith
  constructor
  · exact div_nonneg (by linarith) (by linarith)
  · rw [div_le_one this]; linarith

/-- Both segments are numbers between the amplitudes of their two points. -/
theorem linearSegment_between {t0 t1 t : ℝ} (f0 f1 : ℝ) (h : t0 < t1) (h0 : t0 ≤ t) (h1 : t ≤ t1) :
    ∃ r, linearSegment t0 f0 t1 f1 t = some r ∧ Between f0 f1 r :=
  ⟨_, linearSegment_eq f0 f1 t h.ne, between_convex _ _ _ (ratio_unit h h0 h1).1 (ratio_unit h h0 h1).2⟩

theorem cubicSegment_between {t0 t1 t : ℝ} (f0 f1 : ℝ) (h : t0 < t1) (h0 : t0 ≤ t) (h1 : t ≤ t1) :
    ∃ r, cubicSegment t0 f0 t1 f1 t = some r ∧ Between f0 f1 r := by
  have hu := ratio_unit h h0 h1
  have hs := smooth_unit hu.1 hu.2
  exact ⟨_, cubicSegment_eq f0 f1 t h.ne, between_convex _ _ _ hs.1 hs.2⟩

theorem linearSegment_ends {t0 t1 : ℝ} (f0 f1 : ℝ) (h : t0 < t1) :
    linearSegment t0 f0 t1 f1 t0 = some f0 ∧ linearSegment t0 f0 t1 f1 t1 = some f1 := by
  have h' : t1 - t0 ≠ 0 := by linarith
  rw [linearSegment_eq _ _ _ h.ne, linearSegment_eq _ _ _ h.ne, div_self h']
  constructor <;> simp

theorem cubicSegment_ends {t0 t1 : ℝ} (f0 f1 : ℝ) (h : t0 < t1) :
    cubicSegment t0 f0 t1 f1 t0 = some f0 ∧ cubicSegment t0 f0 t1 f1 t1 = some f1 := by
  have h' : t1 - t0 ≠ 0 := by linarith
  rw [cubicSegment_eq _ _ _ h.ne, cubicSegment_eq _ _ _ h.ne, div_self h']
  constructor
  · simp
  · norm_num

/-! ### Rounding -/

/-- `std::round` is a nearest integer. -/
theorem cround_dist (x : ℝ) : |cround x - x| ≤ 1 / 2 := by
  unfold cround
  split
  · rw [abs_le]
    have h1 := Int.floor_le (x + 1 / 2)
    have h2 := Int.lt_floor_add_one (x + 1 / 2)
    constructor <;> linarith
  · rw [abs_le]
    have h1 := Int.floor_le (-x + 1 / 2)
    have h2 := Int.lt_floor_add_one (-x + 1 / 2)
    constructor <;> linarith

theorem cround_int (x : ℝ) : ∃ z : ℤ, cround x = z := by
  unfold cround
  split
  · exact ⟨_, rfl⟩
  · exact ⟨-⌊-x + 1 / 2⌋, by push_cast; rfl⟩

/-- The distance of `x` to a nearest integer does not depend on the tie rule. -/
theorem nearest_dist_unique {x : ℝ} {m n : ℤ} (hm : |(m : ℝ) - x| ≤ 1 / 2) (hn : |(n : ℝ) - x| ≤ 1 / 2) :
    |(m : ℝ) - x| = |(n : ℝ) - x| := by
  rcases lt_trichotomy m n with h | h | h
  · have h' : (m : ℝ) + 1 ≤ n := by exact_mod_cast h
    rw [abs_le] at hm hn
    have e1 : (m : ℝ) - x = -(1 / 2) := by linarith
    have e2 : (n : ℝ) - x = 1 / 2 := by linarith
    rw [e1, e2]; simp
  · rw [h]
  · have h' : (n : ℝ) + 1 ≤ m := by exact_mod_cast h
    rw [abs_le] at hm hn
    have e1 : (m : ℝ) - x = 1 / 2 := by linarith
    have e2 : (n : ℝ) - x = -(1 / 2) := by linarith
    rw [e1, e2]; simp

theorem cround_dist_add_int (x : ℝ) (k : ℤ) : |cround (x + k) - (x + k)| = |cround x - x| := by
  obtain ⟨m, hm⟩ := cround_int (x + k)
  obtain ⟨n, hn⟩ := cround_int x
  have h1 := cround_dist (x + k)
  have h2 := cround_dist x
  rw [hm] at h1 ⊢
  rw [hn] at h2 ⊢
  have e : ((m - k : ℤ) : ℝ) - x = m - (x + k) := by push_cast; ring
  rw [← e] at h1 ⊢
  exact nearest_dist_unique h1 h2

end Haptics
