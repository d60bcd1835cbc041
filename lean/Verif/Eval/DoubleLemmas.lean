import Verif.Eval.SpecRounded
import Mathlib.Tactic.Linarith
import Mathlib.Tactic.Positivity

/-! The rounding of binary64 is one as asked for. -/

namespace Haptics

theorem flo_emin (p : ℕ) (e : ℤ) {x : ℚ} (h : e ≤ ilog2 |x|) : flo p e x = flo p (ilog2 |x|) x := by
  unfold flo
  rw [max_eq_left h, max_self]

/-- Where exponents are in range, that is the rounding of binary64. -/
theorem wide_eq_fl64 {x : ℚ} (h : (2 : ℚ) ^ (-1022 : ℤ) ≤ |x|) : wide x = fl64 x := by
  unfold wide fl64
  refine (flo_emin 53 (-1022) ?_).symm
  have h0 : 0 < |x| := lt_of_lt_of_le (by positivity) h
  have := lt_of_le_of_lt h (ilog2_spec _ h0).2
  have := (zpow_lt_zpow_iff_right₀ (by norm_num : (1 : ℚ) < 2)).1 this
  omega

theorem wide_zero : wide 0 = 0 := by simp [wide]

theorem wide_err (x : ℚ) : |wide x - x| ≤ |x| / 2 ^ 53 := by
  by_cases hx : x = 0
  · subst hx; simp [wide_zero]
  · have h := flo_err 53 (ilog2 |x|) hx
    have h1 := (ilog2_spec _ (abs_pos.2 hx)).1
    unfold wide
    refine h.trans ?_
    unfold ulpOf
    rw [max_self, zpow_sub₀ (by norm_num : (2 : ℚ) ≠ 0)]
    have e : (2 : ℚ) ^ ((53 : ℕ) - 1 : ℤ) = 2 ^ 52 := by norm_num
    rw [e]
    rw [div_div, div_le_div_iff₀ (by positivity) (by positivity)]
    nlinarith

theorem wide_mono {x y : ℚ} (h : x ≤ y) : wide x ≤ wide y := by
  unfold wide
  rw [← flo_emin 53 (min (ilog2 |x|) (ilog2 |y|)) (min_le_left _ _), ← flo_emin 53 (min (ilog2 |x|) (ilog2 |y|)) (min_le_right _ _)]
  exact flo_mono 53 (by norm_num) _ h

theorem wide_int (z : ℤ) (h : |z| < 2 ^ 53) : wide z = z := by
  by_cases hz : z = 0
  · subst hz; simpa using wide_zero
  · have h1 : (1 : ℚ) ≤ |(z : ℚ)| := by
      rw [← Int.cast_abs]
      exact_mod_cast Int.one_le_abs hz
    rw [wide_eq_fl64 (le_trans (zpow_le_one_of_nonpos₀ (by norm_num) (by norm_num)) h1)]
    exact fl64_int z h

theorem wideReal_bdd (x : ℝ) : BddAbove {y : ℝ | ∃ q : ℚ, (q : ℝ) ≤ x ∧ y = (wide q : ℚ)} := by
  obtain ⟨r, hr⟩ := exists_rat_gt x
  refine ⟨(wide r : ℚ), ?_⟩
  rintro y ⟨q, hq, rfl⟩
  have : q ≤ r := by
    have : (q : ℝ) ≤ r := by linarith
    exact_mod_cast this
  exact_mod_cast wide_mono this

theorem wideReal_nonempty (x : ℝ) : {y : ℝ | ∃ q : ℚ, (q : ℝ) ≤ x ∧ y = (wide q : ℚ)}.Nonempty := by
  obtain ⟨r, hr⟩ := exists_rat_lt x
  exact ⟨_, r, hr.le, rfl⟩

theorem wideReal_mono : Monotone wideReal := by
  intro x y h
  refine csSup_le_csSup (wideReal_bdd y) (wideReal_nonempty x) ?_
  rintro z ⟨q, hq, rfl⟩
  exact ⟨q, hq.trans h, rfl⟩

/-- Of rational numbers, it is the rounding of rational numbers. -/
theorem wideReal_rat (q : ℚ) : wideReal (q : ℝ) = (wide q : ℚ) := by
  refine le_antisymm (csSup_le (wideReal_nonempty _) ?_) (le_csSup (wideReal_bdd _) ⟨q, le_rfl, rfl⟩)
  rintro y ⟨r, hr, rfl⟩
  exact_mod_cast wide_mono (by exact_mod_cast hr)

theorem wide_errReal (q : ℚ) : |((wide q : ℚ) : ℝ) - q| ≤ |(q : ℝ)| / 2 ^ 53 := by
  have := wide_err q
  exact_mod_cast this

theorem wideReal_err (x : ℝ) : |wideReal x - x| ≤ |x| / 2 ^ 53 := by
  rw [abs_le]
  constructor
  · -- rational numbers below `x`
    by_contra hc
    push Not at hc
    obtain ⟨q, h1, h2⟩ := exists_rat_btwn (show x - (-(|x| / 2 ^ 53) - (wideReal x - x)) / 2 < x by linarith)
    have h3 := wide_errReal q
    have h4 : ((wide q : ℚ) : ℝ) ≤ wideReal x := le_csSup (wideReal_bdd x) ⟨q, h2.le, rfl⟩
    have h5 : |(q : ℝ)| ≤ |x| + |(q : ℝ) - x| := by
      have := abs_add_le x (q - x)
      rwa [add_sub_cancel] at this
    rw [abs_sub_comm, abs_of_pos (by linarith : (0 : ℝ) < x - q)] at h5
    have h6 := (abs_le.1 h3).1
    linarith
  · have : wideReal x ≤ x + |x| / 2 ^ 53 := by
      by_contra hc
      push Not at hc
      obtain ⟨q, h1, h2⟩ := exists_rat_btwn (show x < x + (wideReal x - (x + |x| / 2 ^ 53)) / 2 by linarith)
      have h3 := wide_errReal q
      have h4 : wideReal x ≤ (wide q : ℚ) := by
        rw [← wideReal_rat]
        exact wideReal_mono h1.le
      have h5 : |(q : ℝ)| ≤ |x| + |(q : ℝ) - x| := by
        have := abs_add_le x (q - x)
        rwa [add_sub_cancel] at this
      rw [abs_of_pos (by linarith : (0 : ℝ) < q - x)] at h5
      have h6 := (abs_le.1 h3).2
      linarith
    linarith

theorem wideReal_int (z : ℤ) (h : |z| < 2 ^ 53) : wideReal z = z := by
  have := wideReal_rat (z : ℚ)
  rw [wide_int z h] at this
  exact_mod_cast this

theorem double_sound : Arith.double.Sound where
  err := wideReal_err
  mono := wideReal_mono
  int := wideReal_int
  sin x := by
    show |wideReal (Real.sin x)| ≤ 1
    have h1 : wideReal 1 = 1 := by simpa using wideReal_int 1 (by norm_num)
    have h2 : wideReal (-1) = -1 := by simpa using wideReal_int (-1) (by norm_num)
    rw [abs_le]
    exact ⟨by rw [← h2]; exact wideReal_mono (Real.neg_one_le_sin x), by rw [← h1]; exact wideReal_mono (Real.sin_le_one x)⟩
  pow2 x := (wideReal_err _).trans (div_le_div_of_nonneg_left (abs_nonneg _) (by positivity) (by norm_num))
  pow3 x := (wideReal_err _).trans (div_le_div_of_nonneg_left (abs_nonneg _) (by positivity) (by norm_num))
  pi := by
    show 2 ≤ wideReal Real.pi
    have h1 : wideReal 2 = 2 := by exact_mod_cast wideReal_int 2 (by norm_num)
    have := wideReal_mono Real.two_le_pi
    rwa [h1] at this

theorem exact_sound : Arith.exact.Sound where
  err x := by
    show |x - x| ≤ _
    rw [sub_self, abs_zero]
    positivity
  mono := fun _ _ h => h
  int _ _ := rfl
  sin := Real.abs_sin_le_one
  pow2 x := by
    show |x ^ 2 - x ^ 2| ≤ _
    rw [sub_self, abs_zero]
    positivity
  pow3 x := by
    show |x ^ 3 - x ^ 3| ≤ _
    rw [sub_self, abs_zero]
    positivity
  pi := Real.two_le_pi

end Haptics
