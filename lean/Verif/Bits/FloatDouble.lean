import Verif.Bits.PropsFloat
import Verif.Bits.FloatScale
import Mathlib.Tactic.FieldSimp
import Mathlib.Tactic.Linarith
import Mathlib.Tactic.Positivity

/-! The values a `double` can take, and what is exact about them. -/
namespace Haptics

/-- A value of binary64 (without infinities and NaN, and without the upper end of the range). -/
def IsDouble (y : ℚ) : Prop := ∃ m U : ℤ, y = m * 2 ^ U ∧ |m| < 2 ^ 53 ∧ -1074 ≤ U

theorem IsDouble.exact {y : ℚ} (h : IsDouble y) : fl64 y = y := by
  obtain ⟨m, U, rfl, hm, hU⟩ := h
  exact flo_exact 53 (-1022) m U hm (by norm_num; omega)

theorem isDouble_fl64 (x : ℚ) : IsDouble (fl64 x) := by
  by_cases hx : x = 0
  · subst hx
    refine ⟨0, 0, ?_, by norm_num, by norm_num⟩
    simp [fl64]
  obtain ⟨h1, h2⟩ := ilog2_spec |x| (abs_pos.2 hx)
  set U : ℤ := max (ilog2 |x|) (-1022) - 52 with hU
  have hulp : ulpOf 53 (-1022) x = 2 ^ U := by unfold ulpOf; rw [hU]; norm_num
  have hpos : (0 : ℚ) < 2 ^ U := by positivity
  have hq : |x / 2 ^ U| ≤ ((2 ^ 53 : ℤ) : ℚ) := by
    rw [abs_div, abs_of_pos hpos, div_le_iff₀ hpos]
    rw [show ((2 ^ 53 : ℤ) : ℚ) = 2 ^ (53 : ℤ) by norm_num, ← zpow_add₀ (by norm_num)]
    refine h2.le.trans (zpow_le_zpow_right₀ (by norm_num) ?_)
    have := le_max_left (ilog2 |x|) (-1022)
    omega
  have hr : |roundEven (x / 2 ^ U)| ≤ 2 ^ 53 := by
    obtain ⟨ha, hb⟩ := abs_le.1 hq
    have e1 := roundEven_mono ha
    have e2 := roundEven_mono hb
    rw [roundEven_int] at e2
    rw [show -((2 ^ 53 : ℤ) : ℚ) = ((-2 ^ 53 : ℤ) : ℚ) by push_cast; ring, roundEven_int] at e1
    exact abs_le.2 ⟨e1, e2⟩
  have hval : fl64 x = roundEven (x / 2 ^ U) * 2 ^ U := by
    unfold fl64
    rw [flo_eq 53 (-1022) hx, hulp]
  have hUl : -1074 ≤ U := by
    have := le_max_right (ilog2 |x|) (-1022)
    omega
  rcases lt_or_eq_of_le hr with h | h
  · exact ⟨_, U, hval, h, hUl⟩
  · have h2z : (2 : ℚ) ^ (U + 1) = 2 ^ U * 2 := by rw [zpow_add₀ (by norm_num)]; norm_num
    rcases abs_eq (by norm_num : (0 : ℤ) ≤ 2 ^ 53) |>.1 h with h | h
    · refine ⟨2 ^ 52, U + 1, ?_, by norm_num, by omega⟩
      rw [hval, h, h2z]; push_cast; ring
    · refine ⟨-2 ^ 52, U + 1, ?_, by norm_num, by omega⟩
      rw [hval, h, h2z]; push_cast; ring

theorem fl64_fl64 (x : ℚ) : fl64 (fl64 x) = fl64 x := (isDouble_fl64 x).exact

theorem isDouble_nat {n : ℕ} (h : n < 2 ^ 53) : IsDouble n :=
  ⟨n, 0, by simp, by rw [abs_of_nonneg (by positivity)]; exact_mod_cast h, by norm_num⟩

theorem fl64_nat {n : ℕ} (h : n < 2 ^ 53) : fl64 n = n := (isDouble_nat h).exact

/-- Subtracting an integer from a larger `double` is exact. -/
theorem fl64_sub_nat {p : ℚ} (hp : IsDouble p) (hp' : p < 2 ^ 53) (n : ℕ) (h : (n : ℚ) ≤ p) :
    fl64 (p - n) = p - n := by
  apply IsDouble.exact
  obtain ⟨m, U, rfl, hm, hU⟩ := hp
  rcases le_or_gt 0 U with hU0 | hU0
  · obtain ⟨d, rfl⟩ := Int.eq_ofNat_of_zero_le hU0
    have e : (m : ℚ) * 2 ^ ((d : ℕ) : ℤ) = ((m * 2 ^ d : ℤ) : ℚ) := by push_cast; rw [zpow_natCast]
    rw [e] at h hp' ⊢
    refine ⟨m * 2 ^ d - n, 0, by push_cast; simp, ?_, by norm_num⟩
    have h1 : (n : ℤ) ≤ m * 2 ^ d := by exact_mod_cast h
    have h2 : m * 2 ^ d < (2 : ℤ) ^ 53 := by exact_mod_cast hp'
    rw [abs_of_nonneg (by omega)]
    omega
  · obtain ⟨d, hd⟩ : ∃ d : ℕ, U = -(d : ℤ) := ⟨U.natAbs, by omega⟩
    have hpos : (0 : ℚ) < 2 ^ U := by positivity
    have hz : ((2 : ℚ) ^ d) * 2 ^ U = 1 := by
      rw [hd, zpow_neg, zpow_natCast, mul_inv_cancel₀ (by positivity)]
    have e : (m : ℚ) * 2 ^ U - n = ((m - n * 2 ^ d : ℤ) : ℚ) * 2 ^ U := by
      push_cast
      rw [sub_mul, mul_assoc (n : ℚ), hz, mul_one]
    refine ⟨m - n * 2 ^ d, U, e, ?_, hU⟩
    have h0 : (0 : ℚ) ≤ ((m - n * 2 ^ d : ℤ) : ℚ) * 2 ^ U := by rw [← e]; linarith
    have h1 : (0 : ℤ) ≤ m - n * 2 ^ d := by
      have := nonneg_of_mul_nonneg_left h0 hpos
      exact_mod_cast this
    rw [abs_of_nonneg h1]
    have h3 : (0 : ℤ) ≤ n * 2 ^ d := by positivity
    have := (abs_lt.1 hm).2
    omega

/-- A `double` below an integer is below it by a relative 2⁻⁵³ at least. -/
theorem isDouble_gap {y : ℚ} (hy : IsDouble y) {n : ℕ} (hn : n < 2 ^ 53) (h0 : 0 ≤ y) (h : y < n) :
    y ≤ n * (1 - 1 / 2 ^ 53) := by
  have hn' : (n : ℚ) < 2 ^ 53 := by exact_mod_cast hn
  have hn1 : 1 ≤ n := by
    rcases Nat.eq_zero_or_pos n with h' | h'
    · subst h'; simp at h; linarith
    · exact h'
  have hn1' : (1 : ℚ) ≤ n := by exact_mod_cast hn1
  have hone : y + 1 ≤ n → y ≤ n * (1 - 1 / 2 ^ 53) := by
    intro hh
    have : (n : ℚ) / 2 ^ 53 ≤ 1 := by rw [div_le_one (by norm_num)]; exact hn'.le
    linarith
  obtain ⟨m, U, rfl, hm, hU⟩ := hy
  have hm1 := (abs_lt.1 hm).2
  rcases le_or_gt 0 U with hU0 | hU0
  · obtain ⟨d, rfl⟩ := Int.eq_ofNat_of_zero_le hU0
    have e : (m : ℚ) * 2 ^ ((d : ℕ) : ℤ) = ((m * 2 ^ d : ℤ) : ℚ) := by push_cast; rw [zpow_natCast]
    rw [e] at h hone ⊢
    apply hone
    have : m * 2 ^ d < (n : ℤ) := by exact_mod_cast h
    have : m * 2 ^ d + 1 ≤ (n : ℤ) := by omega
    exact_mod_cast this
  · obtain ⟨d, hd⟩ : ∃ d : ℕ, U = -(d : ℤ) := ⟨U.natAbs, by omega⟩
    have hpos : (0 : ℚ) < 2 ^ U := by positivity
    have hz : ((2 : ℚ) ^ d) * 2 ^ U = 1 := by
      rw [hd, zpow_neg, zpow_natCast, mul_inv_cancel₀ (by positivity)]
    have hnU : (n : ℚ) = ((n * 2 ^ d : ℤ) : ℚ) * 2 ^ U := by
      push_cast
      rw [mul_assoc, hz, mul_one]
    have hlt : m + 1 ≤ n * 2 ^ d := by
      rw [hnU] at h
      have := lt_of_mul_lt_mul_right h hpos.le
      have : m < (n * 2 ^ d : ℤ) := by exact_mod_cast this
      omega
    have hgap : (m : ℚ) * 2 ^ U + 2 ^ U ≤ n := by
      rw [hnU, ← add_one_mul]
      apply mul_le_mul_of_nonneg_right _ hpos.le
      exact_mod_cast hlt
    have hm53 : (m : ℚ) ≤ 2 ^ 53 := by exact_mod_cast hm1.le
    have hy53 : (m : ℚ) * 2 ^ U ≤ 2 ^ 53 * 2 ^ U := mul_le_mul_of_nonneg_right hm53 hpos.le
    by_cases hs : (n : ℚ) ≤ 2 ^ 53 * 2 ^ U
    · have : (n : ℚ) / 2 ^ 53 ≤ 2 ^ U := by rw [div_le_iff₀ (by norm_num)]; linarith
      linarith
    · push Not at hs
      by_cases hdd : d ≤ 53
      · have e : (2 : ℚ) ^ 53 * 2 ^ U = ((2 ^ (53 - d) : ℕ) : ℚ) := by
          push_cast
          rw [show (2 : ℚ) ^ 53 = 2 ^ (53 - d) * 2 ^ d by rw [← pow_add]; congr 1; omega, mul_assoc, hz, mul_one]
        rw [e] at hs hy53
        have : 2 ^ (53 - d) + 1 ≤ n := by exact_mod_cast hs
        have : (((2 ^ (53 - d) : ℕ) : ℚ)) + 1 ≤ n := by exact_mod_cast this
        exact hone (by linarith)
      · have : (2 : ℚ) ^ 53 * 2 ^ U ≤ 1 / 2 := by
          have h54 : (2 : ℚ) ^ U ≤ 2 ^ (-54 : ℤ) := zpow_le_zpow_right₀ (by norm_num) (by omega)
          have : (2 : ℚ) ^ (-54 : ℤ) = 1 / 2 ^ 54 := by norm_num
          rw [this] at h54
          linarith
        have : (n : ℚ) / 2 ^ 53 ≤ n / 2 := by
          apply div_le_div_of_nonneg_left (by linarith) (by norm_num) (by norm_num)
        linarith

/-- The relative error of rounding a normal value. -/
theorem fl64_rel {x : ℚ} (h : (2 : ℚ) ^ (-1022 : ℤ) ≤ x) : fl64 x ≤ x * (1 + 1 / 2 ^ 53) := by
  have h0 : 0 < x := lt_of_lt_of_le (by positivity) h
  have he := flo_err 53 (-1022) h0.ne'
  obtain ⟨h1, h2⟩ := ilog2_spec x h0
  have hl : (-1022 : ℤ) ≤ ilog2 x := by
    have := lt_of_le_of_lt h h2
    have := (zpow_lt_zpow_iff_right₀ (by norm_num : (1 : ℚ) < 2)).1 this
    omega
  have hu : ulpOf 53 (-1022) x ≤ x / 2 ^ 52 := by
    unfold ulpOf
    rw [abs_of_pos h0, max_eq_left hl, zpow_sub₀ (by norm_num)]
    norm_num
    linarith
  have := (abs_le.1 he).2
  unfold fl64
  linarith

/-- Rounding does not bring a value that is below an integer by a relative 2⁻⁵³ up to it. -/
theorem fl64_lt_nat {x : ℚ} {n : ℕ} (hn : 1 ≤ n) (h : x ≤ n * (1 - 1 / 2 ^ 53)) : fl64 x < n := by
  have hn' : (1 : ℚ) ≤ n := by exact_mod_cast hn
  have h1 := fl64_mono h
  have h2 : (2 : ℚ) ^ (-1022 : ℤ) ≤ n * (1 - 1 / 2 ^ 53) := by
    have : (2 : ℚ) ^ (-1022 : ℤ) ≤ 2 ^ (-1 : ℤ) := zpow_le_zpow_right₀ (by norm_num) (by norm_num)
    rw [show (2 : ℚ) ^ (-1 : ℤ) = 1 / 2 by norm_num] at this
    linarith
  have h3 := fl64_rel h2
  have : (n : ℚ) * (1 - 1 / 2 ^ 53) * (1 + 1 / 2 ^ 53) < n := by
    rw [mul_assoc]
    have : (1 - 1 / 2 ^ 53 : ℚ) * (1 + 1 / 2 ^ 53) < 1 := by norm_num
    nlinarith
  linarith

/-- The error of rounding a number. -/
theorem fl64_within (x : ℚ) : |fl64 x - x| ≤ |x| / 2 ^ 53 + 1 / 2 ^ 100 := by
  have h1 := flo_abs_err 53 (-1022) x
  have h2 : (2 : ℚ) ^ ((-1022 : ℤ) - (53 : ℕ)) ≤ 1 / 2 ^ 100 := by
    rw [one_div, ← zpow_natCast, ← zpow_neg]
    exact zpow_le_zpow_right₀ (by norm_num) (by norm_num)
  have h3 : |x| * (2 : ℚ) ^ (-((53 : ℕ) : ℤ)) = |x| / 2 ^ 53 := by
    rw [zpow_neg, zpow_natCast, div_eq_mul_inv]
  rw [h3] at h1
  exact h1.trans (by linarith)

end Haptics
