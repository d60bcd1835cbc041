import Verif.Spiht.Arith
import Verif.Bits.FloatDouble
import Mathlib.Data.Rat.Floor

/-! C21: the probabilities of the arithmetic coder are not disturbed by the rounding of `double`. -/

namespace Haptics.Spiht
open Haptics

/-- ArithEnc.cpp:59-60 and ArithDec.cpp:63-64 in binary64; `round` takes halves away from zero, and the numbers are not
negative. -/
def Counter.probability64 (c : Counter) : Int :=
  ⌊fl64 (fl64 ((c.zeros : ℚ) / c.total) * 1024) + 1 / 2⌋

/-- ArithEnc.cpp:61 and ArithDec.cpp:65 in binary64. -/
def product64 (rangeDiff p : Int) : Int := ⌊fl64 (rangeDiff * p)⌋

theorem probability_floor (c : Counter) (ht : 0 < c.total) :
    c.probability = ⌊(c.zeros : ℚ) / c.total * 1024 + 1 / 2⌋ := by
  have ht' : (0 : ℚ) < c.total := by exact_mod_cast ht
  have e : (c.zeros : ℚ) / c.total * 1024 + 1 / 2 =
      ((2 * 1024 * c.zeros + c.total : ℕ) : ℚ) / ((2 * c.total : ℕ) : ℚ) := by
    push_cast; field_simp; ring
  rw [e, Rat.floor_natCast_div_natCast]
  rfl

/-- **C21.** For every counter of less than 2^31 symbols the probability computed in binary64 is the rounded
quotient, so that encoder and decoder divide the range as the model says. -/
theorem c21_probability (c : Counter) (hz : c.zeros ≤ c.total) (h0 : 0 < c.total) (ht : c.total < 2 ^ 31) :
    c.probability64 = c.probability := by
  have ht' : (0 : ℚ) < c.total := by exact_mod_cast h0
  rw [probability_floor c h0]
  unfold Counter.probability64
  set x : ℚ := (c.zeros : ℚ) / c.total with hx
  have hx0 : 0 ≤ x := by positivity
  have hx1 : x ≤ 1 := by rw [hx, div_le_one ht']; exact_mod_cast hz
  have hscale : fl64 (fl64 x * 1024) = fl64 x * 1024 := by
    obtain ⟨m, U, h1, h2, h3⟩ := isDouble_fl64 x
    apply IsDouble.exact
    refine ⟨m, U + 10, ?_, h2, by omega⟩
    rw [h1, zpow_add₀ (by norm_num)]
    norm_num
    ring
  rw [hscale]
  have hnear : |fl64 x - x| ≤ x / 2 ^ 53 + 1 / 2 ^ 100 := by
    have h1 := flo_abs_err 53 (-1022) x
    rw [abs_of_nonneg hx0] at h1
    have h2 : (2 : ℚ) ^ ((-1022 : ℤ) - (53 : ℕ)) ≤ 1 / 2 ^ 100 := by
      rw [one_div, ← zpow_natCast, ← zpow_neg]
      exact zpow_le_zpow_right₀ (by norm_num) (by norm_num)
    have h3 : (2 : ℚ) ^ (-((53 : ℕ) : ℤ)) = 1 / 2 ^ 53 := by norm_num
    rw [h3, mul_one_div] at h1
    exact h1.trans (by linarith)
  have hclose : |(fl64 x * 1024 + 1 / 2) - (x * 1024 + 1 / 2)| ≤ 1 / 2 ^ 40 := by
    rw [show (fl64 x * 1024 + 1 / 2) - (x * 1024 + 1 / 2) = (fl64 x - x) * 1024 by ring, abs_mul]
    norm_num at hnear ⊢
    linarith
  set n := ⌊x * 1024 + 1 / 2⌋ with hn
  have l1 : (n : ℚ) ≤ x * 1024 + 1 / 2 := Int.floor_le _
  have l2 : x * 1024 + 1 / 2 < n + 1 := Int.lt_floor_add_one _
  -- the quotient as a fraction
  have hfrac : (x * 1024 + 1 / 2) * (2 * c.total) = 2048 * c.zeros + c.total := by
    rw [hx]; field_simp; ring
  have htt : (c.total : ℚ) ≤ 2 ^ 31 := by exact_mod_cast ht.le
  rw [Int.floor_eq_iff]
  rw [abs_le] at hclose
  constructor
  · rcases l1.eq_or_lt with h | h
    · -- a half exactly: the quotient is a multiple of 1/2048
      have hxe : x = ((2 * n - 1 : ℤ) : ℚ) * 2 ^ (-11 : ℤ) := by
        push_cast
        rw [show (2 : ℚ) ^ (-11 : ℤ) = 1 / 2048 by norm_num]
        linarith
      have hn1 : n ≤ 1024 := by
        have : (n : ℚ) < 1025 := by linarith
        have : n < 1025 := by exact_mod_cast this
        omega
      have hn0 : 0 ≤ n := Int.floor_nonneg.mpr (by linarith)
      have : fl64 x = x := by
        apply IsDouble.exact
        exact ⟨2 * n - 1, -11, hxe, by rw [abs_lt]; constructor <;> omega, by norm_num⟩
      rw [this]
      exact l1
    · have h1 : (n : ℚ) * (2 * c.total) + 1 ≤ 2048 * c.zeros + c.total := by
        have := mul_lt_mul_of_pos_right h (show (0 : ℚ) < 2 * c.total by positivity)
        rw [hfrac] at this
        have h2 : n * (2 * (c.total : ℤ)) < 2048 * (c.zeros : ℤ) + c.total := by exact_mod_cast this
        have h3 : n * (2 * (c.total : ℤ)) + 1 ≤ 2048 * (c.zeros : ℤ) + c.total := by omega
        exact_mod_cast h3
      have h2 : (n : ℚ) + 1 / 2 ^ 32 ≤ x * 1024 + 1 / 2 := by
        rw [← hfrac] at h1
        have h3 : 1 ≤ (x * 1024 + 1 / 2 - n) * (2 * c.total) := by linarith
        have h4 : (x * 1024 + 1 / 2 - n) * (2 * c.total) ≤ (x * 1024 + 1 / 2 - n) * 2 ^ 32 := by
          apply mul_le_mul_of_nonneg_left
          · linarith
          · linarith
        have h5 : 1 ≤ (x * 1024 + 1 / 2 - n) * 2 ^ 32 := h3.trans h4
        have h6 : 1 / 2 ^ 32 ≤ x * 1024 + 1 / 2 - n := by rwa [div_le_iff₀ (by positivity)]
        linarith
      norm_num at h2 hclose ⊢
      linarith [hclose.1]
  · have h1 : 2048 * (c.zeros : ℚ) + c.total + 1 ≤ (n + 1) * (2 * c.total) := by
      have := mul_lt_mul_of_pos_right l2 (show (0 : ℚ) < 2 * c.total by positivity)
      rw [hfrac] at this
      have h2 : 2048 * (c.zeros : ℤ) + c.total < (n + 1) * (2 * (c.total : ℤ)) := by exact_mod_cast this
      have h3 : 2048 * (c.zeros : ℤ) + c.total + 1 ≤ (n + 1) * (2 * (c.total : ℤ)) := by omega
      exact_mod_cast h3
    have h2 : x * 1024 + 1 / 2 + 1 / 2 ^ 32 ≤ n + 1 := by
      rw [← hfrac] at h1
      have h3 : 1 ≤ (n + 1 - (x * 1024 + 1 / 2)) * (2 * c.total) := by linarith
      have h4 : (n + 1 - (x * 1024 + 1 / 2)) * (2 * c.total) ≤ (n + 1 - (x * 1024 + 1 / 2)) * 2 ^ 32 := by
        apply mul_le_mul_of_nonneg_left
        · linarith
        · linarith
      have h5 : 1 ≤ (n + 1 - (x * 1024 + 1 / 2)) * 2 ^ 32 := h3.trans h4
      have h6 : 1 / 2 ^ 32 ≤ n + 1 - (x * 1024 + 1 / 2) := by rwa [div_le_iff₀ (by positivity)]
      linarith
    norm_num at h2 hclose ⊢
    linarith [hclose.2]

example : (⟨11, 37⟩ : Counter).probability64 = 304 := by decide +kernel

/-- **C21.** The product of the range and a probability is exact in binary64. -/
theorem c21_product (rangeDiff p : Int) (h1 : 0 ≤ rangeDiff) (h2 : rangeDiff ≤ 1024) (h3 : 0 ≤ p) (h4 : p ≤ 1024) :
    product64 rangeDiff p = rangeDiff * p := by
  unfold product64
  have hb : rangeDiff * p ≤ 1024 * 1024 := mul_le_mul h2 h4 h3 (by norm_num)
  have h0 : 0 ≤ rangeDiff * p := mul_nonneg h1 h3
  have := fl64_int (rangeDiff * p) (by rw [abs_of_nonneg h0]; omega)
  push_cast at this
  rw [this, ← Int.cast_mul, Int.floor_intCast]

example : product64 700 304 = 212800 := by decide +kernel

/-- **C21.** Rescaling a counter keeps its frequency of zeros up to 1/32, and never makes a symbol impossible. -/
theorem c21_rescaled (c : Counter) (hz : c.zeros ≤ c.total) (h0 : 0 < c.total) :
    c.rescale.total = 32 ∧ 0 < c.rescale.zeros ∧ c.rescale.zeros < 32 ∧
      |(c.rescale.zeros : ℚ) / 32 - (c.zeros : ℚ) / c.total| ≤ 1 / 32 := by
  have ht : (0 : ℚ) < c.total := by exact_mod_cast h0
  have hx : (c.zeros : ℚ) / c.total * c.total = c.zeros := div_mul_cancel₀ _ ht.ne'
  set x : ℚ := (c.zeros : ℚ) / c.total with hxd
  have hx0 : 0 ≤ x := by positivity
  have hx1 : x ≤ 1 := by rw [hxd, div_le_one ht]; exact_mod_cast hz
  have hq1 := Nat.div_mul_le_self (RESIZE_TOTAL * c.zeros) c.total
  have hq2 := Nat.lt_div_mul_add (a := RESIZE_TOTAL * c.zeros) h0
  unfold Counter.rescale
  simp only [RESIZE_TOTAL] at hq1 hq2 ⊢
  generalize 32 * c.zeros / c.total = q at hq1 hq2
  have hq1 : (q : ℚ) ≤ 32 * x := by
    have : (q : ℚ) * c.total ≤ 32 * x * c.total := by rw [mul_assoc, hx]; exact_mod_cast hq1
    exact le_of_mul_le_mul_right this ht
  have hq2 : 32 * x < (q : ℚ) + 1 := by
    have : 32 * x * c.total < ((q : ℚ) + 1) * c.total := by
      rw [mul_assoc, hx, add_mul, one_mul]; exact_mod_cast hq2
    exact lt_of_mul_lt_mul_right this ht.le
  have hle : q ≤ 32 := by
    have : (q : ℚ) ≤ 32 := by linarith
    exact_mod_cast this
  refine ⟨trivial, ?_, ?_, ?_⟩
  · split <;> split <;> omega
  · split <;> split <;> omega
  · rw [abs_le]
    by_cases hq : q = 0
    · subst hq
      norm_num at hq1 hq2 ⊢
      constructor <;> linarith
    · rw [if_neg hq]
      by_cases hq' : q = 32
      · subst hq'
        norm_num at hq1 hq2 ⊢
        constructor <;> linarith
      · rw [if_neg hq']
        constructor <;> linarith

example : (⟨0, 400⟩ : Counter).rescale = ⟨1, 32⟩ ∧ (⟨400, 400⟩ : Counter).rescale = ⟨31, 32⟩ ∧
    (⟨100, 400⟩ : Counter).rescale = ⟨8, 32⟩ := by decide

end Haptics.Spiht
