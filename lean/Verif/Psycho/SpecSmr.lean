import Verif.Psycho.Smr
import Mathlib.Algebra.BigOperators.Intervals
import Mathlib.Analysis.SpecialFunctions.Pow.Real
import Mathlib.Analysis.SpecialFunctions.Log.Base

/-! What C93 says of the ratios of signal to mask. -/

namespace Haptics.Psycho
open Haptics Finset

/-- What is asked of the functions that are not modelled: a power is positive, and not below 1 for an exponent that is not negative;
the square of the logarithm of 6/11, which is about 0.07, is not far off; square roots of positive numbers are positive; the Fourier
transform has as many values as its input, all zero for zeros. -/
structure Lib.Sane (lib : Lib) : Prop where
  pow_pos : ∀ x, 0 < lib.pow10 x
  pow_one : ∀ x, 0 ≤ x → 1 ≤ lib.pow10 x
  square_low : 1 / 100 ≤ lib.square (lib.log10 constB)
  square_high : lib.square (lib.log10 constB) ≤ 1
  sqrt_pos : ∀ x, 0 < x → 0 < lib.sqrt x
  sqrt_zero : lib.sqrt 0 = 0
  fft_length : ∀ l, (lib.fft l).length = l.length
  fft_zero : ∀ n, ∀ a ∈ lib.fft (List.replicate n 0), a = (0, 0)

/-- The relative error of squares and of the way to dB and back is at most `ε`. -/
structure Lib.Accurate (lib : Lib) (ε : ℚ) : Prop where
  db : ∀ m, 0 < m → |lib.pow10 (20 * lib.log10 m / 10) - m ^ 2| ≤ ε * m ^ 2
  root : ∀ x, 0 ≤ x → |lib.sqrt x ^ 2 - x| ≤ ε * x

/-- The bins of band `b`: the first two bands have four, and every other one as many as all before it. -/
def bins (b : ℕ) : Finset ℕ := Ico (if b = 0 then 0 else 4 * 2 ^ (b - 1)) (4 * 2 ^ b)

/-- The squared magnitude of bin `i` of the spectrum of a block, filled up with zeros to `2 * bl` values. -/
def power (lib : Lib) (bl : ℕ) (block : List ℚ) (i : ℕ) : ℚ :=
  let a := (lib.fft (block ++ List.replicate (2 * bl - block.length) 0)).getD i (0, 0)
  a.1 ^ 2 + a.2 ^ 2

/-- The threshold of perception at the frequency `f`: the formula of PsychohapticModel.cpp:132 and 135, in real numbers. -/
noncomputable def sensation (f : ℝ) : ℝ :=
  10 ^ ((|50 / Real.logb 10 (6 / 11) ^ 2 * Real.logb 10 (f / 550 + 6 / 11) ^ 2| - 45) / 10)

end Haptics.Psycho
