import Verif.Eval.Rounded
import Verif.Eval.Spec
import Verif.Bits.FloatLemmas

/-! What is asked of the arithmetic of `double`, and the rounding of binary64. -/

namespace Haptics

/-- What is asked of the arithmetic: a result is rounded by at most one part in `2^53`, in the order of the results, and not at
all if it is a whole number below `2^53`; a sine is at most 1; powers are right up to one part in `2^50`; `M_PI` is at least 2. -/
structure Arith.Sound (A : Arith) : Prop where
  err : ∀ x, |A.rd x - x| ≤ |x| / 2 ^ 53
  mono : Monotone A.rd
  int : ∀ z : ℤ, |z| < 2 ^ 53 → A.rd z = z
  sin : ∀ x, |A.sin x| ≤ 1
  pow2 : ∀ x, |A.pow2 x - x ^ 2| ≤ |x ^ 2| / 2 ^ 50
  pow3 : ∀ x, |A.pow3 x - x ^ 3| ≤ |x ^ 3| / 2 ^ 50
  pi : 2 ≤ A.pi

/-- A rational number rounded to 53 bits, half-way cases to even: binary64, with exponents of any size. -/
def wide (x : ℚ) : ℚ := flo 53 (ilog2 |x|) x

/-- A real number rounded to 53 bits: the largest of the roundings of the rational numbers that do not exceed it. -/
noncomputable def wideReal (x : ℝ) : ℝ := sSup {y : ℝ | ∃ q : ℚ, (q : ℝ) ≤ x ∧ y = (wide q : ℚ)}

/-- Arithmetic on `double`, if no exponent is out of range, with functions of the library that round correctly. -/
noncomputable def Arith.double : Arith :=
  ⟨wideReal, fun x => wideReal (Real.sin x), fun x => wideReal (x ^ 2), fun x => wideReal (x ^ 3), wideReal Real.pi⟩

/-- The positions of keyframes are `int`s. -/
def Channel.Positions (c : Channel) : Prop :=
  ∀ b ∈ c.bands, ∀ e ∈ b.effects, ∀ k ∈ e.keyframes, ∀ p, k.relativePosition = some p → |p| ≤ 2 ^ 31

end Haptics
