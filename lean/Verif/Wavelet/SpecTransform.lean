import Mathlib.Data.Rat.Defs
import Mathlib.Algebra.Order.Ring.Rat
import Mathlib.Algebra.Order.Group.Abs

/-! What C84 and C85 say about the wavelet transform. -/

namespace Haptics.Wavelet.Transform

/-- The signals have the same length, and no sample of one is further than `tol` from that of the other. -/
def Close (tol : ℚ) (a b : List ℚ) : Prop := a.length = b.length ∧ ∀ i < b.length, |a.getD i 0 - b.getD i 0| ≤ tol

/-- Coefficient `i` belongs to band `b`: band 0 has the first `first` coefficients, and every further band as many
as there are before it. -/
def Band (first b i : ℕ) : Prop := match b with
  | 0 => i < first
  | b + 1 => first * 2 ^ b ≤ i ∧ i < first * 2 ^ (b + 1)

end Haptics.Wavelet.Transform
