import Mathlib.Algebra.Order.Ring.Rat
import Mathlib.Algebra.Order.Group.Abs

/-! What C89 says about a recording. -/

namespace Haptics.Recording

/-- A sample limited to the range of a WAV file. -/
def limited (x : ℚ) : ℚ := max (-1) (min 1 x)

/-- `i` is the place `ti` of a signal or the one before it, and it is `ti` at a rate that is a power of two. -/
def SamePlace (rate ti i : ℕ) : Prop := i ≤ ti ∧ ti ≤ i + 1 ∧ ((∃ f, rate = 2 ^ f) → i = ti)

/-- The block of `2 ^ k` samples in which sample `i` lies, filled up with zeros. -/
def blockOf (k : ℕ) (sig : List ℚ) (i : ℕ) : List ℚ :=
  (List.range (2 ^ k)).map (fun j : ℕ => sig.getD (i / 2 ^ k * 2 ^ k + j) 0)

end Haptics.Recording
