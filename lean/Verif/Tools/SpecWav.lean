import Mathlib.Data.Rat.Defs
import Mathlib.Algebra.Order.Field.Rat
import Mathlib.Algebra.Order.Group.Abs

/-! What is expected of WAV files. -/

namespace Haptics.Wav

/-- `k` is a 16 bit number, and no other one is nearer to the sample on a full scale of 32768. -/
def Nearest (x : ℚ) (k : Int) : Prop :=
  -32768 ≤ k ∧ k ≤ 32767 ∧ ∀ m : Int, -32768 ≤ m → m ≤ 32767 → |(k : ℚ) - 32768 * x| ≤ |(m : ℚ) - 32768 * x|

/-- Two's complement. -/
def word (k : Int) : Nat := (k % 65536).toNat

/-- The sample is rounded to a negative number that is not clipped. -/
def Below (x : ℚ) : Prop := -32768 - 1 / 2 < 32768 * x ∧ 32768 * x ≤ -1 / 2
instance (x : ℚ) : Decidable (Below x) := inferInstanceAs (Decidable (_ ∧ _))

end Haptics.Wav
