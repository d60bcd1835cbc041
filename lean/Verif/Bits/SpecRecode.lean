import Verif.Bits.Float

/-! What C98 says: coding a value that was coded before. -/

namespace Haptics

/-- `v` is written as a field of `n` bits for the range [mn, mx], and `w` is read. -/
def Recoded (n : Nat) (mn mx v w : ℚ) : Prop :=
  ∀ rest, readFloatNBits n mn mx (writeFloatNBits n v mn mx ++ rest) = .ok (w, rest)

/-- `v` is written and read `k` times, and `w` is what is read at last. -/
inductive Recodings (n : Nat) (mn mx : ℚ) : Nat → ℚ → ℚ → Prop
  | zero (v : ℚ) : Recodings n mn mx 0 v v
  | succ {k : Nat} {u v w : ℚ} : Recodings n mn mx k u v → Recoded n mn mx v w → Recodings n mn mx (k + 1) u w

end Haptics
