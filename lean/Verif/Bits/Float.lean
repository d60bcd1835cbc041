import Verif.Bits.Model
import Mathlib.Data.Rat.Floor

/-
binary32 / binary64 arithmetic on exact rationals, and the quantised float fields of
/repo/source/IOHaptics/include/IOBinaryPrimitives.h:92-101, 112-119, 141-158.
Every finite IEEE value is a rational; each C++ operation is the exact operation followed by
round-to-nearest-even.  NaN, infinities and overflow are not modelled.  The compiler is assumed not to
contract `a*b+c` into a fused multiply-add and to evaluate `float` expressions in `float`.
-/
namespace Haptics

/-- Exponent `e` with `2^e ≤ q < 2^(e+1)`, for `q > 0`. -/
def ilog2 (q : ℚ) : ℤ :=
  let e : ℤ := (Nat.log2 q.num.natAbs : ℤ) - (Nat.log2 q.den : ℤ)
  if (2 : ℚ) ^ e ≤ q then e else e - 1

/-- Nearest integer, ties to even. -/
def roundEven (q : ℚ) : ℤ :=
  let f := ⌊q⌋
  if q - f < 1 / 2 then f
  else if 1 / 2 < q - f then f + 1
  else if f % 2 = 0 then f else f + 1

/-- Rounding to a binary format with `p` significant bits and least normal exponent `emin`. -/
def flo (p : ℕ) (emin : ℤ) (x : ℚ) : ℚ :=
  if x = 0 then 0
  else
    let u : ℚ := 2 ^ (max (ilog2 |x|) emin - ((p : ℤ) - 1))
    roundEven (x / u) * u

/-- Rounding to binary32 (`float`). -/
def fl32 (x : ℚ) : ℚ := flo 24 (-126) x
/-- Rounding to binary64 (`double`). -/
def fl64 (x : ℚ) : ℚ := flo 53 (-1022) x

/-- `std::clamp<float>(x, 0, 1)`. -/
def clamp01 (x : ℚ) : ℚ := if x < 0 then 0 else if 1 < x then 1 else x

/-- IOBinaryPrimitives.h:115-117: the integer code of a float.  The cast to the unsigned type truncates. -/
def floatCode (n : Nat) (v mn mx : ℚ) : Nat :=
  let normalizedValue := clamp01 (fl32 (fl32 (v - mn) / fl32 (mx - mn)))
  (⌊fl64 (normalizedValue * ((2 ^ n - 1 : ℕ) : ℚ))⌋).toNat

/-- IOBinaryPrimitives.h:112-119 `writeFloatNBits`. -/
def writeFloatNBits (n : Nat) (v mn mx : ℚ) : Bits := writeNBits n (floatCode n v mn mx)

/-- IOBinaryPrimitives.h:95-100, 152-157: the float of an integer code. -/
def codeFloat (n : Nat) (k : Nat) (mn mx : ℚ) : ℚ :=
  let normalizedValue := clamp01 (fl32 (fl32 (k : ℚ) / fl32 ((2 ^ n - 1 : ℕ) : ℚ)))
  fl32 (fl32 (normalizedValue * fl32 (mx - mn)) + mn)

/-- IOBinaryPrimitives.h:141-158 `readFloatNBits` on a bit stream. -/
def readFloatNBits (n : Nat) (mn mx : ℚ) : Rd ℚ := do
  let k ← rdU n
  pure (codeFloat n k mn mx)

/-- IOBinaryPrimitives.h:92-101 `readFloatNBits` on a file. -/
def freadFloatNBits (n : Nat) (mn mx : ℚ) : Rd ℚ := do
  let k ← frdU n
  pure (codeFloat n k mn mx)

/-- IOBinaryPrimitives.h:48-51. -/
def MAX_FLOAT : ℚ := 10000
def MAX_FREQUENCY : ℚ := 10000
def MAX_AMPLITUDE : ℚ := 1
def MAX_PHASE : ℚ := fl32 (628318 / 100000)

end Haptics
