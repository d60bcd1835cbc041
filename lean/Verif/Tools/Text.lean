import Verif.Types.Model
import Mathlib.Data.Nat.Digits.Defs

/-! Numbers as text: `std::to_string` and `std::stoi`. -/

namespace Haptics
open Haptics

/-- The decimal digits of a number. -/
def digitsOf (n : Nat) : Str :=
  if n = 0 then [48] else (Nat.digits 10 n).reverse.map (fun d => UInt8.ofNat (48 + d))

/-- `std::to_string(int)`. -/
def toText (z : Int) : Str := if z < 0 then 45 :: digitsOf z.natAbs else digitsOf z.natAbs

/-- `std::isspace` in the C locale. -/
def isSpace (b : UInt8) : Bool := b == 32 || (9 ≤ b && b ≤ 13)

def isDigit (b : UInt8) : Bool := 48 ≤ b && b ≤ 57

/-- The value of decimal digits. -/
def digitsValue (s : Str) : Nat := s.foldl (fun n b => n * 10 + (b.toNat - 48)) 0

/-- An optional sign: whether it is a minus, and the rest. -/
def signOf : Str → Bool × Str
  | [] => (false, [])
  | b :: t => if b = 45 then (true, t) else if b = 43 then (false, t) else (false, b :: t)

/-- `std::stoi`: white space, a sign and digits; what follows is ignored.  Throws without digits, and when the value is
not in the range of an `int`. -/
def stoi (s : Str) : Except Err Int :=
  let s := s.dropWhile isSpace
  let negative := (signOf s).1
  let digits := (signOf s).2.takeWhile isDigit
  if digits.isEmpty then .error .throw
  else
    let v : Int := if negative then -(digitsValue digits : Int) else digitsValue digits
    if -2 ^ 31 ≤ v ∧ v < 2 ^ 31 then .ok v else .error .throw

end Haptics
