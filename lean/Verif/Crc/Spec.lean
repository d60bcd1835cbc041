import Verif.Bits.Model
import Mathlib.Algebra.Polynomial.Div
import Mathlib.Algebra.Field.ZMod

/-
Specification of a CRC: remainder of polynomial division over GF(2).
-/
namespace Haptics
open Polynomial

/-- The polynomial whose coefficients are the bits, first bit = highest power. -/
noncomputable def bitsPoly : Bits → (ZMod 2)[X]
  | [] => 0
  | b :: t => (if b then 1 else 0) * X ^ t.length + bitsPoly t

/-- Generator of a CRC of `p.length` bits: the leading term is implicit. -/
noncomputable def genPoly (p : Bits) : (ZMod 2)[X] := X ^ p.length + bitsPoly p

/-- Bitwise sum of two bit strings of the same length: `xorBits m e` is `m` with the bits marked in `e`
inverted. -/
def xorBits (a b : Bits) : Bits := List.zipWith (fun x y => x != y) a b

/-- An error pattern that is a burst of length at most `n`: all inverted bits lie within `n`
consecutive positions, and at least one bit is inverted. -/
def IsBurst (n : Nat) (e : Bits) : Prop :=
  ∃ (a c : Nat) (b : Bits), e = List.replicate a false ++ b ++ List.replicate c false
    ∧ b.length ≤ n ∧ true ∈ b

end Haptics
