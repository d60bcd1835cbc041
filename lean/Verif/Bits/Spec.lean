import Verif.Bits.Model

/-
Specification of "a bit cursor over a file": bit `i` of what is still to be read, the file being
continued by zero bits.
-/
namespace Haptics

/-- Bit `i` counted from the current reading position. -/
def FileSt.bit (s : FileSt) (i : Nat) : Bool := (s.unused ++ s.rest.flatMap byteBits).getD i false

/-- Unsigned number formed by bits `o, o+1, ..., o+n-1` of `f`, first bit most significant. -/
def fieldAt (f : Nat → Bool) (o n : Nat) : Nat := bitsVal ((List.range n).map fun i => f (o + i))

/-- What reading fields of the given widths, one after the other, must return. -/
def fieldsAt (f : Nat → Bool) : Nat → List Nat → List Nat
  | _, [] => []
  | o, n :: ns => fieldAt f o n :: fieldsAt f (o + n) ns

/-- A history of `readNBits` calls on one file. -/
def readAll : List Nat → FileSt → List Nat × FileSt
  | [], s => ([], s)
  | n :: ns, s =>
    let (v, s') := readNBitsF n s
    let (vs, s'') := readAll ns s'
    (v :: vs, s'')

end Haptics
