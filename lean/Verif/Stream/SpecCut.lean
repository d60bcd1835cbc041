import Verif.Stream.SpecLoss

/-
C113: a stream file that was cut off.
-/
namespace Haptics

/-- Number of bytes of some units. -/
def bytesOf (units : List Bits) : Nat := units.flatten.length / 8

/-- A unit of which only the first `m` bytes are there, filled up with zeros to `n` bits. -/
def zeroFilled (m n : Nat) (u : Bits) : Bits := u.take (8 * m) ++ List.replicate (n - 8 * m) false

/-- The number of bits of a unit, as its head says, of which only the first `m` bytes are there: the length of what follows the head is in its bits 36 to 67,
and those that are missing are taken for zeros. -/
def sizeTold (m : Nat) (u : Bits) : Nat := 72 + 8 * ((u.length / 8 - 9) / 2 ^ (68 - 8 * m) * 2 ^ (68 - 8 * m))

end Haptics
