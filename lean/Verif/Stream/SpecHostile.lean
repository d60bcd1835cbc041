import Verif.Bits.Model

/-
C118: files of any bytes, read as streams.
-/
namespace Haptics

/-- The number in `n` bits of a unit, from bit `start` on. -/
def unitField (start n : Nat) (u : Bits) : Nat := bitsVal ((u.drop start).take n)

/-- How many bytes follow the nine bytes of the head of a unit, as it says itself. -/
def announced (u : Bits) : Nat := unitField 36 32 u

/-- The type of the first packet of a unit. -/
def firstPacketType (u : Bits) : Nat := unitField 72 6 u

/-- The number of bits of the first packet after its head of three bytes, as it says itself. -/
def firstPacketBits (u : Bits) : Nat := 8 * unitField 78 17 u

/-- A unit of less than 2^28 bytes that has at most nine bytes after its head, or begins with a packet of a type that does not exist (there are twelve). -/
def Harmless (u : Bits) : Prop := announced u < 2 ^ 28 ∧ (announced u ≤ 9 ∨ 12 ≤ firstPacketType u)

end Haptics
