import Verif.Stream.Reader
import Verif.Stream.SpecUnit
import Verif.Stream.SpecFrames

/-
CRC packets inside a stream, stated without reference to the functions that read them.
-/
namespace Haptics

/-- `u` is a unit on the wire with this sync code and these packets. -/
def IsSent (u : Bits) (sync : Nat) (packets : List Packet) : Prop :=
  ∃ t layer duration : Nat, t < 64 ∧ sync < 4 ∧ layer < 16 ∧ duration < 2 ^ 24 ∧
    (∀ p ∈ packets, p.WF) ∧ (packets.flatMap Packet.encode).length / 8 < 2 ^ 28 ∧
    u = unitHeader t sync layer duration ((packets.flatMap Packet.encode).length / 8 : Nat)
      ++ packets.flatMap Packet.encode

/-- `p` is a CRC packet that says: the first `n` units of the stream, divided by the polynomial, leave `v`. -/
inductive CrcPacket : Packet → Nat → Nat → Bits → Prop
  | crc32 (v : Nat) : v < 2 ^ 32 → CrcPacket ⟨7, writeNBits 32 v⟩ 1 v (writeNBits 32 2187366103)
  | crc16 (v : Nat) : v < 2 ^ 16 → CrcPacket ⟨8, writeNBits 16 v⟩ 1 v (writeNBits 16 49185)
  | global16 (n v : Nat) : n < 256 → v < 2 ^ 16 →
      CrcPacket ⟨9, writeNBits 8 n ++ writeNBits 16 v⟩ n v (writeNBits 16 49185)
  | global32 (n v : Nat) : n < 256 → v < 2 ^ 32 →
      CrcPacket ⟨10, writeNBits 8 n ++ writeNBits 32 v⟩ n v (writeNBits 32 2187366103)

/-- No packet is a CRC packet. -/
def NoCrc (packets : List Packet) : Prop := ∀ q ∈ packets, q.type < 7 ∨ 10 < q.type

/-- The CRC is that of the units it protects, the last one first. -/
def CrcMatches (all : List Bits) (n v : Nat) (poly : Bits) : Prop :=
  n ≤ all.length ∧ 0 < v ∧ bitsVal (computeCRC (all.take n).reverse.flatten poly) = v

/-- A unit that cannot be decoded without its predecessors: it is not marked as a sync point, and begins with
a data packet whose first bit is 1.  More than the 72 bits the reader leaves out at the end of a unit. -/
def IsDependent (u : Bits) : Prop :=
  ∃ (sync : Nat) (payload : Bits) (ps : List Packet), sync ≠ 0 ∧
    IsSent u sync (⟨PacketType.Data, true :: payload⟩ :: ps) ∧
    72 < (Packet.encode ⟨PacketType.Data, true :: payload⟩ ++ ps.flatMap Packet.encode).length

/-- A unit that carries a CRC packet, and enough after it that the reader sees it. -/
structure CarriesCrc (u : Bits) (n v : Nat) (poly : Bits) : Prop where
  sent : ∃ (sync : Nat) (p : Packet) (ps : List Packet), IsSent u sync (p :: ps) ∧ CrcPacket p n v poly ∧
    NoCrc ps ∧ 72 < (p.encode ++ ps.flatMap Packet.encode).length

end Haptics
