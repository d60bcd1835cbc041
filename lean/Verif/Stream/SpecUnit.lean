import Verif.Stream.Unit

/-
The MIHS framing format, stated without reference to the unit and packet writers: what a packet and a
unit look like on the wire, and what it means that a unit is read completely.
-/
namespace Haptics

/-- A packet: type and payload. -/
structure Packet where
  type : Nat
  payload : Bits

/-- 6-bit type, whole bytes of payload, fewer than 2^17 of them. -/
structure Packet.WF (p : Packet) : Prop where
  type : p.type < 64
  aligned : p.payload.length % 8 = 0
  size : p.payload.length / 8 < 2 ^ 17

/-- On the wire: 6 bits of type, 17 bits of payload size in bytes, 1 reserved bit, payload. -/
def Packet.encode (p : Packet) : Bits :=
  writeNBits 6 p.type ++ (writeNBits 17 (p.payload.length / 8 : Nat) ++ ([false] ++ p.payload))

/-- A unit on the wire: 36 bits of type, sync, layer and duration, the payload size in bytes on 32 bits,
4 reserved bits, payload. -/
def IsUnit (u : Bits) : Prop :=
  ∃ (head : Bits) (n : Nat) (reserved payload : Bits),
    head.length = 36 ∧ reserved.length = 4 ∧ payload.length = 8 * n ∧ n < 2 ^ 31 ∧
    u = head ++ (writeNBits 32 n ++ (reserved ++ payload))

/-- Handing packets to `d` one after the other, until one is rejected.  With each payload `d` also sees
the bits of the packets that follow in the unit. -/
def processAll (d : Dispatch) : List Packet → Reader → Except Err (Bool × Reader)
  | [], r => .ok (true, r)
  | p :: ps, r =>
    match d p.type (p.payload ++ ps.flatMap Packet.encode) r with
    | .error e => .error e
    | .ok (false, r') => .ok (false, r')
    | .ok (true, r') => processAll d ps r'

/-- What reading a complete unit of the given sync code, layer and duration does to the reader:
the header is noted, every packet processed, and the clock advanced by the duration unless a packet was
rejected. -/
def unitEffect (d : Dispatch) (sync layer duration : Nat) (packets : List Packet) (r : Reader) :
    Except Err Reader :=
  match processAll d packets { r with waitSync := r.waitSync && !(sync == 0), layer := layer,
                                      packetDuration := duration } with
  | .error e => .error e
  | .ok (false, r') => .ok r'
  | .ok (true, r') => .ok { r' with time := (r'.time + r'.packetDuration) % 2 ^ 32 }

end Haptics
