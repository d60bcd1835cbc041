import Verif.Stream.SpecUnit

/-
What a stream is, as a sequence of units in time.  Nothing here refers to the loop that writes units.
-/
namespace Haptics

/-- What a unit stands for: data packets (without their timestamps), all due at time `t`; silence; or a
sync point, where everything a receiver must know is repeated. -/
inductive Frame where
  | data (t : Nat) (bodies : List Bits)
  | silence (duration : Nat)
  | sync (t : Nat)

/-- A data packet of a unit: padded to whole bytes. -/
def dataPacket (body : Bits) : Packet := ⟨PacketType.Data, fillBitset body⟩

/-- A packet can be decoded without its predecessors if its first bit is 0 (AUType.RAU). -/
def isRAU (body : Bits) : Bool := body.head? == some false

/-- The unit on the wire of a frame.  `init t` is the unit of a sync point at time `t`. -/
def Frame.IsEncoded (pd layer : Nat) (init : Nat → Bits) : Frame → Bits → Prop
  | .data _ bodies, u =>
    u = unitHeader UnitType.Temporal ((if bodies.all isRAU then 0 else 1 : Nat) : Int) layer pd
          (((bodies.map dataPacket).flatMap Packet.encode).length / 8 : Nat)
        ++ (bodies.map dataPacket).flatMap Packet.encode
  | .silence duration, u => ∃ sync : Nat, sync < 4 ∧
    u = unitHeader UnitType.Silent sync layer duration 0
  | .sync t, u => u = init t

/-- The time at which the unit that follows is due. -/
def Frame.next (pd : Nat) : Frame → Nat → Nat
  | .data _ _, c => c + pd
  | .silence d, c => c + d
  | .sync _, c => c

/-- The frame belongs at time `c`. -/
def Frame.DueAt : Frame → Nat → Prop
  | .data t bodies, c => t = c ∧ bodies ≠ []
  | .silence d, _ => d < 2 ^ 24
  | .sync t, c => t = c

/-- The time after some frames. -/
def clockAfter (pd : Nat) : List Frame → Nat → Nat
  | [], c => c
  | f :: fs, c => clockAfter pd fs (f.next pd c)

/-- Every frame belongs at the time at which its predecessors end. -/
def InTime (pd : Nat) : List Frame → Nat → Prop
  | [], _ => True
  | f :: fs, c => f.DueAt c ∧ InTime pd fs (f.next pd c)

/-- The data packets of a frame with their time. -/
def Frame.content : Frame → List (Nat × Bits)
  | .data t bodies => bodies.map (fun b => (t, b))
  | .silence _ => []
  | .sync _ => []

/-- The time of a frame that is a sync point. -/
def Frame.syncTime : Frame → Option Nat
  | .sync t => some t
  | _ => none

/-- The times of the sync points among some frames. -/
def syncTimes (frames : List Frame) : List Nat := frames.filterMap Frame.syncTime

/-- The sync points `ps` are in order, after time `c`, and at times of the packets `xs`. -/
def Ahead (c : Nat) (xs : List (Nat × Bits)) (ps : List Sync) : Prop :=
  ps.Pairwise (fun a b => a.timestamp < b.timestamp) ∧
  ∀ p ∈ ps, (c : Int) < p.timestamp ∧ ∃ x ∈ xs, p.timestamp = (x.1 : Int)

end Haptics
