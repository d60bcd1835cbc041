import Verif.Stream.Data

/-
What the receiver does with each packet: the `switch` of `IOStream::readMIHSPacket`
(/repo/source/IOHaptics/src/IOStream.cpp:673-758).
-/
namespace Haptics

/-- A packet read by `p`: `false` leaves the reader as it is, otherwise `k` gives the new reader. -/
def handle {α : Type} (p : Rd α) (payload : Bits) (r : Reader) (k : α → Except Err Reader) :
    Except Err (Bool × Reader) :=
  match p payload with
  | .error .fail => .ok (false, r)
  | .error e => .error e
  | .ok (a, _) => match k a with
    | .error e => .error e
    | .ok r' => .ok (true, r')

/-- IOStream.cpp:680-684 with `readTiming` 802-812: the time goes to a new sync point, and, converted
with wrap-around unsigned arithmetic, to the clock. -/
def onTiming (r : Reader) (time : Nat) : Except Err Reader :=
  if r.timescale = 0 then .error .ub
  else .ok { r with haptic := { r.haptic with syncs := r.haptic.syncs ++ [{ timestamp := toSigned 32 time }] }
                    time := time * 1000 % 2 ^ 32 / r.timescale }

/-- IOStream.cpp:837-854 `readInitializationTiming`. -/
def onInitializationTiming (r : Reader) (t : InitTiming) : Except Err Reader :=
  .ok { r with haptic := { r.haptic with
                 syncs := r.haptic.syncs ++ [{ timestamp := t.time, timescale := some t.timescale }] }
               nominalDuration := t.nominalDuration, durationDeviation := t.durationDeviation
               overlapping := t.overlapping, timescale := t.timescale, time := toU32 t.time }

/-- IOStream.cpp:688-699: a perception with a known id has its metadata replaced. -/
def onPerception (r : Reader) (p : Perception) : Except Err Reader :=
  match searchPerceptionInHaptic r.haptic p.id with
  | none => .ok { r with haptic := { r.haptic with perceptions := r.haptic.perceptions ++ [p] } }
  | some i => .ok { r with haptic := (r.haptic.replacePerceptionMetadataAt i p).2 }

/-- IOStream.cpp:1139-1157. -/
def onLibrary (r : Reader) (x : Nat × List Effect) : Except Err Reader :=
  .ok { r with haptic := { r.haptic with
    perceptions := r.haptic.perceptions.modify x.1
      (fun p => { p with effectLibrary := p.effectLibrary ++ x.2 }) } }

/-- `haptic.getPerceptionAt(p)` replaced by its image under `f`; `vector::at` throws. -/
def Experience.atPerception (h : Experience) (p : Nat) (f : Perception → Perception) :
    Except Err Experience :=
  if p < h.perceptions.length then .ok { h with perceptions := h.perceptions.modify p f }
  else .error .throw

/-- IOStream.cpp:704-717.  The channel is looked for in all perceptions, the result used as an index
into the perception the packet names (`x.1`). -/
def onChannel (r : Reader) (x : Nat × Channel) : Except Err Reader :=
  match searchChannelInHaptic r.haptic x.2.id with
  | none => (r.haptic.atPerception x.1 (fun p => { p with channels := p.channels ++ [x.2] })).map
      (fun h => { r with haptic := h })
  | some c => (r.haptic.atPerception x.1 (fun p => (p.replaceChannelMetadataAt c x.2).2)).map
      (fun h => { r with haptic := h })

/-- IOStream.cpp:718-744 for band id, perception index, channel index and band. -/
def onBand (r : Reader) (x : Int × Nat × Nat × Band) : Except Err Reader :=
  match r.haptic.perceptions[x.2.1]?.bind (fun p => p.channels[x.2.2.1]?) with
  | none => .error .throw
  | some channel =>
    let set (f : Channel → Channel) : Experience :=
      { r.haptic with
        perceptions := r.haptic.perceptions.modify x.2.1
          (fun p => { p with channels := p.channels.modify x.2.2.1 f }) }
    let add : Reader :=
      { r with haptic := set (fun c => { c with bands := c.bands ++ [x.2.2.2] })
               bandStreams := r.bandStreams ++ [(x.1, channel.bands.length)] }
    match searchBandInHaptic r.bandStreams x.1 with
    | none => .ok add
    | some b =>
      if channel.bands.length = 0 ∨ channel.bands.length < b then .ok add
      else .ok { r with haptic := set (fun c => (c.replaceBandMetadataAt b x.2.2.2).2) }

/-- IOStream.cpp:748-753. -/
def crcKind (packetType : Nat) : Option CrcKind :=
  if packetType = PacketType.CRC16 then some .crc16
  else if packetType = PacketType.CRC32 then some .crc32
  else if packetType = PacketType.GlobalCRC16 then some .globalCrc16
  else if packetType = PacketType.GlobalCRC32 then some .globalCrc32
  else none

/-- IOStream.cpp:679-757, the `switch`. -/
def dispatch : Dispatch := fun packetType payload r =>
  if packetType = PacketType.Timing then handle readTiming payload r (onTiming r)
  else if packetType = PacketType.MetadataHaptics then
    handle (readMetadataHaptics r.haptic) payload r (fun h => .ok { r with haptic := h })
  else if packetType = PacketType.MetadataPerception then
    handle readMetadataPerception payload r (onPerception r)
  else if packetType = PacketType.EffectLibrary then
    handle (readLibrary r.haptic) payload r (onLibrary r)
  else if packetType = PacketType.MetadataChannel then
    handle (readMetadataChannel r.haptic) payload r (onChannel r)
  else if packetType = PacketType.MetadataBand then
    handle (readMetadataBand r.haptic) payload r (onBand r)
  else if packetType = PacketType.Data then readData payload r
  else match crcKind packetType with
    | some k => handle (readCRC k) payload r (fun c => .ok { r with crc := c })
    | none =>
      if packetType = PacketType.InitializationTiming then
        handle readInitializationTiming payload r (onInitializationTiming r)
      else .ok (false, r)

/-- IOStream.cpp:63-83 `readFile`, with the dispatch above. -/
def readStream (file : List UInt8) : Except Err (Bool × Option Experience) := readFile dispatch file

end Haptics
