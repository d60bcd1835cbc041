import Verif.Stream.Packetize
import Verif.Binary.Bands

/-
Writing a stream: /repo/source/IOHaptics/src/IOStream.cpp:41-61, 126-212, 467-653, 2147-2199, 2805-2818.
`swriter.haptic` is passed explicitly; the framing state is `Writer` (Unit.lean).
-/
namespace Haptics

/-! ### Removal of empty components -/

/-- `for (i = 0; i < size; i++) { clean(l[i]); if (empty(l[i])) l.erase(i); }`: after an element has been
erased its successor is passed over. -/
def sweep {α : Type} (clean : α → α) (empty : α → Bool) : List α → List α
  | [] => []
  | [x] => if empty (clean x) then [] else [clean x]
  | x :: y :: l =>
    if empty (clean x) then y :: sweep clean empty l
    else clean x :: sweep clean empty (y :: l)

/-- IOStream.cpp:634-636: a basis effect without keyframes, in a band that is not a wavelet band. -/
def emptyEffect (bandType : Nat) (e : Effect) : Bool :=
  bandType != BandType.WaveletWave && e.effectType == EffectType.Basis && e.keyframes.isEmpty

/-- IOStream.cpp:632-639. -/
def checkBand (b : Band) : Band := { b with effects := sweep id (emptyEffect b.bandType) b.effects }

/-- IOStream.cpp:630-643. -/
def checkChannel (c : Channel) : Channel :=
  { c with bands := sweep checkBand (fun b => b.effects.isEmpty) c.bands }

/-- IOStream.cpp:627-647. -/
def checkPerception (p : Perception) : Perception :=
  { p with channels := sweep checkChannel (fun c => c.bands.isEmpty) p.channels }

/-- IOStream.cpp:625-653 `checkHapticComponent`. -/
def checkHapticComponent (h : Experience) : Experience :=
  { h with perceptions := sweep checkPerception (fun p => p.channels.isEmpty) h.perceptions }

/-! ### Metadata packets (IOStream.cpp:467-623) -/

/-- IOStream.cpp:484-494. -/
def metadataHapticsPackets (h : Experience) : Except Err (List Bits) :=
  match writeMetadataHaptics h with
  | .error e => .error e
  | .ok b => .ok [writePacket PacketType.MetadataHaptics b]

/-- IOStream.cpp:495-510. -/
def perceptionPackets (h : Experience) : List Bits :=
  h.perceptions.map (fun p => writePacket PacketType.MetadataPerception (writeMetadataPerception p))

/-- The loop of IOStream.cpp:513-526. -/
def libraryPacketsOf : List Perception → Except Err (List Bits)
  | [] => .ok []
  | p :: ps =>
    if p.effectLibrary.isEmpty then libraryPacketsOf ps
    else match writeLibrary p with
      | .error e => .error e
      | .ok b => match libraryPacketsOf ps with
        | .error e => .error e
        | .ok r => .ok (writePacket PacketType.EffectLibrary b :: r)

/-- IOStream.cpp:511-528. -/
def libraryPackets (h : Experience) : Except Err (List Bits) := libraryPacketsOf h.perceptions

/-- IOStream.cpp:529-548. -/
def channelPackets (h : Experience) : List Bits :=
  h.perceptions.flatMap (fun p => p.channels.map (fun c =>
    writePacket PacketType.MetadataChannel (writeMetadataChannel p.id c)))

/-- A band with its address: the identifiers of perception and channel, and a number that counts all bands
(`bandId++`, IOStream.cpp:602-610, 2168-2184). -/
structure AddressedBand where
  addr : Address
  spatial : Bool
  band : Band

/-- IOStream.cpp:2172-2177: the modalities VibrotactileTexture, Stiffness and Friction
(Perception.h:57-59). -/
def isSpatial (modality : Nat) : Bool := modality == 10 || modality == 11 || modality == 12

/-- All bands in the order of IOStream.cpp:603-610 and 2170-2186. -/
def bandsOf (h : Experience) : List AddressedBand :=
  (h.perceptions.flatMap (fun p => p.channels.flatMap (fun c => c.bands.map (fun b => (p, c, b))))).mapIdx
    (fun i x => ⟨⟨x.1.id, x.2.1.id, i⟩, isSpatial x.1.perceptionModality, x.2.2⟩)

/-- IOStream.cpp:611-619: the payload is padded before its size is taken. -/
def bandPacket (x : AddressedBand) : Bits :=
  let payload := padToByteBoundary
    (writeMetadataBand x.addr.bandId x.addr.perceId x.addr.channelId x.band)
  writeMIHSPacketHeader PacketType.MetadataBand payload.length ++ payload

/-- IOStream.cpp:598-623 `writeAllBands`. -/
def bandPackets (h : Experience) : List Bits := (bandsOf h).map bandPacket

/-! ### Data packets -/

/-- IOStream.cpp:2147-2161 `writeSpatialData`: the whole band in one packet, in the layout of the binary
file format.  (One level of stack is enough: `Binary.writeTimelineEffect_stack`.) -/
def writeSpatialData (x : AddressedBand) : Except Err Bits :=
  match Binary.writeBandBody 1 x.band with
  | .error e => .error e
  | .ok b => .ok (writeEffectHeader 0 0 x.addr.perceId x.addr.channelId x.addr.bandId
      ++ (writeNBits DB_EFFECT_COUNT x.band.effects.length ++ b))

/-- IOStream.cpp:2168-2195, the loop over the bands: `buf` is `bandBitstream`, which is not cleared after
a band of a spatial modality.  The result is `expBitstream`. -/
def dataLoop (packetDuration : Int) : List AddressedBand → List Bits → List Int →
    Except Err (List (List Bits))
  | [], _, _ => .ok []
  | x :: xs, buf, ids =>
    if x.spatial then
      match writeSpatialData x with
      | .error e => .error e
      | .ok b => match dataLoop packetDuration xs (buf ++ [b]) ids with
        | .error e => .error e
        | .ok l => .ok ((buf ++ [b]) :: l)
    else
      match packetizeBand packetDuration x.addr x.band.linearizeTimeline ids with
      | .error e => .error e
      | .ok (bs, ids) => match dataLoop packetDuration xs [] ids with
        | .error e => .error e
        | .ok l => .ok ((buf ++ bs) :: l)

/-- IOStream.cpp:2162-2199 `writeData`. -/
def writeData (packetDuration : Int) (h : Experience) : Except Err (List Bits) :=
  match dataLoop packetDuration (bandsOf h) [] (getEffectsId h) with
  | .error e => .error e
  | .ok l => sortPacket l

/-- IOStream.cpp:552-562. -/
def dataPackets (packetDuration : Int) (h : Experience) : Except Err (List Bits) :=
  (writeData packetDuration h).map (List.map (writePacket PacketType.Data))

/-! ### Units -/

/-- IOStream.cpp:2805-2818 `getNextSync`: the next sync point and its index; index -1 when there is
none.  The sync point 0 is always passed over. -/
def getNextSync (syncs : List Sync) (sync : Sync) (idx : Int) : Sync × Int :=
  if idx ≥ (syncs.length : Int) - 1 then (sync, -1)
  else match syncs[(idx + 1).toNat]? with
    | some s => (s, idx + 1)
    | none => (sync, idx + 1)

/-- State of the loop of IOStream.cpp:151-197. -/
structure UnitsState where
  w : Writer
  buf : List Bits := []
  nextSync : Sync := {}
  syncIdx : Int
  out : List Bits := []

/-- IOStream.cpp:176-181, 187-192, 203-208: an initialization unit when the time is that of the next sync
point. -/
def syncUnit (syncs : List Sync) (initPackets : List Bits) (s : UnitsState) : UnitsState :=
  if s.syncIdx ≠ -1 ∧ s.w.time = s.nextSync.timestamp then
    let n := getNextSync syncs s.nextSync s.syncIdx
    { s with nextSync := n.1, syncIdx := n.2, out := s.out ++ [writeInitializationUnit s.w initPackets] }
  else s

/-- IOStream.cpp:173-181, 199-208: the packets collected so far go into a temporal unit. -/
def temporalUnit (syncs : List Sync) (initPackets : List Bits) (s : UnitsState) : Except Err UnitsState :=
  match writeTemporalUnit s.w s.buf with
  | .error e => .error e
  | .ok (u, w) => .ok (syncUnit syncs initPackets { s with w := w, out := s.out ++ [u] })

/-- IOStream.cpp:182-194: silence up to the next packet. -/
def silentUnit (syncs : List Sync) (initPackets : List Bits) (s : UnitsState) (packetTS : Int)
    (packet : Bits) : Except Err UnitsState :=
  if s.w.time ≠ packetTS then
    match writeSilentUnitBetween s.w packet with
    | .error e => .error e
    | .ok (u, w) => .ok (syncUnit syncs initPackets { s with w := w, out := s.out ++ [u] })
  else .ok s

/-- IOStream.cpp:160-197: one data packet. -/
def unitsStep (syncs : List Sync) (initPackets : List Bits) (s : UnitsState) (packet : Bits) :
    Except Err UnitsState :=
  match s.buf.getLast? with
  | none => .ok { s with buf := [packet] }
  | some last =>
    match readPacketTS (last.drop H_NBITS) with
    | .error e => .error e
    | .ok tLast => match readPacketTS (packet.drop H_NBITS) with
      | .error e => .error e
      | .ok packetTS =>
        if tLast = packetTS then .ok { s with buf := s.buf ++ [packet] }
        else match temporalUnit syncs initPackets s with
          | .error e => .error e
          | .ok s => match silentUnit syncs initPackets s packetTS packet with
            | .error e => .error e
            | .ok s => .ok { s with buf := [packet] }

/-- The loop of IOStream.cpp:151-197. -/
def unitsLoop (syncs : List Sync) (initPackets : List Bits) : UnitsState → List Bits →
    Except Err UnitsState
  | s, [] => .ok s
  | s, p :: ps => match unitsStep syncs initPackets s p with
    | .error e => .error e
    | .ok s => unitsLoop syncs initPackets s ps

/-- IOStream.cpp:149-159: the writer's time is set to 0, and silence before the first packet becomes a
silent unit. -/
def unitsStart (s : UnitsState) : List Bits → Except Err UnitsState
  | [] => .ok { s with w := { s.w with time := 0 } }
  | p :: _ => match writeSilentUnitFirst { s.w with time := 0 } p with
    | .error e => .error e
    | .ok (u, w) => .ok { s with w := w, out := s.out ++ u.toList }

/-- IOStream.cpp:148-209: the data packets. -/
def dataUnits (syncs : List Sync) (initPackets : List Bits) (s : UnitsState) (packets : List Bits) :
    Except Err UnitsState :=
  match unitsStart s packets with
  | .error e => .error e
  | .ok s => match unitsLoop syncs initPackets s packets with
    | .error e => .error e
    | .ok s => if s.buf.isEmpty then .ok s else temporalUnit syncs initPackets s

/-- IOStream.cpp:132-137: the packets of an initialization unit.  Before each kind of packet is written,
empty components are removed (l.470). -/
def initPacketsOf (h : Experience) : Except Err (List Bits) :=
  let h1 := checkHapticComponent h
  let h2 := checkHapticComponent h1
  let h3 := checkHapticComponent h2
  let h4 := checkHapticComponent h3
  let h5 := checkHapticComponent h4
  match metadataHapticsPackets h1 with
  | .error e => .error e
  | .ok a => match libraryPackets h3 with
    | .error e => .error e
    | .ok l => .ok (a ++ (perceptionPackets h2 ++ (l ++ (channelPackets h4 ++ bandPackets h5))))

/-- IOStream.cpp:126-212 `writeUnits`.  Empty components are removed seven times before the data is
written: five times for the packets above, once for the timing packet of the initialization unit (l.304,
l.470), once for the data. -/
def writeUnits (h : Experience) (packetDuration : Nat) : Except Err (List Bits) :=
  let w : Writer := { timescale := h.timescale.getD 1000, packetDuration := packetDuration }
  match initPacketsOf h with
  | .error e => .error e
  | .ok initPackets =>
    let n := getNextSync h.syncs {} 0
    match dataPackets packetDuration (checkHapticComponent^[7] h) with
    | .error e => .error e
    | .ok packets =>
      match dataUnits h.syncs initPackets
        { w := w, nextSync := n.1, syncIdx := n.2, out := [writeInitializationUnit w initPackets] }
        packets with
      | .error e => .error e
      | .ok s => .ok (silentUnitSyncFlag s.out)

/-- IOStream.cpp:41-61 `writeFile`: the content of the file. -/
def writeStream (h : Experience) (packetDuration : Nat) : Except Err (List UInt8) :=
  match writeUnits h packetDuration with
  | .error e => .error e
  | .ok units => .ok (writeBitset units.flatten)

end Haptics
