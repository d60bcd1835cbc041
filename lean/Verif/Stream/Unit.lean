import Verif.Stream.Meta
import Verif.Crc.Model

/-
Framing of the MIHS stream: packets, units and the split of a file into units.
/repo/source/IOHaptics/src/IOStream.cpp:41-124, 214-458, 655-791, 2795-2803.
-/
namespace Haptics

/-! ### Enumerations of IOStream.h:54-72 -/
abbrev UnitType.Initialization : Nat := 0
abbrev UnitType.Temporal : Nat := 1
abbrev UnitType.Spatial : Nat := 2
abbrev UnitType.Silent : Nat := 3
abbrev PacketType.Timing : Nat := 0
abbrev PacketType.MetadataHaptics : Nat := 1
abbrev PacketType.MetadataPerception : Nat := 2
abbrev PacketType.MetadataChannel : Nat := 3
abbrev PacketType.MetadataBand : Nat := 4
abbrev PacketType.Data : Nat := 5
abbrev PacketType.EffectLibrary : Nat := 6
abbrev PacketType.CRC32 : Nat := 7
abbrev PacketType.CRC16 : Nat := 8
abbrev PacketType.GlobalCRC16 : Nat := 9
abbrev PacketType.GlobalCRC32 : Nat := 10
abbrev PacketType.InitializationTiming : Nat := 11

/-! ### Packets -/

/-- IOStream.cpp:2795-2803 `padToByteBoundary`. -/
def padToByteBoundary (b : Bits) : Bits :=
  if b.length % 8 ≠ 0 then b ++ List.replicate (8 - b.length % 8) false else b

/-- IOStream.cpp:655-672 `writeMIHSPacketHeader`: type, payload size in bytes (without the 4 bytes of the
timestamp for data packets, which `writeMIHSUnitTemporal` removes), reserved bit. -/
def writeMIHSPacketHeader (packetType : Nat) (payloadSize : Nat) : Bits :=
  let missing := if payloadSize % 8 = 0 then 0 else 8 - payloadSize % 8
  let payloadSizeByte : Int := ((payloadSize + missing) / 8 : Nat)
  let payloadSizeByte := if packetType = PacketType.Data then payloadSizeByte - DB_DURATION / 8
    else payloadSizeByte
  writeNBits H_MIHS_PACKET_TYPE packetType ++ writeNBits H_PAYLOAD_LENGTH payloadSizeByte
  ++ writeNBits H_RESERVED 0

/-- IOStream.cpp:475-480 and alike: header, payload, padding. -/
def writePacket (packetType : Nat) (payload : Bits) : Bits :=
  padToByteBoundary (writeMIHSPacketHeader packetType payload.length ++ payload)

/-- IOStream.cpp:772-777 `readMIHSPacketType`. -/
def readMIHSPacketType (packet : Bits) : Except Err Nat :=
  match readUInt H_MIHS_PACKET_TYPE packet with
  | .error e => .error e
  | .ok (v, _) => .ok v.toNat

/-- IOStream.cpp:673-678: type and length (in bits) of the packet, and the payload, which reaches to the
end of the unit. -/
def readPacketHeader : Rd (Nat × Nat) := do
  let packetType ← readUInt H_MIHS_PACKET_TYPE
  let length ← readUInt H_PAYLOAD_LENGTH
  let _ ← rdBits H_RESERVED
  pure (packetType.toNat, length.toNat * 8)

/-- IOStream.cpp:760-770 `readPacketTS`: `std::stoi` throws when the value does not fit an `int`. -/
def readPacketTS (payload : Bits) : Except Err Int :=
  if payload.length < DB_DURATION then .error .ub
  else
    let v := bitsVal (payload.take DB_DURATION)
    if v < 2 ^ 31 then .ok v else .error .throw

/-- IOStream.cpp:778-791 `readPacketLength`: the 17 bits starting at `H_NBITS - H_PAYLOAD_LENGTH`. -/
def readPacketLength (packet : Bits) : Except Err Nat :=
  if packet.length < H_NBITS then .error .ub
  else .ok (bitsVal ((packet.drop (H_NBITS - H_PAYLOAD_LENGTH)).take H_PAYLOAD_LENGTH))

/-! ### Writing units -/

/-- IOStream.h:89-105 `StreamWriter`, the part that concerns framing. -/
structure Writer where
  time : Int := 0
  timescale : Nat := 1000
  packetDuration : Nat := 128
  nominalDuration : Nat := 128
  durationDeviation : Nat := 0
  overlapping : Bool := false
  layer : Nat := 0
deriving DecidableEq

/-- The header shared by all units (IOStream.cpp:271-273, 294-317, 345-362, 383-397, 407-425). -/
def unitHeader (unitType : Nat) (sync layer : Int) (duration length : Int) : Bits :=
  writeNBits UNIT_TYPE unitType ++ (writeNBits UNIT_SYNC sync ++ (writeNBits UNIT_LAYER layer
  ++ (writeNBits UNIT_DURATION duration ++ (writeNBits UNIT_LENGTH length
  ++ writeNBits UNIT_RESERVED 0))))

/-- The timing packet every initialization unit starts with (IOStream.cpp:562-572). -/
def initTimingPacket (w : Writer) : Bits :=
  writePacket PacketType.InitializationTiming (writeInitializationTiming
    { time := w.time, timescale := w.timescale, nominalDuration := w.nominalDuration,
      durationDeviation := w.durationDeviation, overlapping := w.overlapping })

/-- IOStream.cpp:291-322 `writeMIHSUnitInitialization`. -/
def writeInitializationUnit (w : Writer) (packets : List Bits) : Bits :=
  let packetFusion := initTimingPacket w ++ packets.flatten
  unitHeader UnitType.Initialization 0 w.layer 0 (packetFusion.length / 8 : Nat) ++ packetFusion

/-- IOStream.cpp:330-336, `bufPacket.erase(...)`: a data packet without its timestamp (undefined
behaviour if it is too short). -/
def eraseTS (packet : Bits) : Except Err Bits :=
  if packet.length < H_NBITS + DB_DURATION then .error .ub
  else .ok (packet.take H_NBITS ++ packet.drop (H_NBITS + DB_DURATION))

/-- State of the loop of IOStream.cpp:328-343. -/
structure TemporalAcc where
  sync : Bool := true
  nbPacketData : Nat := 0
  payload : Bits := []
  time : Int

/-- One iteration of IOStream.cpp:328-343. -/
def temporalStep (a : TemporalAcc) (packet : Bits) : Except Err TemporalAcc :=
  match readMIHSPacketType packet with
  | .error e => .error e
  | .ok t =>
    if t = PacketType.Data then
      match eraseTS packet with
      | .error e => .error e
      | .ok buf =>
        match buf[H_NBITS]? with
        | none => .error .ub
        | some au =>
          match readPacketTS (packet.drop H_NBITS) with
          | .error e => .error e
          | .ok ts => .ok { sync := a.sync && !au, nbPacketData := a.nbPacketData + 1,
                            payload := a.payload ++ buf, time := ts }
    else .ok { a with payload := a.payload ++ packet }

/-- The loop of IOStream.cpp:328-343. -/
def temporalLoop : TemporalAcc → List Bits → Except Err TemporalAcc
  | a, [] => .ok a
  | a, p :: ps => match temporalStep a p with
    | .error e => .error e
    | .ok a' => temporalLoop a' ps

/-- IOStream.cpp:323-366 `writeMIHSUnitTemporal`: the unit and the writer's new time. -/
def writeTemporalUnit (w : Writer) (packets : List Bits) : Except Err (Bits × Writer) :=
  match temporalLoop { time := w.time } packets with
  | .error e => .error e
  | .ok a =>
    let duration : Int := if a.nbPacketData > 0 then w.packetDuration else 0
    .ok (unitHeader UnitType.Temporal (if a.sync then 0 else 1) w.layer duration
           (a.payload.length / 8 : Nat) ++ a.payload,
         { w with time := a.time + duration })

/-- The loop of IOStream.cpp:371-379: announced length and payload of a spatial unit. -/
def spatialLoop : Nat → Bits → List Bits → Except Err (Nat × Bits)
  | len, payload, [] => .ok (len, payload)
  | len, payload, p :: ps =>
    match readMIHSPacketType p with
    | .error e => .error e
    | .ok t =>
      match (if t = PacketType.Data then eraseTS p else .ok p) with
      | .error e => .error e
      | .ok buf => match readPacketLength buf with
        | .error e => .error e
        | .ok l => spatialLoop (len + (H_NBITS / 8 + l)) (payload ++ buf) ps

/-- IOStream.cpp:367-400 `writeMIHSUnitSpatial`. -/
def writeSpatialUnit (w : Writer) (packets : List Bits) : Except Err Bits :=
  match spatialLoop 0 [] packets with
  | .error e => .error e
  | .ok (len, payload) => .ok (unitHeader UnitType.Spatial 0 w.layer 0 len ++ payload)

/-- `if (duration % packetDuration != 0) duration -= duration % (int)packetDuration`
(IOStream.cpp:415-417, 443-445).  The first `%` is unsigned (`packetDuration` is), the second truncates.
Division by zero is undefined behaviour. -/
def floorDuration (duration : Int) (packetDuration : Nat) : Except Err Int :=
  if packetDuration = 0 then .error .ub
  else if duration % 2 ^ 32 % packetDuration ≠ 0 then .ok (duration - duration.tmod packetDuration)
  else .ok duration

/-- IOStream.cpp:401-431, one packet: silence before the first packet.  `none` if the packet starts
within the first packet duration: only the unit type has then been written and the caller drops the unit
(l.156-158). -/
def writeSilentUnitFirst (w : Writer) (packet : Bits) : Except Err (Option Bits × Writer) :=
  match readPacketTS (packet.drop H_NBITS) with
  | .error e => .error e
  | .ok tFirst =>
    if tFirst ≥ w.packetDuration then
      match floorDuration tFirst w.packetDuration with
      | .error e => .error e
      | .ok duration =>
        .ok (some (unitHeader UnitType.Silent 0 w.layer duration 0), { w with time := w.time + duration })
    else .ok (none, w)

/-- IOStream.cpp:432-456, two packets: silence from the writer's time to the second one. -/
def writeSilentUnitBetween (w : Writer) (packet : Bits) : Except Err (Bits × Writer) :=
  match readPacketTS (packet.drop H_NBITS) with
  | .error e => .error e
  | .ok tEnd =>
    match floorDuration (tEnd - w.time) w.packetDuration with
    | .error e => .error e
    | .ok duration =>
      .ok (unitHeader UnitType.Silent 0 w.layer duration 0, { w with time := w.time + duration })

/-! ### Sync flags of silent units -/

/-- `static_cast<MIHSUnitType>(readUInt(unit, index, UNIT_TYPE))` (IOStream.cpp:218-221). -/
def unitTypeOf (unit : Bits) : Nat := bitsVal (unit.take UNIT_TYPE)

/-- The two sync bits of a unit. -/
def unitSyncBits (unit : Bits) : Bits := (unit.drop UNIT_TYPE).take UNIT_SYNC

/-- `std::copy` of IOStream.cpp:231-232: overwrite the sync bits. -/
def setSyncBits (unit sync : Bits) : Bits :=
  unit.take UNIT_TYPE ++ sync ++ unit.drop (UNIT_TYPE + UNIT_SYNC)

/-- IOStream.cpp:214-240 `silentUnitSyncFlag`.  The inner loop over `j` is `find?` on the units that
follow.  Units are assumed to hold at least the 8 bits of type and sync, as all units that are pushed
do. -/
def silentUnitSyncFlag : List Bits → List Bits
  | [] => []
  | u :: us =>
    (if unitTypeOf u = UnitType.Silent then
      match us.find? (fun v => unitTypeOf v == UnitType.Temporal
          || unitTypeOf v == UnitType.Initialization) with
      | some v => setSyncBits u (unitSyncBits v)
      | none => u
     else u) :: silentUnitSyncFlag us

/-! ### Splitting a file into units -/

/-- IOStream.cpp:102-121, the loop of `loadFile`: `byteCount` against the `length` of the file.
A length with its top bit set makes `readNBytes` throw (`std::vector` of negative size).
Simplification: `byteCount` is not reduced modulo 2^32 (files below 2 GiB). -/
def loadLoop (length : Nat) : Nat → Nat → List UInt8 → Except Err (List Bits)
  | 0, _, _ => .error .diverge
  | fuel + 1, byteCount, file =>
    if byteCount < length then
      let (header, file) := readNBytes 9 file
      match readUInt UNIT_LENGTH (header.drop 36) with
      | .error e => .error e
      | .ok (bytesToRead, _) =>
        if bytesToRead < 0 then .error .throw
        else
          let (payload, file) := readNBytes bytesToRead.toNat file
          match loadLoop length fuel (byteCount + 9 + bytesToRead.toNat) file with
          | .error e => .error e
          | .ok us => .ok ((header ++ payload) :: us)
    else .ok []

/-- IOStream.cpp:85-124 `loadFile` on the content of a file: the units appended to `bitset` (none for an
empty file). -/
def loadFile (file : List UInt8) : Except Err (List Bits) := loadLoop file.length (file.length + 1) 0 file

/-! ### Reading a unit -/

/-- IOStream.h:107-124 `StreamReader`, with the `CRC &` argument that is passed along with it.  Left out:
`perception`, `channel`, `band`, `bandStream.band`, `auType`, which are only scratch space of one packet,
and `packetLength`. -/
structure Reader where
  haptic : Experience := {}
  /-- `bandStreamsHaptic`: identifier and index of each band received -/
  bandStreams : List (Int × Nat) := []
  time : Nat := 0
  packetDuration : Nat := 0
  timescale : Nat := 1000
  waitSync : Bool := false
  overlapping : Bool := false
  nominalDuration : Nat := 128
  durationDeviation : Nat := 0
  layer : Nat := 0
  crc : CRC := {}

/-- What `readMIHSPacket` does with the payload of a packet of a given type
(the `switch` of IOStream.cpp:679-757): `false` is a packet that is rejected. -/
abbrev Dispatch := Nat → Bits → Reader → Except Err (Bool × Reader)

/-- IOStream.cpp:673-758 `readMIHSPacket`: also returns the packet length in bits. -/
def readMIHSPacket (d : Dispatch) (packet : Bits) (r : Reader) : Except Err (Bool × Nat × Reader) :=
  match readPacketHeader packet with
  | .error e => .error e
  | .ok ((packetType, packetLength), payload) =>
    match d packetType payload r with
    | .error e => .error e
    | .ok (ok, r') => .ok (ok, packetLength, r')

/-- The `while` loop of IOStream.cpp:258-264; `true` if it ends normally, `false` if a packet is
rejected. Forming `packets` beyond the end of the unit is undefined behaviour. -/
def unitLoop (d : Dispatch) (unit : Bits) (unitLength : Nat) :
    Nat → Nat → Reader → Except Err (Bool × Reader)
  | 0, _, _ => .error .diverge
  | fuel + 1, index, r =>
    if unit.length < index then .error .ub
    else if index < unitLength then
      match readMIHSPacket d (unit.drop index) r with
      | .error e => .error e
      | .ok (false, _, r') => .ok (false, r')
      | .ok (true, packetLength, r') => unitLoop d unit unitLength fuel (index + packetLength + H_NBITS) r'
    else .ok (true, r)

/-- IOStream.cpp:242-267 `readMIHSUnit`: the value it returns and the reader.
`return EXIT_FAILURE` converts to `true`.  A payload of 2^28 bytes or more overflows an `int`. -/
def readMIHSUnit (d : Dispatch) (unit : Bits) (r : Reader) : Except Err (Bool × Reader) :=
  match (do
      let _unitType ← readUInt UNIT_TYPE
      let sync ← readUInt UNIT_SYNC
      let layer ← readUInt UNIT_LAYER
      let duration ← readUInt UNIT_DURATION
      let length ← readUInt UNIT_LENGTH
      let _ ← rdBits UNIT_RESERVED
      pure (sync, layer, duration, length) : Rd (Int × Int × Int × Int)) unit with
  | .error e => .error e
  | .ok ((sync, layer, duration, length), _) =>
    if ¬ (-2 ^ 28 ≤ length ∧ length < 2 ^ 28) then .error .ub
    else
      let r := { r with waitSync := r.waitSync && !(sync == 0), layer := layer.toNat,
                        packetDuration := duration.toNat }
      let unitLength := (length * 8).toNat
      match unitLoop d unit unitLength (unitLength + 1) 72 r with
      | .error e => .error e
      | .ok (false, r) => .ok (true, r)
      | .ok (true, r) => .ok (true, { r with time := (r.time + r.packetDuration) % 2 ^ 32 })

/-- The loop of IOStream.cpp:69-79. -/
def readUnits (d : Dispatch) (all : List Bits) : List Bits → Reader → Except Err (Bool × Reader)
  | [], r => .ok (true, r)
  | u :: us, r => match readMIHSUnit d u r with
    | .error e => .error e
    | .ok (false, r) => .ok (false, r)
    | .ok (true, r) =>
      if r.crc.nbPackets ≠ 0 then
        let c := checkCRC all r.crc
        readUnits d all us { r with crc := c.2, waitSync := r.waitSync || !c.1 }
      else readUnits d all us r

/-- IOStream.cpp:63-83 `readFile` on the content of a file: its return value and the experience it
delivers (`none`: the caller's object is untouched).  `return EXIT_FAILURE` converts to `true`. -/
def readFile (d : Dispatch) (file : List UInt8) : Except Err (Bool × Option Experience) :=
  match loadFile file with
  | .error e => .error e
  | .ok units => match readUnits d units units {} with
    | .error e => .error e
    | .ok (false, _) => .ok (true, none)
    | .ok (true, r) => .ok (true, some { r.haptic with timescale := some r.timescale })

end Haptics
