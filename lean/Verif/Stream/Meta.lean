import Verif.Bits.Float
import Verif.Bits.Fields
import Verif.Types.Model

/-
Metadata packets of the MIHS stream: payload writers and readers of
/repo/source/IOHaptics/src/IOStream.cpp:793-1838.
`std::bitset<N>(v).to_string()` + `writeStrBits` writes the low `N` bits of `v`, most significant first:
`writeNBits N v`.  Writers return the bits they append to `bitstream`.
-/
namespace Haptics

/-- Length byte (low 8 bits of the size) followed by *all* characters
(e.g. IOStream.cpp:857-864, 1003-1011). -/
def wStr8 (s : Str) : Bits := writeNBits 8 s.length ++ strBits s

/-- `readUInt(..., 8)` then `readString(..., length)` (e.g. IOStream.cpp:914-916). -/
def rStr8 : Rd Str := do
  let len ← readUInt 8
  rdStr len.toNat

/-- `static_cast<uint32_t>(int)`. -/
def toU32 (v : Int) : Nat := (v % 2 ^ 32).toNat

/-- `static_cast<int8_t>(int)`. -/
def toI8 (v : Int) : Int := toSigned 8 (v % 2 ^ 8).toNat

/-- `if (priority != 0) setPriority(priority)` (IOStream.cpp:1072-1075 and alike). -/
def prioOf (v : Int) : Option Int := if v ≠ 0 then some v else none

/-! ### Timing -/

/-- IOStream.cpp:793-802 `writeTiming`. -/
def writeTiming (time : Int) : Bits := writeNBits TIMING_TIME time

/-- IOStream.cpp:804-810 `readTiming`: `sreader.time` is unsigned. -/
def readTiming : Rd Nat := do
  let t ← readUInt TIMING_TIME
  pure (toU32 t)

/-- Timing parameters of an initialization unit. -/
structure InitTiming where
  time : Int
  timescale : Nat
  nominalDuration : Nat
  durationDeviation : Nat
  overlapping : Bool
deriving DecidableEq

/-- IOStream.cpp:812-836 `writeInitializationTiming`. -/
def writeInitializationTiming (t : InitTiming) : Bits :=
  writeNBits TIMING_TIME t.time ++ writeNBits INITTIMING_TIMESCALE t.timescale
  ++ writeNBits INITTIMING_NOMINALDURATION t.nominalDuration
  ++ writeNBits INITTIMING_DURATIONDEVIATION t.durationDeviation
  ++ writeNBits INITTIMING_OVERLAPPING (if t.overlapping then 1 else 0)

/-- IOStream.cpp:838-854 `readInitializationTiming`: the values stored in the reader (the time also goes
to a `Sync`).  `time` is kept as the `int` that was read. -/
def readInitializationTiming : Rd InitTiming := do
  let timestamp ← readUInt TIMING_TIME
  let timescale ← readUInt INITTIMING_TIMESCALE
  let nominalDuration ← readUInt INITTIMING_NOMINALDURATION
  let durationDeviation ← readUInt INITTIMING_DURATIONDEVIATION
  let overlapping ← readUInt INITTIMING_OVERLAPPING
  pure { time := timestamp, timescale := toU32 timescale, nominalDuration := toU32 nominalDuration,
         durationDeviation := toU32 durationDeviation, overlapping := overlapping == 1 }

/-! ### Experience and avatars -/

/-- IOStream.cpp:947-973 `writeAvatar`: a custom avatar without mesh throws
(`std::optional::value`). -/
def writeAvatar (a : Avatar) : Except Err Bits :=
  let hd := writeNBits AVATAR_ID a.id ++ writeNBits AVATAR_LOD a.lod ++ writeNBits AVATAR_TYPE a.type
  if a.type = 0 then
    match a.mesh with
    | none => .error .throw
    | some mesh => .ok (hd ++ (writeNBits AVATAR_MESH_COUNT mesh.length ++ strBits mesh))
  else .ok hd

/-- IOStream.cpp:974-990 `readAvatar`. -/
def readAvatar : Rd Avatar := do
  let id ← readUInt AVATAR_ID
  let lod ← readUInt AVATAR_LOD
  let type ← readUInt AVATAR_TYPE
  if type = 0 then do
    let meshCount ← readUInt AVATAR_MESH_COUNT
    let mesh ← rdStr meshCount.toNat
    pure { id := id, lod := lod, type := type.toNat, mesh := some mesh }
  else pure { id := id, lod := lod, type := type.toNat, mesh := none }

/-- Concatenation of the outputs of a writer that may throw. -/
def wList {α : Type} (w : α → Except Err Bits) : List α → Except Err Bits
  | [] => .ok []
  | a :: l => match w a with
    | .error e => .error e
    | .ok b => match wList w l with
      | .error e => .error e
      | .ok r => .ok (b ++ r)

/-- IOStream.cpp:856-910 `writeMetadataHaptics`. -/
def writeMetadataHaptics (h : Experience) : Except Err Bits :=
  match wList writeAvatar h.avatars with
  | .error e => .error e
  | .ok av => .ok (wStr8 h.version ++ (wStr8 h.profile ++ (writeNBits MDEXP_LEVEL h.level
      ++ (wStr8 h.date ++ (wStr8 h.description ++ (writeNBits MDEXP_PERC_COUNT h.perceptions.length
      ++ (writeNBits MDEXP_AVATAR_COUNT h.avatars.length ++ av)))))))

/-- IOStream.cpp:911-945 `readMetadataHaptics` with `readListObject` 1840-1852: the fields are
overwritten, the avatars are appended. -/
def readMetadataHaptics (h : Experience) : Rd Experience := do
  let version ← rStr8
  let profile ← rStr8
  let level ← readUInt MDEXP_LEVEL
  let date ← rStr8
  let description ← rStr8
  let _perceptionCount ← readUInt MDEXP_PERC_COUNT
  let avatarCount ← readUInt MDEXP_AVATAR_COUNT
  let avatarList ← rdList readAvatar avatarCount.toNat
  pure { h with version := version, profile := profile, level := (level % 256).toNat, date := date,
                description := description, avatars := h.avatars ++ avatarList }

/-! ### Reference devices -/

/-- IOStream.cpp:1407-1470 `generateReferenceDeviceInformationMask`. -/
def refDevMask (d : ReferenceDevice) : Bits :=
  [d.maximumFrequency.isSome, d.minimumFrequency.isSome, d.resonanceFrequency.isSome,
   d.maximumAmplitude.isSome, d.impedance.isSome, d.maximumVoltage.isSome, d.maximumCurrent.isSome,
   d.maximumDisplacement.isSome, d.weight.isSome, d.size.isSome, d.custom.isSome, d.type.isSome]

/-- `if (x.has_value()) writeFloatNBits<uint32_t,n>(x.value(), ...)`. -/
def wOptF (n : Nat) (mn mx : ℚ) (x : Option ℚ) : Bits :=
  match x with
  | none => []
  | some v => writeFloatNBits n v mn mx

/-- `if (mask[i]) value = readFloatNBits<n>(...)`. -/
def rOptF (n : Nat) (mn mx : ℚ) (present : Bool) : Rd (Option ℚ) :=
  if present then do
    let v ← readFloatNBits n mn mx
    pure (some v)
  else pure none

/-- Optional unsigned field of `n` bits. -/
def wOptN (n : Nat) (x : Option Nat) : Bits :=
  match x with
  | none => []
  | some t => writeNBits n t

/-- `if (present) value = readUInt(n)`. -/
def rOptN (n : Nat) (present : Bool) : Rd (Option Nat) :=
  if present then do
    let t ← readUInt n
    pure (some t.toNat)
  else pure none

/-- IOStream.cpp:1310-1406 `writeReferenceDevice`.  An absent body part mask is written as 0; the
resonance frequency uses the width of the minimum frequency (the same number). -/
def writeReferenceDevice (d : ReferenceDevice) : Bits :=
  writeNBits REFDEV_ID d.id ++ (writeNBits REFDEV_NAME_LENGTH d.name.length ++ (strBits d.name
  ++ (writeNBits REFDEV_BODY_PART_MASK (d.bodyPartMask.getD 0 : Nat) ++ (refDevMask d
  ++ (wOptF REFDEV_MAX_FREQ 0 MAX_FREQUENCY d.maximumFrequency
  ++ (wOptF REFDEV_MIN_FREQ 0 MAX_FREQUENCY d.minimumFrequency
  ++ (wOptF REFDEV_MIN_FREQ 0 MAX_FREQUENCY d.resonanceFrequency
  ++ (wOptF REFDEV_MAX_AMP 0 MAX_FLOAT d.maximumAmplitude
  ++ (wOptF REFDEV_IMPEDANCE 0 MAX_FLOAT d.impedance
  ++ (wOptF REFDEV_MAX_VOLT 0 MAX_FLOAT d.maximumVoltage
  ++ (wOptF REFDEV_MAX_CURR 0 MAX_FLOAT d.maximumCurrent
  ++ (wOptF REFDEV_MAX_DISP 0 MAX_FLOAT d.maximumDisplacement
  ++ (wOptF REFDEV_WEIGHT 0 MAX_FLOAT d.weight
  ++ (wOptF REFDEV_SIZE 0 MAX_FLOAT d.size
  ++ (wOptF REFDEV_CUSTOM (-MAX_FLOAT) MAX_FLOAT d.custom
  ++ wOptN REFDEV_TYPE d.type)))))))))))))))

/-- IOStream.cpp:1471-1538 `readReferenceDevice`. -/
def readReferenceDevice : Rd ReferenceDevice := do
  let id ← readUInt REFDEV_ID
  let nameLength ← readUInt REFDEV_NAME_LENGTH
  let name ← rdStr nameLength.toNat
  let bodyPartMask ← readUInt REFDEV_BODY_PART_MASK
  let mask ← rdBits REFDEV_OPT_FIELDS
  let maximumFrequency ← rOptF REFDEV_MAX_FREQ 0 MAX_FREQUENCY (mask.getD 0 false)
  let minimumFrequency ← rOptF REFDEV_MIN_FREQ 0 MAX_FREQUENCY (mask.getD 1 false)
  let resonanceFrequency ← rOptF REFDEV_RES_FREQ 0 MAX_FREQUENCY (mask.getD 2 false)
  let maximumAmplitude ← rOptF REFDEV_MAX_AMP 0 MAX_FLOAT (mask.getD 3 false)
  let impedance ← rOptF REFDEV_IMPEDANCE 0 MAX_FLOAT (mask.getD 4 false)
  let maximumVoltage ← rOptF REFDEV_MAX_VOLT 0 MAX_FLOAT (mask.getD 5 false)
  let maximumCurrent ← rOptF REFDEV_MAX_CURR 0 MAX_FLOAT (mask.getD 6 false)
  let maximumDisplacement ← rOptF REFDEV_MAX_DISP 0 MAX_FLOAT (mask.getD 7 false)
  let weight ← rOptF REFDEV_WEIGHT 0 MAX_FLOAT (mask.getD 8 false)
  let size ← rOptF REFDEV_SIZE 0 MAX_FLOAT (mask.getD 9 false)
  let custom ← rOptF REFDEV_CUSTOM (-MAX_FLOAT) MAX_FLOAT (mask.getD 10 false)
  let type ← rOptN REFDEV_TYPE (mask.getD 11 false)
  pure { id := id, name := name, bodyPartMask := some (toU32 bodyPartMask),
         maximumFrequency := maximumFrequency, minimumFrequency := minimumFrequency,
         resonanceFrequency := resonanceFrequency, maximumAmplitude := maximumAmplitude,
         impedance := impedance, maximumVoltage := maximumVoltage, maximumCurrent := maximumCurrent,
         maximumDisplacement := maximumDisplacement, weight := weight, size := size,
         custom := custom, type := type }

/-! ### Perceptions -/

/-- IOStream.cpp:1025-1043: flag, length and text of the semantic scheme. -/
def writeScheme (scheme : Option Str) : Bits :=
  match scheme with
  | some s => writeNBits MDPERCE_FLAG_SEMANTIC 1 ++ (writeNBits MDPERCE_SCHEME_LENGTH s.length
      ++ strBits s)
  | none => writeNBits MDPERCE_FLAG_SEMANTIC 0

/-- IOStream.cpp:1094-1099. -/
def readScheme : Rd (Option Str) := do
  let flagScheme ← readUInt MDPERCE_FLAG_SEMANTIC
  if flagScheme = 1 then do
    let schemeLength ← readUInt MDPERCE_SCHEME_LENGTH
    let s ← rdStr schemeLength.toNat
    pure (some s)
  else pure none

/-- IOStream.cpp:992-1061 `writeMetadataPerception`. -/
def writeMetadataPerception (p : Perception) : Bits :=
  writeNBits MDPERCE_ID p.id ++ (writeNBits MDPERCE_PRIORITY (priorityOrDefault p.priority)
  ++ (writeNBits MDPERCE_DESC_SIZE p.description.length ++ (strBits p.description
  ++ (writeNBits MDPERCE_MODALITY p.perceptionModality ++ (writeNBits AVATAR_ID p.avatarId
  ++ (writeNBits MDPERCE_LIBRARY_COUNT p.effectLibrary.length
  ++ (writeScheme p.effectSemanticScheme
  ++ (writeNBits MDPERCE_UNIT_EXP p.unitExponentOrDefault
  ++ (writeNBits MDPERCE_PERCE_UNIT_EXP p.perceptionUnitExponentOrDefault
  ++ (writeNBits MDPERCE_REFDEVICE_COUNT p.referenceDevices.length
  ++ (p.referenceDevices.flatMap writeReferenceDevice
  ++ writeNBits MDPERCE_CHANNEL_COUNT p.channels.length)))))))))))

/-- IOStream.cpp:1062-1120 `readMetadataPerception` with `readListObject` 2675-2688. -/
def readMetadataPerception : Rd Perception := do
  let id ← readUInt MDPERCE_ID
  let priority ← readUInt MDPERCE_PRIORITY
  let descLength ← readUInt MDPERCE_DESC_SIZE
  let desc ← rdStr descLength.toNat
  let modal ← readUInt MDPERCE_MODALITY
  let avatarId ← readUInt AVATAR_ID
  let _libraryCount ← readUInt MDPERCE_LIBRARY_COUNT
  let scheme ← readScheme
  let unitExp ← readUInt MDPERCE_UNIT_EXP
  let perceUnitExp ← readUInt MDPERCE_PERCE_UNIT_EXP
  let refDevCount ← readUInt MDPERCE_REFDEVICE_COUNT
  let referenceDevices ← rdList readReferenceDevice refDevCount.toNat
  let _channelCount ← readUInt MDPERCE_CHANNEL_COUNT
  pure { id := id, avatarId := avatarId, description := desc, priority := prioOf priority,
         effectSemanticScheme := scheme, perceptionModality := modal.toNat,
         referenceDevices := referenceDevices, unitExponent := some (toI8 unitExp),
         perceptionUnitExponent := some (toI8 perceUnitExp) }

/-! ### Channels -/

/-- IOStream.cpp:2624-2631 `searchPerceptionInHaptic`: first perception with this id (`-1` → `none`). -/
def searchPerceptionInHaptic (h : Experience) (id : Int) : Option Nat :=
  h.perceptions.findIdx? (fun p => p.id == id)

/-- IOStream.cpp:2632-2642 `searchChannelInHaptic`: index of the first channel with this id, in the first
perception that has one – whichever perception that is. -/
def searchChannelInHaptic (h : Experience) (id : Int) : Option Nat :=
  h.perceptions.findSome? (fun p => p.channels.findIdx? (fun c => c.id == id))

/-- A vector of three 8-bit axes read with `static_cast<int8_t>(readUInt(...))`
(IOStream.cpp:1700-1703). -/
def rVec8 : Rd Vector3 := do
  let x ← readUInt VECTOR_AXIS_SIZE
  let y ← readUInt VECTOR_AXIS_SIZE
  let z ← readUInt VECTOR_AXIS_SIZE
  pure ⟨toI8 x, toI8 y, toI8 z⟩

/-- IOStream.cpp:1578-1586: optional field mask of a channel. -/
def channelOptMask (c : Channel) : Nat :=
  (if c.actuatorResolution.isSome then 2 else 1) + (if c.direction.isSome then 4 else 0)

/-- IOStream.cpp:1590-1617: body part mask, or actuator resolution with its targets (the counts are cast
to `uint8_t`). -/
def writeBodyParts (c : Channel) : Bits :=
  match c.actuatorResolution with
  | none => writeNBits MDCHANNEL_BODY_PART_MASK c.bodyPartMask
  | some r =>
    let bpt := c.bodyPartTarget.getD []
    let act := c.actuatorTarget.getD []
    writeVector r
    ++ (writeNBits MDCHANNEL_BODY_PART_TARGET_COUNT (bpt.length % 256 : Nat)
    ++ ((bpt.take (bpt.length % 256)).flatMap (fun t => writeNBits MDCHANNEL_BODY_PART_TARGET (t : Nat))
    ++ (writeNBits MDCHANNEL_ACTUATOR_TARGET_COUNT (act.length % 256 : Nat)
    ++ (act.take (act.length % 256)).flatMap writeVector)))

/-- IOStream.cpp:1696-1724. -/
def readBodyParts (optMask : Nat) (c : Channel) : Rd Channel :=
  if optMask % 2 ≠ 0 then do
    let m ← readUInt MDCHANNEL_BODY_PART_MASK
    pure { c with bodyPartMask := toU32 m }
  else if optMask / 2 % 2 ≠ 0 then do
    let r ← rVec8
    let n ← readUInt MDCHANNEL_BODY_PART_TARGET_COUNT
    let bpt ← rdList (rdU MDCHANNEL_BODY_PART_TARGET) n.toNat
    let m ← readUInt MDCHANNEL_ACTUATOR_TARGET_COUNT
    let act ← rdList rVec8 m.toNat
    pure { c with actuatorResolution := some r, bodyPartTarget := some bpt, actuatorTarget := some act }
  else pure c

/-- IOStream.cpp:1619-1629: sampling frequency and, if it is a positive `int`, the sample count. -/
def writeSampling (c : Channel) : Bits :=
  writeNBits MDCHANNEL_FREQ_SAMPLING (c.frequencySampling.getD 0 : Nat)
  ++ (if 0 < toSigned 32 (c.frequencySampling.getD 0) then
        writeNBits MDCHANNEL_SAMPLE_COUNT (c.sampleCount.getD 0 : Nat) else [])

/-- IOStream.cpp:1725-1731. -/
def readSampling (c : Channel) : Rd Channel := do
  let frequencySampling ← readUInt MDCHANNEL_FREQ_SAMPLING
  if toU32 frequencySampling > 0 then do
    let sampleCount ← readUInt MDCHANNEL_SAMPLE_COUNT
    pure { c with frequencySampling := some (toU32 frequencySampling),
                  sampleCount := some (toU32 sampleCount) }
  else pure c

/-- IOStream.cpp:1631-1642. -/
def writeDirection (c : Channel) : Bits :=
  match c.direction with
  | none => []
  | some d => writeNBits MDCHANNEL_DIRECTION_AXIS d.X ++ (writeNBits MDCHANNEL_DIRECTION_AXIS d.Y
      ++ writeNBits MDCHANNEL_DIRECTION_AXIS d.Z)

/-- IOStream.cpp:1733-1741. -/
def readDirection (optMask : Nat) (c : Channel) : Rd Channel :=
  if optMask / 4 % 2 ≠ 0 then do
    let x ← readUInt MDCHANNEL_DIRECTION_AXIS
    let y ← readUInt MDCHANNEL_DIRECTION_AXIS
    let z ← readUInt MDCHANNEL_DIRECTION_AXIS
    pure { c with direction := some ⟨toI8 x, toI8 y, toI8 z⟩ }
  else pure c

/-- IOStream.cpp:1540-1659 `writeMetadataChannel` for channel `c` of a perception with id `perceId`. -/
def writeMetadataChannel (perceId : Int) (c : Channel) : Bits :=
  writeNBits MDCHANNEL_ID c.id ++ (writeNBits MDPERCE_ID perceId
  ++ (writeNBits MDCHANNEL_PRIORITY (priorityOrDefault c.priority)
  ++ (writeNBits MDPERCE_DESC_SIZE c.description.length ++ (strBits c.description
  ++ (writeNBits REFDEV_ID (c.referenceDeviceId.getD (-1))
  ++ (writeFloatNBits MDCHANNEL_GAIN c.gain (-MAX_FLOAT) MAX_FLOAT
  ++ (writeFloatNBits MDCHANNEL_MIXING_WEIGHT c.mixingWeight 0 MAX_FLOAT
  ++ (writeNBits MDCHANNEL_OPT_FIELDS (channelOptMask c)
  ++ (writeBodyParts c ++ (writeSampling c ++ (writeDirection c
  ++ (writeNBits MDCHANNEL_VERT_COUNT c.vertices.length
  ++ (c.vertices.flatMap (fun v => writeNBits MDCHANNEL_VERT v)
  ++ writeNBits MDCHANNEL_BANDS_COUNT c.bands.length)))))))))))))

/-- IOStream.cpp:1660-1753 `readMetadataChannel`: index of the perception it belongs to (`false` when
there is none), and the channel. -/
def readMetadataChannel (h : Experience) : Rd (Nat × Channel) := do
  let id ← readUInt MDCHANNEL_ID
  let perceId ← readUInt MDPERCE_ID
  match searchPerceptionInHaptic h perceId with
  | none => Rd.error .fail
  | some perceIndex => do
    let priority ← readUInt MDCHANNEL_PRIORITY
    let descLength ← readUInt MDCHANNEL_DESC_LENGTH
    let desc ← rdStr descLength.toNat
    let deviceId ← readUInt REFDEV_ID
    let gain ← readFloatNBits MDCHANNEL_GAIN (-MAX_FLOAT) MAX_FLOAT
    let mixingWeight ← readFloatNBits MDCHANNEL_MIXING_WEIGHT 0 MAX_FLOAT
    let optMask ← rdU MDCHANNEL_OPT_FIELDS
    let c : Channel := { id := id, description := desc, priority := prioOf priority,
                         referenceDeviceId := if deviceId < REFDEV_MAX_ID then some deviceId else none,
                         gain := gain, mixingWeight := mixingWeight }
    let c ← readBodyParts optMask c
    let c ← readSampling c
    let c ← readDirection optMask c
    let verticesCount ← readUInt MDCHANNEL_VERT_COUNT
    let vertices ← rdList (readUInt MDCHANNEL_VERT) verticesCount.toNat
    let _bandsCount ← readUInt MDCHANNEL_BANDS_COUNT
    pure (perceIndex, { c with vertices := vertices })

/-! ### Bands -/

/-- IOStream.cpp:1773-1784: curve type or block length (cast to `uint8_t`). -/
def writeBandParam (b : Band) : Bits :=
  if b.bandType = BandType.Curve then writeNBits MDBAND_CURVE_TYPE b.curveTypeOrDefault
  else if b.bandType = BandType.WaveletWave then writeNBits MDBAND_BLK_LEN b.blockLengthOrDefault
  else []

/-- IOStream.cpp:1823-1829. -/
def readBandParam (b : Band) : Rd Band :=
  if b.bandType = BandType.Curve then do
    let curveType ← readUInt MDBAND_CURVE_TYPE
    pure { b with curveType := some curveType.toNat }
  else if b.bandType = BandType.WaveletWave then do
    let windowLength ← readUInt MDBAND_BLK_LEN
    pure { b with blockLength := some windowLength }
  else pure b

/-- IOStream.cpp:1755-1797 `writeMetadataBand`. -/
def writeMetadataBand (bandId : Int) (perceId channelId : Int) (b : Band) : Bits :=
  writeNBits MDBAND_ID bandId ++ (writeNBits MDPERCE_ID perceId ++ (writeNBits MDCHANNEL_ID channelId
  ++ (writeNBits MDBAND_PRIORITY (priorityOrDefault b.priority)
  ++ (writeNBits MDBAND_BAND_TYPE b.bandType
  ++ (writeBandParam b
  ++ (writeNBits MDBAND_LOW_FREQ b.lowerFrequencyLimit
  ++ (writeNBits MDBAND_UP_FREQ b.upperFrequencyLimit
  ++ writeNBits MDBAND_EFFECT_COUNT b.effects.length)))))))

/-- IOStream.cpp:1798-1838 `readMetadataBand`: band id, indices of perception and channel, and the band.
`sreader.perception.getChannelAt(channelIndex)` throws (`vector::at`) when the channel index was found in
another perception and this one has fewer channels. -/
def readMetadataBand (h : Experience) : Rd (Int × Nat × Nat × Band) := do
  let id ← readUInt MDBAND_ID
  let perceId ← readUInt MDPERCE_ID
  match searchPerceptionInHaptic h perceId with
  | none => Rd.error .fail
  | some perceIndex => do
    let channelId ← readUInt MDCHANNEL_ID
    match searchChannelInHaptic h channelId with
    | none => Rd.error .fail
    | some channelIndex =>
      match (h.perceptions[perceIndex]?.bind (fun p => p.channels[channelIndex]?)) with
      | none => Rd.error .throw
      | some _ => do
        let priority ← readUInt MDBAND_PRIORITY
        let bandType ← readUInt MDBAND_BAND_TYPE
        let b : Band := { bandType := bandType.toNat, priority := prioOf priority }
        let b ← readBandParam b
        let lowFreq ← readUInt MDBAND_LOW_FREQ
        let upFreq ← readUInt MDBAND_UP_FREQ
        let _effectCount ← readUInt MDBAND_EFFECT_COUNT
        pure (id, perceIndex, channelIndex,
          { b with lowerFrequencyLimit := lowFreq, upperFrequencyLimit := upFreq })

/-! ### Effect library -/

/-- Optional `int` field of `n` bits. -/
def wOptI (n : Nat) (x : Option Int) : Bits :=
  match x with
  | none => []
  | some t => writeNBits n t

/-- `if (present) value = readUInt(n)`. -/
def rOptI (n : Nat) (present : Bool) : Rd (Option Int) :=
  if present then do
    let t ← readUInt n
    pure (some t)
  else pure none

/-- IOBinary.h:60-66 `KeyframeMask` and IOStream.cpp:1268-1277: presence bits of position (1), amplitude
(2) and frequency (4). -/
def keyframeMask (k : Keyframe) : Nat :=
  (if k.relativePosition.isSome then 1 else 0) + (if k.amplitudeModulation.isSome then 2 else 0)
  + (if k.frequencyModulation.isSome then 4 else 0)

/-- IOStream.cpp:1265-1295: one keyframe of a library effect.  (The frequency is written with the width
of the position, the same number.) -/
def writeLibKeyframe (k : Keyframe) : Bits :=
  writeNBits KEYFRAME_MASK (keyframeMask k)
  ++ (wOptI KEYFRAME_POSITION k.relativePosition
  ++ (wOptF KEYFRAME_AMPLITUDE (-MAX_AMPLITUDE) MAX_AMPLITUDE k.amplitudeModulation
  ++ wOptI KEYFRAME_POSITION k.frequencyModulation))

/-- IOStream.cpp:1187-1205. -/
def readLibKeyframe : Rd Keyframe := do
  let mask ← readUInt KEYFRAME_MASK
  let position ← rOptI KEYFRAME_POSITION (mask % 2 != 0)
  let amplitude ← rOptF KEYFRAME_AMPLITUDE (-MAX_AMPLITUDE) MAX_AMPLITUDE (mask / 2 % 2 != 0)
  let frequency ← rOptI KEYFRAME_FREQUENCY (mask / 4 % 2 != 0)
  pure { relativePosition := position, amplitudeModulation := amplitude,
         frequencyModulation := frequency }

/-- IOStream.cpp:1228-1244 (and 2068-2084, 2113-2129): semantic flag and code; an unknown keyword makes
`std::map::at` throw. -/
def writeSemantic (sem : Option String) : Except Err Bits :=
  match sem with
  | none => .ok (writeNBits EFFECT_FLAG_SEMANTIC 0)
  | some s => match semanticCode s with
    | none => .error .throw
    | some c => .ok (writeNBits EFFECT_FLAG_SEMANTIC 1
        ++ writeNBits (EFFECT_SEMANTIC_LAYER_1 + EFFECT_SEMANTIC_LAYER_2) c)

/-- IOStream.cpp:1166-1173. -/
def readSemantic : Rd (Option String) := do
  let hasSemantic ← readUInt EFFECT_FLAG_SEMANTIC
  if hasSemantic = 1 then do
    let code ← readUInt (EFFECT_SEMANTIC_LAYER_1 + EFFECT_SEMANTIC_LAYER_2)
    match semanticName code.toNat with
    | none => Rd.error .throw
    | some s => pure (some s)
  else pure none

/-- IOStream.cpp:1249-1258: phase and base signal of a basis effect. -/
def writeLibBasis (e : Effect) : Bits :=
  if e.effectType = EffectType.Basis then
    writeFloatNBits EFFECT_PHASE e.phaseOrDefault 0 MAX_PHASE
    ++ writeNBits EFFECT_BASE_SIGNAL e.baseSignalOrDefault
  else []

/-- IOStream.cpp:1177-1183. -/
def readLibBasis (effectType : Int) : Rd (Option ℚ × Option Nat) :=
  if effectType = 0 then do
    let phase ← readFloatNBits EFFECT_PHASE 0 MAX_PHASE
    let baseSignal ← readUInt EFFECT_BASE_SIGNAL
    pure (some phase, some baseSignal.toNat)
  else pure (none, none)

/-- IOStream.cpp:1220-1300: what a library effect writes before its timeline, given the
bits of its semantic. -/
def writeLibHead (e : Effect) (sem : Bits) : Bits :=
  writeNBits EFFECT_ID e.id ++ (writeNBits EFFECT_TYPE e.effectType ++ (sem
  ++ (writeNBits EFFECT_POSITION_STREAMING e.position
  ++ (writeLibBasis e
  ++ (writeNBits EFFECT_KEYFRAME_COUNT e.keyframes.length
  ++ (e.keyframes.flatMap writeLibKeyframe
  ++ writeNBits EFFECT_TIMELINE_COUNT (e.timeline.length % 65536 : Nat)))))))

mutual
/-- IOStream.cpp:1218-1308 `writeLibraryEffect`.  The number of timeline effects is cast to
`uint16_t`. -/
def writeLibraryEffect : Effect → Except Err Bits
  | ⟨id, position, phase, semantic, keyframes, baseSignal, effectType, timeline, wav⟩ =>
    match writeSemantic semantic with
    | .error e => .error e
    | .ok sem => match writeLibraryEffects (timeline.length % 65536) timeline with
      | .error e => .error e
      | .ok tl => .ok (writeLibHead
          ⟨id, position, phase, semantic, keyframes, baseSignal, effectType, timeline, wav⟩ sem ++ tl)

/-- IOStream.cpp:1302-1306: the loop over the first `n` timeline effects. -/
def writeLibraryEffects : Nat → List Effect → Except Err Bits
  | 0, _ => .ok []
  | _ + 1, [] => .ok []
  | n + 1, e :: l => match writeLibraryEffect e with
    | .error e => .error e
    | .ok b => match writeLibraryEffects n l with
      | .error e => .error e
      | .ok r => .ok (b ++ r)
end

/-- IOStream.cpp:1158-1216 `readLibraryEffect`; the first argument bounds the recursion depth. -/
def readLibraryEffect : Nat → Rd Effect
  | 0 => Rd.error .diverge
  | fuel + 1 => do
    let id ← readUInt EFFECT_ID
    let effectType ← readUInt EFFECT_TYPE
    let semantic ← readSemantic
    let position ← readUInt EFFECT_POSITION_STREAMING
    let pb ← readLibBasis effectType
    let kfCount ← readUInt EFFECT_KEYFRAME_COUNT
    let keyframes ← rdList readLibKeyframe kfCount.toNat
    let timelineEffectCount ← readUInt EFFECT_TIMELINE_COUNT
    let timeline ← rdList (readLibraryEffect fuel) timelineEffectCount.toNat
    pure { id := id, effectType := effectType.toNat, semantic := semantic, position := position,
           phase := pb.1, baseSignal := pb.2, keyframes := keyframes, timeline := timeline }

/-- IOStream.cpp:1122-1138 `writeLibrary`: all effects are written, the count is 16 bits. -/
def writeLibrary (p : Perception) : Except Err Bits :=
  match wList writeLibraryEffect p.effectLibrary with
  | .error e => .error e
  | .ok b => .ok (writeNBits MDPERCE_ID p.id
      ++ (writeNBits MDPERCE_LIBRARY_COUNT p.effectLibrary.length ++ b))

/-- IOStream.cpp:1150-1154: the loop of `readLibrary`; nesting cannot be deeper than the number of bits
left. -/
def readLibraryEffectList (n : Nat) : Rd (List Effect) := fun s =>
  rdList (readLibraryEffect (s.length + 1)) n s

/-- IOStream.cpp:1139-1157 `readLibrary`: index of the perception and the effects appended to its
library. -/
def readLibrary (h : Experience) : Rd (Nat × List Effect) := do
  let id ← readUInt MDPERCE_ID
  match searchPerceptionInHaptic h id with
  | none => Rd.error .fail
  | some i => do
    let effectCount ← readUInt MDPERCE_LIBRARY_COUNT
    let effects ← readLibraryEffectList effectCount.toNat
    pure (i, effects)

end Haptics
