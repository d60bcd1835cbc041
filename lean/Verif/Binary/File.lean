import Verif.Binary.Bands

/-
The binary file format: /repo/source/IOHaptics/src/IOBinary.cpp.
Writers return the bits they append to `output`; readers work on the flat view of the file.  Sizes cast to
`unsigned short` are taken modulo 2^16; the number written is then cut to the width of the field.
The presence masks are numbers, bit by bit in the order of `DeviceInformationMask` (IOBinary.h:43-58).
-/
namespace Haptics.Binary

/-! ### Avatars -/

/-- IOBinary.cpp:171-183: a custom avatar without mesh is written with an empty one. -/
def writeAvatar (a : Avatar) : Bits :=
  writeNBits AVATAR_ID a.id ++ (writeNBits AVATAR_LOD a.lod ++ (writeNBits AVATAR_TYPE a.type
  ++ (if a.type = 0 then writeString (a.mesh.getD []) else [])))

/-- IOBinary.cpp:148-159. -/
def readAvatar : Rd Avatar := do
  let id ← frdU AVATAR_ID
  let lod ← frdU AVATAR_LOD
  let type ← frdU AVATAR_TYPE
  if type = 0 then do
    let mesh ← readStringF
    pure { id := id, lod := lod, type := type, mesh := some mesh }
  else pure { id := id, lod := lod, type := type, mesh := none }

/-- IOBinary.cpp:164-186 `writeAvatars`. -/
def writeAvatars (l : List Avatar) : Bits :=
  writeNBits MDEXP_AVATAR_COUNT (l.length % 65536 : Nat) ++ (l.take (l.length % 65536)).flatMap writeAvatar

/-- IOBinary.cpp:141-162 `readAvatars`: the avatars added to the experience. -/
def readAvatars : Rd (List Avatar) := do
  let n ← frdU MDEXP_AVATAR_COUNT
  rdList readAvatar n

/-! ### Effect library -/

/-- IOBinary.cpp:332-358: one keyframe. -/
def writeLibKeyframe (k : Keyframe) : Bits :=
  writeNBits KEYFRAME_MASK (keyframeMask k)
  ++ (wOptI KEYFRAME_POSITION k.relativePosition
  ++ (wOptF KEYFRAME_AMPLITUDE (-MAX_AMPLITUDE) MAX_AMPLITUDE k.amplitudeModulation
  ++ wOptI KEYFRAME_FREQUENCY k.frequencyModulation))

/-- IOBinary.cpp:287-304. -/
def readLibKeyframe : Rd Keyframe := do
  let mask ← frdU KEYFRAME_MASK
  let position ← frOptI KEYFRAME_POSITION (mask % 2 != 0)
  let amplitude ← frOptF KEYFRAME_AMPLITUDE (-MAX_AMPLITUDE) MAX_AMPLITUDE (mask / 2 % 2 != 0)
  let frequency ← frOptI KEYFRAME_FREQUENCY (mask / 4 % 2 != 0)
  pure { relativePosition := position, amplitudeModulation := amplitude,
         frequencyModulation := frequency }

/-- IOBinary.cpp:322-327. -/
def writeLibBasis (e : Effect) : Bits :=
  if e.effectType = 0 then
    writeFloatNBits EFFECT_PHASE e.phaseOrDefault 0 MAX_PHASE
    ++ writeNBits EFFECT_BASE_SIGNAL e.baseSignalOrDefault
  else []

/-- IOBinary.cpp:270-282: phase and base signal. -/
def readLibBasis (effectType : Nat) : Rd (Option ℚ × Option Nat) :=
  if effectType = 0 then do
    let phase ← freadFloatNBits EFFECT_PHASE 0 MAX_PHASE
    let baseSignal ← frdU EFFECT_BASE_SIGNAL
    pure (some phase, some baseSignal)
  else pure (none, none)

/-- IOBinary.cpp:316-362: what a library effect writes before its timeline. -/
def writeLibHead (e : Effect) : Bits :=
  writeNBits EFFECT_ID e.id ++ (writeNBits EFFECT_POSITION e.position
  ++ (writeNBits EFFECT_TYPE e.effectType ++ (writeLibBasis e
  ++ (writeNBits EFFECT_KEYFRAME_COUNT (e.keyframes.length % 65536 : Nat)
  ++ ((e.keyframes.take (e.keyframes.length % 65536)).flatMap writeLibKeyframe
  ++ writeNBits EFFECT_TIMELINE_COUNT (e.timeline.length % 65536 : Nat))))))

/-- IOBinary.cpp:315-371 `writeLibraryEffect`.  For each timeline effect it calls itself, not with the
timeline effect but with the effect it was called with (l.368).  `stack` bounds the depth of the
recursion. -/
def writeLibraryEffect : Nat → Effect → Except Err Bits
  | 0, _ => .error .diverge
  | stack + 1, e =>
    match wList (fun _ => writeLibraryEffect stack e) (e.timeline.take (e.timeline.length % 65536)) with
    | .error x => .error x
    | .ok b => .ok (writeLibHead e ++ b)

/-- IOBinary.cpp:263-313 `readLibraryEffect`; the first argument bounds the recursion depth. -/
def readLibraryEffect : Nat → Rd Effect
  | 0 => Rd.error .diverge
  | fuel + 1 => do
    let id ← frdU EFFECT_ID
    let position ← frdU EFFECT_POSITION
    let effectType ← frdU EFFECT_TYPE
    let pb ← readLibBasis effectType
    let kfCount ← frdU EFFECT_KEYFRAME_COUNT
    let keyframes ← rdList readLibKeyframe kfCount
    let timelineCount ← frdU EFFECT_TIMELINE_COUNT
    let timeline ← rdList (readLibraryEffect fuel) timelineCount
    pure { id := id, position := position, effectType := effectType, phase := pb.1, baseSignal := pb.2,
           keyframes := keyframes, timeline := timeline }

/-- IOBinary.cpp:386-397 `writeLibrary`. -/
def writeLibrary (stack : Nat) (l : List Effect) : Except Err Bits :=
  match wList (writeLibraryEffect stack) (l.take (l.length % 65536)) with
  | .error x => .error x
  | .ok b => .ok (writeNBits MDPERCE_LIBRARY_COUNT (l.length % 65536 : Nat) ++ b)

/-- One library effect: nesting cannot be deeper than the number of bits left, since past the end of the
file no effect has a timeline. -/
def readLibEffect : Rd Effect := fun s => readLibraryEffect (s.length + 1) s

/-- IOBinary.cpp:373-384 `readLibrary`: the effects added to the perception. -/
def readLibrary : Rd (List Effect) := do
  let n ← frdU MDPERCE_LIBRARY_COUNT
  rdList readLibEffect n

/-! ### Reference devices -/

/-- A number whose bit `i` is the `i`-th flag. -/
def maskOf : List Bool → Nat
  | [] => 0
  | b :: l => b.toNat + 2 * maskOf l

/-- IOBinary.cpp:824-866 `generateReferenceDeviceInformationMask`. -/
def deviceMask (d : ReferenceDevice) : Nat :=
  maskOf [d.maximumFrequency.isSome, d.minimumFrequency.isSome, d.resonanceFrequency.isSome,
    d.maximumAmplitude.isSome, d.impedance.isSome, d.maximumVoltage.isSome, d.maximumCurrent.isSome,
    d.maximumDisplacement.isSome, d.weight.isSome, d.size.isSome, d.custom.isSome, d.type.isSome]

/-- `(mask & (1 << i)) != 0`. -/
def maskBit (mask i : Nat) : Bool := mask / 2 ^ i % 2 != 0

/-- `if (present) value = readNBits(...)`. -/
def frOptN (n : Nat) (present : Bool) : Rd (Option Nat) :=
  if present then do
    let v ← frdU n
    pure (some v)
  else pure none

/-- IOBinary.cpp:505-583. -/
def writeReferenceDevice (d : ReferenceDevice) : Bits :=
  writeNBits REFDEV_ID d.id ++ (writeString d.name
  ++ (writeNBits REFDEV_BODY_PART_MASK (d.bodyPartMask.getD 0 : Nat)
  ++ (writeNBits REFDEV_OPT_FIELDS (deviceMask d)
  ++ (wOptF REFDEV_MAX_FREQ 0 MAX_FREQUENCY d.maximumFrequency
  ++ (wOptF REFDEV_MIN_FREQ 0 MAX_FREQUENCY d.minimumFrequency
  ++ (wOptF REFDEV_RES_FREQ 0 MAX_FREQUENCY d.resonanceFrequency
  ++ (wOptF REFDEV_MAX_AMP 0 MAX_FLOAT d.maximumAmplitude
  ++ (wOptF REFDEV_IMPEDANCE 0 MAX_FLOAT d.impedance
  ++ (wOptF REFDEV_MAX_VOLT 0 MAX_FLOAT d.maximumVoltage
  ++ (wOptF REFDEV_MAX_CURR 0 MAX_FLOAT d.maximumCurrent
  ++ (wOptF REFDEV_MAX_DISP 0 MAX_FLOAT d.maximumDisplacement
  ++ (wOptF REFDEV_WEIGHT 0 MAX_FLOAT d.weight
  ++ (wOptF REFDEV_SIZE 0 MAX_FLOAT d.size
  ++ (wOptF REFDEV_CUSTOM (-MAX_FLOAT) MAX_FLOAT d.custom
  ++ wOptN REFDEV_TYPE d.type))))))))))))))

/-- IOBinary.cpp:405-488.  The custom value is read with the width of the size, the same number. -/
def readReferenceDevice : Rd ReferenceDevice := do
  let id ← frdU REFDEV_ID
  let name ← readStringF
  let bodyPartMask ← frdU REFDEV_BODY_PART_MASK
  let mask ← frdU REFDEV_OPT_FIELDS
  let maximumFrequency ← frOptF REFDEV_MAX_FREQ 0 MAX_FREQUENCY (maskBit mask 0)
  let minimumFrequency ← frOptF REFDEV_MIN_FREQ 0 MAX_FREQUENCY (maskBit mask 1)
  let resonanceFrequency ← frOptF REFDEV_RES_FREQ 0 MAX_FREQUENCY (maskBit mask 2)
  let maximumAmplitude ← frOptF REFDEV_MAX_AMP 0 MAX_FLOAT (maskBit mask 3)
  let impedance ← frOptF REFDEV_IMPEDANCE 0 MAX_FLOAT (maskBit mask 4)
  let maximumVoltage ← frOptF REFDEV_MAX_VOLT 0 MAX_FLOAT (maskBit mask 5)
  let maximumCurrent ← frOptF REFDEV_MAX_CURR 0 MAX_FLOAT (maskBit mask 6)
  let maximumDisplacement ← frOptF REFDEV_MAX_DISP 0 MAX_FLOAT (maskBit mask 7)
  let weight ← frOptF REFDEV_WEIGHT 0 MAX_FLOAT (maskBit mask 8)
  let size ← frOptF REFDEV_SIZE 0 MAX_FLOAT (maskBit mask 9)
  let custom ← frOptF REFDEV_SIZE (-MAX_FLOAT) MAX_FLOAT (maskBit mask 10)
  let type ← frOptN REFDEV_TYPE (maskBit mask 11)
  pure { id := id, name := name, bodyPartMask := some bodyPartMask,
         maximumFrequency := maximumFrequency, minimumFrequency := minimumFrequency,
         resonanceFrequency := resonanceFrequency, maximumAmplitude := maximumAmplitude,
         impedance := impedance, maximumVoltage := maximumVoltage, maximumCurrent := maximumCurrent,
         maximumDisplacement := maximumDisplacement, weight := weight, size := size,
         custom := custom, type := type }

/-- IOBinary.cpp:494-587 `writeReferenceDevices`. -/
def writeReferenceDevices (l : List ReferenceDevice) : Bits :=
  writeNBits MDPERCE_REFDEVICE_COUNT (l.length % 65536 : Nat)
  ++ (l.take (l.length % 65536)).flatMap writeReferenceDevice

/-- IOBinary.cpp:399-492 `readReferenceDevices`. -/
def readReferenceDevices : Rd (List ReferenceDevice) := do
  let n ← frdU MDPERCE_REFDEVICE_COUNT
  rdList readReferenceDevice n

/-! ### Channels -/

/-- IOBinary.cpp:689-697. -/
def channelMask (c : Channel) : Nat :=
  (if c.actuatorResolution.isSome then 2 else 1) + (if c.direction.isSome then 4 else 0)

/-- IOBinary.cpp:700-726. -/
def writeBodyParts (c : Channel) : Bits :=
  match c.actuatorResolution with
  | none => writeNBits MDCHANNEL_BODY_PART_MASK c.bodyPartMask
  | some r =>
    let bpt := c.bodyPartTarget.getD []
    let act := c.actuatorTarget.getD []
    writeVector r
    ++ (writeNBits MDCHANNEL_BODY_PART_TARGET_COUNT (bpt.length % 256 : Nat)
    ++ ((bpt.take (bpt.length % 256)).flatMap (fun t => writeNBits MDCHANNEL_BODY_PART_TARGET (t : Nat))
    ++ (writeNBits MDCHANNEL_ACTUATOR_TARGET_COUNT (act.length % 256 : Nat)
    ++ (act.take (act.length % 256)).flatMap writeVector)))

/-- IOBinary.cpp:607-631. -/
def readBodyParts (mask : Nat) (c : Channel) : Rd Channel :=
  if mask % 2 ≠ 0 then do
    let m ← frdU MDCHANNEL_BODY_PART_MASK
    pure { c with bodyPartMask := m }
  else if mask / 2 % 2 ≠ 0 then do
    let r ← readVectorF
    let n ← frdU MDCHANNEL_BODY_PART_TARGET_COUNT
    let bpt ← rdList (frdU MDCHANNEL_BODY_PART_TARGET) n
    let m ← frdU MDCHANNEL_ACTUATOR_TARGET_COUNT
    let act ← rdList readVectorF m
    pure { c with actuatorResolution := some r, bodyPartTarget := some bpt, actuatorTarget := some act }
  else pure c

/-- IOBinary.cpp:728-734. -/
def writeSampling (c : Channel) : Bits :=
  writeNBits MDCHANNEL_FREQ_SAMPLING (c.frequencySampling.getD 0 : Nat)
  ++ (if c.frequencySampling.getD 0 ≠ 0 then
        writeNBits MDCHANNEL_SAMPLE_COUNT (c.sampleCount.getD 0 : Nat) else [])

/-- IOBinary.cpp:633-639. -/
def readSampling (c : Channel) : Rd Channel := do
  let frequencySampling ← frdU MDCHANNEL_FREQ_SAMPLING
  if frequencySampling ≠ 0 then do
    let sampleCount ← frdU MDCHANNEL_SAMPLE_COUNT
    pure { c with frequencySampling := some frequencySampling, sampleCount := some sampleCount }
  else pure c

/-- IOBinary.cpp:736-739. -/
def writeDirection (c : Channel) : Bits :=
  match c.direction with
  | none => []
  | some d => writeVector d

/-- IOBinary.cpp:640-642. -/
def readDirection (mask : Nat) (c : Channel) : Rd Channel :=
  if mask / 4 % 2 ≠ 0 then do
    let d ← readVectorF
    pure { c with direction := some d }
  else pure c

/-- IOBinary.cpp:672-751: one channel.  All vertices are written, whatever the number announced. -/
def writeChannel (c : Channel) : Bits :=
  writeNBits MDCHANNEL_ID c.id ++ (writeString c.description
  ++ (writeNBits MDCHANNEL_DEVICE_ID (c.referenceDeviceId.getD (-1))
  ++ (writeFloatNBits MDCHANNEL_GAIN c.gain (-MAX_FLOAT) MAX_FLOAT
  ++ (writeFloatNBits MDCHANNEL_MIXING_WEIGHT c.mixingWeight 0 MAX_FLOAT
  ++ (writeNBits MDCHANNEL_OPT_FIELDS (channelMask c)
  ++ (writeBodyParts c ++ (writeSampling c ++ (writeDirection c
  ++ (writeNBits MDCHANNEL_VERT_COUNT c.vertices.length
  ++ (c.vertices.flatMap (writeNBits MDCHANNEL_VERT)
  ++ writeNBits MDCHANNEL_BANDS_COUNT (c.bands.length % 65536 : Nat)))))))))))

/-- IOBinary.cpp:595-657: one channel; its bands are placeholders. -/
def readChannel : Rd Channel := do
  let id ← frdU MDCHANNEL_ID
  let description ← readStringF
  let referenceDeviceId ← frdU MDCHANNEL_DEVICE_ID
  let gain ← freadFloatNBits MDCHANNEL_GAIN (-MAX_FLOAT) MAX_FLOAT
  let mixingWeight ← freadFloatNBits MDCHANNEL_MIXING_WEIGHT 0 MAX_FLOAT
  let mask ← frdU MDCHANNEL_OPT_FIELDS
  let c ← readBodyParts mask
    { id := toSigned 16 id, description := description, referenceDeviceId := some (referenceDeviceId : Int),
      gain := gain, mixingWeight := mixingWeight }
  let c ← readSampling c
  let c ← readDirection mask c
  let n ← frdU MDCHANNEL_VERT_COUNT
  let vertices ← rdList (do let v ← frdU MDCHANNEL_VERT; pure (toSigned 32 v)) n
  let bandCount ← frdU MDCHANNEL_BANDS_COUNT
  pure { c with vertices := vertices, bands := List.replicate bandCount {} }

/-- IOBinary.cpp:663-755 `writeChannelsHeader`. -/
def writeChannels (l : List Channel) : Bits :=
  writeNBits MDPERCE_CHANNEL_COUNT (l.length % 65536 : Nat) ++ (l.take (l.length % 65536)).flatMap writeChannel

/-- IOBinary.cpp:589-661 `readChannelsHeader`. -/
def readChannels : Rd (List Channel) := do
  let n ← frdU MDPERCE_CHANNEL_COUNT
  rdList readChannel n

/-! ### Perceptions -/

/-- IOBinary.cpp:228-258: one perception.  Priority and semantic scheme are not written. -/
def writePerception (stack : Nat) (p : Perception) : Except Err Bits :=
  match writeLibrary stack p.effectLibrary with
  | .error x => .error x
  | .ok lib => .ok (writeNBits MDPERCE_ID p.id ++ (writeNBits MDPERCE_MODALITY p.perceptionModality
      ++ (writeString p.description ++ (writeNBits AVATAR_ID p.avatarId
      ++ (writeNBits MDPERCE_UNIT_EXP p.unitExponentOrDefault
      ++ (writeNBits MDPERCE_PERCE_UNIT_EXP p.perceptionUnitExponentOrDefault
      ++ (lib ++ (writeReferenceDevices p.referenceDevices ++ writeChannels p.channels))))))))

/-- IOBinary.cpp:195-217: one perception. -/
def readPerception : Rd Perception := do
  let id ← frdU MDPERCE_ID
  let modality ← frdU MDPERCE_MODALITY
  let description ← readStringF
  let avatarId ← frdU AVATAR_ID
  let unitExponent ← frdI8
  let perceptionUnitExponent ← frdI8
  let library ← readLibrary
  let devices ← readReferenceDevices
  let channels ← readChannels
  pure { id := id, avatarId := avatarId, description := description, perceptionModality := modality,
         unitExponent := some unitExponent, perceptionUnitExponent := some perceptionUnitExponent,
         effectLibrary := library, referenceDevices := devices, channels := channels }

/-- IOBinary.cpp:223-261 `writePerceptionsHeader`. -/
def writePerceptions (stack : Nat) (l : List Perception) : Except Err Bits :=
  match wList (writePerception stack) (l.take (l.length % 65536)) with
  | .error x => .error x
  | .ok b => .ok (writeNBits MDEXP_PERC_COUNT (l.length % 65536 : Nat) ++ b)

/-- IOBinary.cpp:188-221 `readPerceptionsHeader`. -/
def readPerceptions : Rd (List Perception) := do
  let n ← frdU MDEXP_PERC_COUNT
  rdList readPerception n

/-! ### The file -/

/-- IOBinary.cpp:121-139 `writeFileHeader`.  The timescale is not written. -/
def writeFileHeader (stack : Nat) (h : Experience) : Except Err Bits :=
  match writePerceptions stack h.perceptions with
  | .error x => .error x
  | .ok b => .ok (writeString h.version ++ (writeString h.profile ++ (writeNBits LEVEL h.level
      ++ (writeString h.date ++ (writeString h.description ++ (writeAvatars h.avatars ++ b))))))

/-- IOBinary.cpp:98-119 `readFileHeader` into the experience `out`. -/
def readFileHeader (out : Experience) : Rd Experience := do
  let version ← readStringF
  let profile ← readStringF
  let level ← frdU LEVEL
  let date ← readStringF
  let description ← readStringF
  let avatars ← readAvatars
  let perceptions ← readPerceptions
  pure { out with version := version, profile := profile, level := level, date := date,
                  description := description, avatars := out.avatars ++ avatars,
                  perceptions := out.perceptions ++ perceptions }

/-- Haptics.cpp:116-118, Haptics.h: the default timescale is 1000. -/
def timescaleOrDefault (h : Experience) : Nat := h.timescale.getD 1000

/-- IOBinary.cpp:809-816: header and body of a band. -/
def writeBand (timescale stack : Nat) (b : Band) : Except Err Bits :=
  match writeBandHeader timescale b with
  | .error x => .error x
  | .ok hd => match writeBandBody stack b with
    | .error x => .error x
    | .ok body => .ok (hd ++ body)

/-- IOBinary.cpp:807-817: the bands of a channel. -/
def writeChannelBody (timescale stack : Nat) (c : Channel) : Except Err Bits :=
  wList (writeBand timescale stack) (c.bands.take (c.bands.length % 65536))

/-- IOBinary.cpp:802-818: the channels of a perception. -/
def writePerceptionBody (timescale stack : Nat) (p : Perception) : Except Err Bits :=
  wList (writeChannelBody timescale stack) (p.channels.take (p.channels.length % 65536))

/-- IOBinary.cpp:793-822 `writeFileBody`. -/
def writeFileBody (stack : Nat) (h : Experience) : Except Err Bits :=
  wList (writePerceptionBody (timescaleOrDefault h) stack) (h.perceptions.take (h.perceptions.length % 65536))

/-- A reader applied to each element of a list of placeholders. -/
def rdEach {α : Type} (p : α → Rd α) : List α → Rd (List α)
  | [] => pure []
  | a :: l => do
    let a ← p a
    let l ← rdEach p l
    pure (a :: l)

/-- IOBinary.cpp:772-783: a band; the placeholder is an empty band. -/
def readBand (timescale : Nat) (_ : Band) : Rd Band := do
  let b ← readBandHeader timescale
  readBandBody timescale b

/-- IOBinary.cpp:771-784. -/
def readChannelBody (timescale : Nat) (c : Channel) : Rd Channel := do
  let bands ← rdEach (readBand timescale) c.bands
  pure { c with bands := bands }

/-- IOBinary.cpp:767-786. -/
def readPerceptionBody (timescale : Nat) (p : Perception) : Rd Perception := do
  let channels ← rdEach (readChannelBody timescale) p.channels
  pure { p with channels := channels }

/-- IOBinary.cpp:757-791 `readFileBody`.  If a band cannot be read the function returns; the perception
the band is in, and those after it, keep their placeholders. -/
def readFileBody (timescale : Nat) : List Perception → Rd (List Perception)
  | [] => pure []
  | p :: l => fun s => match readPerceptionBody timescale p s with
    | .error .fail => .ok (p :: l, s)
    | .error x => .error x
    | .ok (p, s) => match readFileBody timescale l s with
      | .error x => .error x
      | .ok (l, s) => .ok (p :: l, s)

/-- IOBinary.cpp:80-96 `writeFile`: the bytes of the file. -/
def writeFile (stack : Nat) (h : Experience) : Except Err (List UInt8) :=
  match writeFileHeader stack h with
  | .error x => .error x
  | .ok hd => match writeFileBody stack h with
    | .error x => .error x
    | .ok body => .ok (writeBitset (fillBitset (hd ++ body)))

/-- IOBinary.cpp:43-52 `loadMemory` (what `loadFile`, too, does with a file that is not empty): reading an
experience into `out`.  The result of `readFileBody` is ignored. -/
def loadMemory (out : Experience) (bytes : List UInt8) : Except Err Experience :=
  match readFileHeader out (bytes.flatMap byteBits) with
  | .error x => .error x
  | .ok (h, s) => match readFileBody (timescaleOrDefault h) h.perceptions s with
    | .error x => .error x
    | .ok (ps, _) => .ok { h with perceptions := ps }

/-- IOBinary.cpp:54-78 `loadFile`: `false` for an empty file. -/
def loadFile (out : Experience) (bytes : List UInt8) : Except Err Experience :=
  if bytes = [] then .error .fail else loadMemory out bytes

end Haptics.Binary
