import Verif.Json.SpecBase64
import Verif.Json.SpecConformance
import Mathlib.Data.Rat.Floor

/-! What C71 says of `.hjif` files: which experiences come back from a file as they were (`Storable`), and what
is left of the others (`kept`). -/

namespace Haptics.Json
open Haptics

/-! ### The values the C++ types can hold -/

def Int32 (i : Int) : Prop := -2 ^ 31 ≤ i ∧ i < 2 ^ 31
def Uint32 (n : Nat) : Prop := n < 2 ^ 32
def Int8 (i : Int) : Prop := -128 ≤ i ∧ i < 128
/-- A finite binary32 number. -/
def IsFloat (q : ℚ) : Prop := ∃ m k : ℤ, m.natAbs < 2 ^ 24 ∧ -149 ≤ k ∧ k ≤ 104 ∧ q = m * 2 ^ k
/-- Text that is a C string. -/
def NoZero (s : Str) : Prop := (0 : UInt8) ∉ s
/-- A semantic keyword whose characters stand for bytes. -/
def ByteText (s : String) : Prop := ∀ c ∈ s.toList, c.toNat < 256

/-- BodyPartTarget.h:41-93. -/
def bodyParts : List Nat :=
  [0, 1, 10, 11, 12, 13, 14, 15, 20, 21, 22, 23, 24, 30, 31, 32, 33, 34, 35, 36, 37, 40, 41, 42, 43,
   50, 51, 52, 53, 54, 55, 56, 57, 58, 59, 60, 61, 62, 254, 255]

structure KeyframeTyped (k : Keyframe) : Prop where
  position : ∀ i ∈ k.relativePosition, Int32 i
  amplitude : ∀ q ∈ k.amplitudeModulation, IsFloat q
  frequency : ∀ i ∈ k.frequencyModulation, Int32 i

structure VectorTyped (v : Vector3) : Prop where
  X : Int8 v.X
  Y : Int8 v.Y
  Z : Int8 v.Z

structure EffectTyped (f : Effect) : Prop where
  id : Int32 f.id
  position : Int32 f.position
  phase : ∀ q ∈ f.phase, IsFloat q
  baseSignal : ∀ n ∈ f.baseSignal, n < 5
  semantic : ∀ s ∈ f.semantic, ByteText s
  effectType : f.effectType < 3
  keyframes : ∀ k ∈ f.keyframes, KeyframeTyped k
  /-- The payload of a wavelet effect is not made of zero bytes only (C25: writing it would throw). -/
  payload : f.waveletBitstream = [] ∨ ∃ v ∈ f.waveletBitstream, v ≠ 0

structure BandTyped (b : Band) : Prop where
  bandType : b.bandType < 4
  curveType : ∀ n ∈ b.curveType, n < 6
  /-- Without the smallest `int`, on which the check of C34 overflows. -/
  blockLength : ∀ i ∈ b.blockLength, -2 ^ 31 < i ∧ i < 2 ^ 31
  lower : Int32 b.lowerFrequencyLimit
  upper : Int32 b.upperFrequencyLimit
  priority : ∀ i ∈ b.priority, Int32 i
  effects : ∀ f ∈ b.effects, EffectTyped f
  /-- Effects are in the order of their positions, as `addEffect` leaves them. -/
  ordered : b.effects.Pairwise (fun f g => f.position ≤ g.position)

structure ChannelTyped (c : Channel) : Prop where
  id : Int32 c.id
  gain : IsFloat c.gain
  mixingWeight : IsFloat c.mixingWeight
  bodyPartMask : Uint32 c.bodyPartMask
  vertices : ∀ i ∈ c.vertices, Int32 i
  priority : ∀ i ∈ c.priority, Int32 i
  referenceDeviceId : ∀ i ∈ c.referenceDeviceId, Int32 i
  frequencySampling : ∀ n ∈ c.frequencySampling, Uint32 n
  sampleCount : ∀ n ∈ c.sampleCount, Uint32 n
  direction : ∀ v ∈ c.direction, VectorTyped v
  actuatorResolution : ∀ v ∈ c.actuatorResolution, VectorTyped v
  bodyPartTarget : ∀ l ∈ c.bodyPartTarget, ∀ n ∈ l, n ∈ bodyParts
  actuatorTarget : ∀ l ∈ c.actuatorTarget, ∀ v ∈ l, VectorTyped v
  bands : ∀ b ∈ c.bands, BandTyped b

structure DeviceTyped (d : ReferenceDevice) : Prop where
  id : Int32 d.id
  bodyPartMask : ∀ n ∈ d.bodyPartMask, Uint32 n
  maximumFrequency : ∀ q ∈ d.maximumFrequency, IsFloat q
  minimumFrequency : ∀ q ∈ d.minimumFrequency, IsFloat q
  resonanceFrequency : ∀ q ∈ d.resonanceFrequency, IsFloat q
  maximumAmplitude : ∀ q ∈ d.maximumAmplitude, IsFloat q
  impedance : ∀ q ∈ d.impedance, IsFloat q
  maximumVoltage : ∀ q ∈ d.maximumVoltage, IsFloat q
  maximumCurrent : ∀ q ∈ d.maximumCurrent, IsFloat q
  maximumDisplacement : ∀ q ∈ d.maximumDisplacement, IsFloat q
  weight : ∀ q ∈ d.weight, IsFloat q
  size : ∀ q ∈ d.size, IsFloat q
  custom : ∀ q ∈ d.custom, IsFloat q
  type : ∀ n ∈ d.type, n < 5

structure AvatarTyped (a : Avatar) : Prop where
  id : Int32 a.id
  lod : Int32 a.lod
  type : a.type < 4

structure PerceptionTyped (p : Perception) : Prop where
  id : Int32 p.id
  avatarId : Int32 p.avatarId
  modality : p.perceptionModality < 14
  priority : ∀ i ∈ p.priority, Int32 i
  unitExponent : ∀ i ∈ p.unitExponent, Int32 i
  perceptionUnitExponent : ∀ i ∈ p.perceptionUnitExponent, Int32 i
  devices : ∀ d ∈ p.referenceDevices, DeviceTyped d
  library : ∀ f ∈ p.effectLibrary, EffectTyped f
  channels : ∀ c ∈ p.channels, ChannelTyped c

/-- An experience whose values are values of the C++ types, with known enumerators. -/
structure Typed (e : Experience) : Prop where
  level : e.level < 256
  timescale : ∀ t ∈ e.timescale, Uint32 t
  avatars : ∀ a ∈ e.avatars, AvatarTyped a
  perceptions : ∀ p ∈ e.perceptions, PerceptionTyped p
  syncs : ∀ s ∈ e.syncs, Int32 s.timestamp ∧ ∀ t ∈ s.timescale, Uint32 t

/-! ### What a file keeps -/

/-- Text up to the first zero byte. -/
def keptText (s : Str) : Str := s.takeWhile (fun b => b ≠ 0)

def keptKeyword (s : String) : String := String.ofList (s.toList.takeWhile (fun c => c ≠ Char.ofNat 0))

/-- An effect of the library: no timeline, no wavelet payload. -/
def keptLibraryEffect (f : Effect) : Effect :=
  { f with semantic := f.semantic.map keptKeyword, timeline := [], waveletBitstream := [] }

/-- An effect of a band.  References have an identifier, basis effects what their band type uses, composite
effects nothing more than position and keyword. -/
def keptEffect (bandType : Nat) (f : Effect) : Effect :=
  let semantic := f.semantic.map keptKeyword
  if f.effectType = EffectType.Reference then
    { id := f.id, position := f.position, semantic := semantic, effectType := EffectType.Reference }
  else if f.effectType = EffectType.Composite then
    { position := f.position, semantic := semantic, effectType := EffectType.Composite }
  else if bandType = BandType.WaveletWave then
    { position := f.position, semantic := semantic, waveletBitstream := withoutFinalZeros f.waveletBitstream }
  else if bandType = BandType.Curve then
    { position := f.position, semantic := semantic, keyframes := f.keyframes }
  else
    { position := f.position, semantic := semantic, keyframes := f.keyframes, phase := f.phase,
      baseSignal := f.baseSignal }

/-- A band: the curve type of curve bands, the block length of wavelet bands. -/
def keptBand (b : Band) : Band :=
  { b with
    curveType := if b.bandType = BandType.Curve then b.curveType else none
    blockLength := if b.bandType = BandType.WaveletWave then some (b.blockLength.getD 0) else some 0
    effects := b.effects.map (keptEffect b.bandType) }

def keptChannel (c : Channel) : Channel :=
  { c with description := keptText c.description, bands := c.bands.map keptBand }

def keptDevice (d : ReferenceDevice) : ReferenceDevice := { d with name := keptText d.name }

/-- An avatar: the mesh of custom avatars. -/
def keptAvatar (a : Avatar) : Avatar := { a with mesh := if a.type = 0 then a.mesh.map keptText else none }

def keptPerception (p : Perception) : Perception :=
  { p with
    description := keptText p.description
    effectSemanticScheme := p.effectSemanticScheme.map keptText
    channels := p.channels.map keptChannel
    referenceDevices := p.referenceDevices.map keptDevice
    effectLibrary := p.effectLibrary.map keptLibraryEffect }

def keptSync (s : Sync) : Sync := { s with timescale := some (s.timescale.getD 1000) }

open Classical in
/-- What is left of an experience written at time `now`. -/
noncomputable def kept (now : Str) (e : Experience) : Experience :=
  { version := if IsVersion e.version then e.version else text "2023"
    profile := keptText e.profile
    level := e.level
    date := keptText (if HasFourDigits e.date then e.date else now)
    description := keptText e.description
    timescale := e.timescale
    avatars := e.avatars.map keptAvatar
    perceptions := e.perceptions.map keptPerception
    syncs := e.syncs.map keptSync }

/-! ### What comes back as it was -/

structure StorableLibraryEffect (f : Effect) : Prop where
  semantic : ∀ s ∈ f.semantic, Char.ofNat 0 ∉ s.toList
  timeline : f.timeline = []
  payload : f.waveletBitstream = []

/-- An effect of a band of type `bandType`. -/
structure StorableEffect (bandType : Nat) (f : Effect) : Prop where
  semantic : ∀ s ∈ f.semantic, Char.ofNat 0 ∉ s.toList
  /-- Only references have an identifier. -/
  id : f.effectType ≠ EffectType.Reference → f.id = -1
  timeline : f.timeline = []
  /-- Only basis effects have a phase and a base signal, in bands of transients and vectorial waves. -/
  signal : ¬ (f.effectType = EffectType.Basis ∧
      (bandType = BandType.Transient ∨ bandType = BandType.VectorialWave)) → f.phase = none ∧ f.baseSignal = none
  /-- Only basis effects have keyframes, in bands without wavelets. -/
  keyframes : ¬ (f.effectType = EffectType.Basis ∧ bandType ≠ BandType.WaveletWave) → f.keyframes = []
  /-- Only basis effects have a payload, in wavelet bands; it does not end in a zero byte. -/
  payload : ¬ (f.effectType = EffectType.Basis ∧ bandType = BandType.WaveletWave) → f.waveletBitstream = []
  last : f.waveletBitstream.getLast? ≠ some 0

structure StorableBand (b : Band) : Prop where
  curveType : b.bandType ≠ BandType.Curve → b.curveType = none
  blockLength : b.blockLength.isSome ∧ (b.bandType ≠ BandType.WaveletWave → b.blockLength = some 0)
  effects : ∀ f ∈ b.effects, StorableEffect b.bandType f

structure StorableChannel (c : Channel) : Prop where
  description : NoZero c.description
  bands : ∀ b ∈ c.bands, StorableBand b

structure StorablePerception (p : Perception) : Prop where
  description : NoZero p.description
  scheme : ∀ s ∈ p.effectSemanticScheme, NoZero s
  channels : ∀ c ∈ p.channels, StorableChannel c
  devices : ∀ d ∈ p.referenceDevices, NoZero d.name
  library : ∀ f ∈ p.effectLibrary, StorableLibraryEffect f

/-- An experience of which a file keeps everything. -/
structure Storable (e : Experience) : Prop where
  version : IsVersion e.version
  date : HasFourDigits e.date ∧ NoZero e.date
  profile : NoZero e.profile
  description : NoZero e.description
  timescale : e.timescale.isSome
  /-- Only custom avatars (type 0) have a mesh. -/
  avatars : ∀ a ∈ e.avatars, (a.type ≠ 0 → a.mesh = none) ∧ ∀ m ∈ a.mesh, NoZero m
  perceptions : ∀ p ∈ e.perceptions, StorablePerception p
  syncs : ∀ s ∈ e.syncs, s.timescale.isSome

end Haptics.Json
