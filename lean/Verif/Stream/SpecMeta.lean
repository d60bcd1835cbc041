import Verif.Bits.FloatLemmas
import Verif.Types.Model

/-
What the metadata packets of a MIHS stream can represent (`Fits`), and what a receiver is entitled to
find (`received`): the same object, with floats replaced by their quantised value and absent optional
fields replaced by the value the format gives them.  Nothing here refers to the packet writers or readers.
-/
namespace Haptics

/-- `v` is an unsigned `n`-bit number. -/
def U (n : Nat) (v : Int) : Prop := 0 ≤ v ∧ v < 2 ^ n

instance (n v) : Decidable (U n v) := by unfold U; infer_instance

/-- `v` is a signed byte. -/
def I8 (v : Int) : Prop := -128 ≤ v ∧ v < 128

instance (v) : Decidable (I8 v) := by unfold I8; infer_instance

/-- Priority 0 and no priority are the same thing. -/
def receivedPriority (p : Option Int) : Option Int := p.filter (· ≠ 0)

structure Vector3.Fits (v : Vector3) : Prop where
  X : I8 v.X
  Y : I8 v.Y
  Z : I8 v.Z

/-! ### Avatars -/

structure Avatar.Fits (a : Avatar) : Prop where
  id : U 8 a.id
  lod : U 8 a.lod
  type : a.type < 256
  /-- a custom avatar has a mesh -/
  mesh : a.type = 0 → ∃ m, a.mesh = some m ∧ m.length < 256

/-- Only custom avatars carry a mesh. -/
def Avatar.received (a : Avatar) : Avatar := { a with mesh := if a.type = 0 then a.mesh else none }

/-! ### Experience -/

structure Experience.HeaderFits (h : Experience) : Prop where
  version : h.version.length < 256
  profile : h.profile.length < 256
  level : h.level < 256
  date : h.date.length < 256
  description : h.description.length < 256
  avatarCount : h.avatars.length < 256
  avatars : ∀ a ∈ h.avatars, a.Fits

/-- Receiving the experience header of `h` when the experience so far is `old`. -/
def Experience.receivedHeader (h old : Experience) : Experience :=
  { old with version := h.version, profile := h.profile, level := h.level, date := h.date,
             description := h.description, avatars := old.avatars ++ h.avatars.map Avatar.received }

/-! ### Reference devices -/

structure ReferenceDevice.Fits (d : ReferenceDevice) : Prop where
  id : U 8 d.id
  name : d.name.length < 256
  bodyPartMask : ∀ m ∈ d.bodyPartMask, m < 2 ^ 32
  type : ∀ t ∈ d.type, t < 16

/-- Frequencies are quantised on 32 bits over [0, MAX_FREQUENCY], the other quantities over
[0, MAX_FLOAT], the custom value over [-MAX_FLOAT, MAX_FLOAT]; no body part mask is mask 0. -/
def ReferenceDevice.received (d : ReferenceDevice) : ReferenceDevice :=
  { d with
    bodyPartMask := some (d.bodyPartMask.getD 0)
    maximumFrequency := d.maximumFrequency.map (quantF 32 0 MAX_FREQUENCY)
    minimumFrequency := d.minimumFrequency.map (quantF 32 0 MAX_FREQUENCY)
    resonanceFrequency := d.resonanceFrequency.map (quantF 32 0 MAX_FREQUENCY)
    maximumAmplitude := d.maximumAmplitude.map (quantF 32 0 MAX_FLOAT)
    impedance := d.impedance.map (quantF 32 0 MAX_FLOAT)
    maximumVoltage := d.maximumVoltage.map (quantF 32 0 MAX_FLOAT)
    maximumCurrent := d.maximumCurrent.map (quantF 32 0 MAX_FLOAT)
    maximumDisplacement := d.maximumDisplacement.map (quantF 32 0 MAX_FLOAT)
    weight := d.weight.map (quantF 32 0 MAX_FLOAT)
    size := d.size.map (quantF 32 0 MAX_FLOAT)
    custom := d.custom.map (quantF 32 (-MAX_FLOAT) MAX_FLOAT) }

/-! ### Perceptions -/

structure Perception.HeaderFits (p : Perception) : Prop where
  id : U 8 p.id
  priority : ∀ v ∈ p.priority, U 8 v
  description : p.description.length < 256
  modality : p.perceptionModality < 256
  avatarId : U 8 p.avatarId
  scheme : ∀ s ∈ p.effectSemanticScheme, s.length < 256
  unitExponent : ∀ v ∈ p.unitExponent, I8 v
  perceptionUnitExponent : ∀ v ∈ p.perceptionUnitExponent, I8 v
  deviceCount : p.referenceDevices.length < 256
  devices : ∀ d ∈ p.referenceDevices, d.Fits

/-- The perception without channels and library, which come in packets of their own; the unit exponents
default to -3 and 0. -/
def Perception.receivedHeader (p : Perception) : Perception :=
  { p with
    priority := receivedPriority p.priority
    unitExponent := some (p.unitExponent.getD (-3))
    perceptionUnitExponent := some (p.perceptionUnitExponent.getD 0)
    referenceDevices := p.referenceDevices.map ReferenceDevice.received
    channels := []
    effectLibrary := [] }

/-! ### Channels -/

structure Channel.HeaderFits (c : Channel) : Prop where
  id : U 16 c.id
  priority : ∀ v ∈ c.priority, U 8 v
  description : c.description.length < 256
  /-- 255 means "no device" -/
  referenceDeviceId : ∀ v ∈ c.referenceDeviceId, 0 ≤ v ∧ v < 255
  bodyPartMask : c.bodyPartMask < 2 ^ 32
  resolution : ∀ v ∈ c.actuatorResolution, v.Fits
  bodyPartTargetCount : (c.bodyPartTarget.getD []).length < 256
  bodyPartTarget : ∀ v ∈ c.bodyPartTarget.getD [], v < 256
  actuatorTargetCount : (c.actuatorTarget.getD []).length < 256
  actuatorTarget : ∀ v ∈ c.actuatorTarget.getD [], v.Fits
  frequencySampling : ∀ f ∈ c.frequencySampling, f < 2 ^ 31
  sampleCount : ∀ f ∈ c.sampleCount, f < 2 ^ 32
  direction : ∀ v ∈ c.direction, v.Fits
  vertexCount : c.vertices.length < 65536
  vertices : ∀ v ∈ c.vertices, -2 ^ 31 ≤ v ∧ v < 2 ^ 31

/-- The channel without its bands.  A channel either has a body part mask or an actuator resolution with
targets; a sampling frequency of 0 is none, and without it there is no sample count. -/
def Channel.receivedHeader (c : Channel) : Channel :=
  { c with
    priority := receivedPriority c.priority
    gain := quantF 32 (-MAX_FLOAT) MAX_FLOAT c.gain
    mixingWeight := quantF 32 0 MAX_FLOAT c.mixingWeight
    bodyPartMask := if c.actuatorResolution.isSome then 0 else c.bodyPartMask
    bodyPartTarget := if c.actuatorResolution.isSome then some (c.bodyPartTarget.getD []) else none
    actuatorTarget := if c.actuatorResolution.isSome then some (c.actuatorTarget.getD []) else none
    frequencySampling := c.frequencySampling.filter (· ≠ 0)
    sampleCount := if 0 < c.frequencySampling.getD 0 then some (c.sampleCount.getD 0) else none
    bands := [] }

/-! ### Bands -/

structure Band.HeaderFits (b : Band) : Prop where
  bandType : b.bandType < 8
  curveType : b.bandType = BandType.Curve → b.curveTypeOrDefault < 16
  blockLength : b.bandType = BandType.WaveletWave → U 8 b.blockLengthOrDefault
  priority : ∀ v ∈ b.priority, U 8 v
  low : U 16 b.lowerFrequencyLimit
  up : U 16 b.upperFrequencyLimit

/-- The band without its effects; only curve bands have a curve type (default 0), only wavelet bands a
block length (the default value of a band's block length is 0). -/
def Band.receivedHeader (b : Band) : Band :=
  { b with
    priority := receivedPriority b.priority
    curveType := if b.bandType = BandType.Curve then some b.curveTypeOrDefault else none
    blockLength := if b.bandType = BandType.WaveletWave then some b.blockLengthOrDefault else some 0
    effects := [] }

/-! ### Effect library -/

structure Keyframe.Fits (k : Keyframe) : Prop where
  position : ∀ v ∈ k.relativePosition, U 16 v
  frequency : ∀ v ∈ k.frequencyModulation, U 16 v

/-- Amplitudes are quantised on 8 bits over [-1,1]. -/
def Keyframe.received (k : Keyframe) : Keyframe :=
  { k with amplitudeModulation := k.amplitudeModulation.map (quantF 8 (-MAX_AMPLITUDE) MAX_AMPLITUDE) }

/-- Every effect of the tree fits. -/
inductive Effect.LibFits : Effect → Prop
  | mk (e : Effect) (id : U 16 e.id) (type : e.effectType < 4) (position : U 25 e.position)
      (semantic : ∀ s ∈ e.semantic, (semanticCode s).isSome)
      (baseSignal : ∀ v ∈ e.baseSignal, v < 16)
      (keyframeCount : e.keyframes.length < 65536) (keyframes : ∀ k ∈ e.keyframes, k.Fits)
      (timelineCount : e.timeline.length < 65536) (timeline : ∀ t ∈ e.timeline, LibFits t) :
      LibFits e

/-- Basis effects have a phase (quantised on 16 bits over [0, MAX_PHASE], default 0) and a base signal
(default 0), other effects have neither. -/
def Effect.received : Effect → Effect
  | ⟨id, position, phase, semantic, keyframes, baseSignal, effectType, timeline, _⟩ =>
    { id := id, position := position, semantic := semantic, effectType := effectType
      phase := if effectType = EffectType.Basis then some (quantF 16 0 MAX_PHASE (phase.getD 0)) else none
      baseSignal := if effectType = EffectType.Basis then some (baseSignal.getD 0) else none
      keyframes := keyframes.map Keyframe.received
      timeline := timeline.map Effect.received
      waveletBitstream := [] }

end Haptics
