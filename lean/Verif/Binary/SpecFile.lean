import Verif.Binary.SpecBands

/-
What a binary file can represent, and what a reader is entitled to find.  Nothing here refers to the
writers or readers.
-/
namespace Haptics

/-- The timescale of an experience, in ticks per second. -/
def Experience.ticksPerSecond (h : Experience) : Nat := h.timescale.getD 1000

structure Avatar.FileFits (a : Avatar) : Prop where
  id : U 8 a.id
  lod : U 8 a.lod
  type : a.type < 256
  mesh : (a.mesh.getD []).length < 256

/-- Custom avatars (type 0), and only they, have a mesh. -/
def Avatar.stored (a : Avatar) : Avatar :=
  { a with mesh := if a.type = 0 then some (a.mesh.getD []) else none }

/-- A library effect without a timeline. -/
structure Effect.LibFileFits (e : Effect) : Prop where
  id : U 16 e.id
  position : U 25 e.position
  type : e.effectType < 4
  baseSignal : ∀ v ∈ e.baseSignal, v < 16
  keyframeCount : e.keyframes.length < 65536
  keyframes : ∀ k ∈ e.keyframes, k.Fits
  timeline : e.timeline = []

/-- Basis effects have a phase (quantised on 16 bits over [0, MAX_PHASE], default 0) and a base signal
(default 0), other effects have neither; semantics are not stored. -/
def Effect.libStored (e : Effect) : Effect :=
  { id := e.id, position := e.position, effectType := e.effectType
    phase := if e.effectType = EffectType.Basis then some (quantF 16 0 MAX_PHASE (e.phase.getD 0)) else none
    baseSignal := if e.effectType = EffectType.Basis then some (e.baseSignal.getD 0) else none
    keyframes := e.keyframes.map Keyframe.received }

/-- A channel has the number of a reference device. -/
structure Channel.FileFits (c : Channel) : Prop where
  id : -2 ^ 15 ≤ c.id ∧ c.id < 2 ^ 15
  description : c.description.length < 256
  referenceDeviceId : ∃ v, c.referenceDeviceId = some v ∧ U 8 v
  bodyPartMask : c.bodyPartMask < 2 ^ 32
  resolution : ∀ v ∈ c.actuatorResolution, v.Fits
  bodyPartTargetCount : (c.bodyPartTarget.getD []).length < 256
  bodyPartTarget : ∀ v ∈ c.bodyPartTarget.getD [], v < 256
  actuatorTargetCount : (c.actuatorTarget.getD []).length < 256
  actuatorTarget : ∀ v ∈ c.actuatorTarget.getD [], v.Fits
  frequencySampling : ∀ f ∈ c.frequencySampling, f < 2 ^ 32
  sampleCount : ∀ f ∈ c.sampleCount, f < 2 ^ 32
  direction : ∀ v ∈ c.direction, v.Fits
  vertexCount : c.vertices.length < 65536
  vertices : ∀ v ∈ c.vertices, -2 ^ 31 ≤ v ∧ v < 2 ^ 31
  bandCount : c.bands.length < 256

/-- The channel, its bands replaced by `bands`.  A channel either has a body part mask or an actuator
resolution with targets; a sampling frequency of 0 is none, and without it there is no sample count;
priorities are not stored. -/
def Channel.storedWith (c : Channel) (bands : List Band) : Channel :=
  { c with
    priority := none
    gain := quantF 32 (-MAX_FLOAT) MAX_FLOAT c.gain
    mixingWeight := quantF 32 0 MAX_FLOAT c.mixingWeight
    bodyPartMask := if c.actuatorResolution.isSome then 0 else c.bodyPartMask
    bodyPartTarget := if c.actuatorResolution.isSome then some (c.bodyPartTarget.getD []) else none
    actuatorTarget := if c.actuatorResolution.isSome then some (c.actuatorTarget.getD []) else none
    frequencySampling := c.frequencySampling.filter (· ≠ 0)
    sampleCount := if 0 < c.frequencySampling.getD 0 then some (c.sampleCount.getD 0) else none
    bands := bands }

structure Perception.FileFits (p : Perception) : Prop where
  id : U 8 p.id
  description : p.description.length < 256
  modality : p.perceptionModality < 256
  avatarId : U 8 p.avatarId
  unitExponent : ∀ v ∈ p.unitExponent, I8 v
  perceptionUnitExponent : ∀ v ∈ p.perceptionUnitExponent, I8 v
  libraryCount : p.effectLibrary.length < 65536
  library : ∀ e ∈ p.effectLibrary, e.LibFileFits
  deviceCount : p.referenceDevices.length < 256
  devices : ∀ d ∈ p.referenceDevices, d.Fits
  channelCount : p.channels.length < 65536
  channels : ∀ c ∈ p.channels, c.FileFits

/-- The perception, its channels replaced by `channels`; the unit exponents default to -3 and 0; priority
and semantic scheme are not stored. -/
def Perception.storedWith (p : Perception) (channels : List Channel) : Perception :=
  { p with
    priority := none
    effectSemanticScheme := none
    unitExponent := some (p.unitExponent.getD (-3))
    perceptionUnitExponent := some (p.perceptionUnitExponent.getD 0)
    effectLibrary := p.effectLibrary.map Effect.libStored
    referenceDevices := p.referenceDevices.map ReferenceDevice.received
    channels := channels }

structure Experience.FileFits (h : Experience) : Prop where
  version : h.version.length < 256
  profile : h.profile.length < 256
  level : h.level < 256
  date : h.date.length < 256
  description : h.description.length < 256
  avatarCount : h.avatars.length < 256
  avatars : ∀ a ∈ h.avatars, a.FileFits
  perceptionCount : h.perceptions.length < 256
  perceptions : ∀ p ∈ h.perceptions, p.FileFits

/-- The header of `h` read into the experience `out`: bands are still empty. -/
def Experience.storedHeader (h out : Experience) : Experience :=
  { out with
    version := h.version, profile := h.profile, level := h.level, date := h.date
    description := h.description
    avatars := out.avatars ++ h.avatars.map Avatar.stored
    perceptions := out.perceptions ++ h.perceptions.map (fun p =>
      p.storedWith (p.channels.map (fun c => c.storedWith (List.replicate c.bands.length {})))) }

/-- A band that fits the format.  A wavelet band has blocks of a power of two of samples, one after the
other without gaps. -/
structure Band.FileFits (timescale : Nat) (b : Band) : Prop where
  type : b.bandType ≤ BandType.WaveletWave
  header : b.FileHeaderFits
  effects : ∀ e ∈ b.effects, e.FileFits b.bandType
  block : b.bandType = BandType.WaveletWave → ∃ k, b.BlockIs timescale k
  reciprocal : b.bandType = BandType.WaveletWave → ReciprocalExact b.upperFrequencyLimit
  positions : b.bandType = BandType.WaveletWave → ∀ (i : Nat) e, b.effects[i]? = some e →
    e.effectType = EffectType.Basis →
    e.position = ((i : Int) * b.blockLength.getD 0 * timescale).tdiv b.upperFrequencyLimit

/-- The band read back. -/
def Band.stored (b : Band) : Band := { b.storedHeader with effects := b.storedEffects }

/-- The experience `h` read into the experience `out`.  The timescale is not stored: it stays that of
`out`. -/
def Experience.stored (h out : Experience) : Experience :=
  { h.storedHeader out with
    perceptions := out.perceptions ++ h.perceptions.map (fun p =>
      p.storedWith (p.channels.map (fun c => c.storedWith (c.bands.map Band.stored)))) }

end Haptics
