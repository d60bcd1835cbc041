import Verif.Bits.Model
import Verif.Types.Semantic
import Mathlib.Data.Rat.Defs

/-
Data types of the haptic experience: /repo/source/Types/include.
Enumerations are kept as the integers the binary formats store (a C++ `enum class` with underlying
`int` can hold any such value); `float`/`double` values are rationals; text is a list of bytes, except
effect semantics, which the code only ever compares with and looks up in a table.
-/
namespace Haptics

/-- Text of `std::string` as bytes. -/
abbrev Str := List UInt8

/-! BandType.h:42-47 -/
abbrev BandType.Transient : Nat := 0
abbrev BandType.Curve : Nat := 1
abbrev BandType.VectorialWave : Nat := 2
abbrev BandType.WaveletWave : Nat := 3
/-! Effect.h:51 -/
abbrev EffectType.Basis : Nat := 0
abbrev EffectType.Reference : Nat := 1
abbrev EffectType.Composite : Nat := 2

/-- Keyframe.h:41-66. -/
structure Keyframe where
  relativePosition : Option Int := some 0
  amplitudeModulation : Option ℚ := none
  frequencyModulation : Option Int := none
deriving DecidableEq

/-- Effect.h:76-149.  `waveletSamples` (only filled when a wavelet is decoded for synthesis) is left
out. -/
structure Effect where
  id : Int := -1
  position : Int := 0
  phase : Option ℚ := none
  semantic : Option String := none
  keyframes : List Keyframe := []
  baseSignal : Option Nat := none
  effectType : Nat := EffectType.Basis
  timeline : List Effect := []
  waveletBitstream : List UInt8 := []

/-- Band.h:46-117. -/
structure Band where
  bandType : Nat := BandType.VectorialWave
  curveType : Option Nat := none
  blockLength : Option Int := some 0
  lowerFrequencyLimit : Int := 0
  upperFrequencyLimit : Int := 0
  effects : List Effect := []
  priority : Option Int := none

/-- Channel.h:57-140. -/
structure Channel where
  id : Int := -1
  description : Str := []
  gain : ℚ := 1
  mixingWeight : ℚ := 1
  bodyPartMask : Nat := 0
  vertices : List Int := []
  bands : List Band := []
  priority : Option Int := none
  referenceDeviceId : Option Int := none
  frequencySampling : Option Nat := none
  sampleCount : Option Nat := none
  direction : Option Vector3 := none
  actuatorResolution : Option Vector3 := none
  bodyPartTarget : Option (List Nat) := none
  actuatorTarget : Option (List Vector3) := none

/-- ReferenceDevice.h:58-110. -/
structure ReferenceDevice where
  id : Int := -1
  name : Str := []
  bodyPartMask : Option Nat := none
  maximumFrequency : Option ℚ := none
  minimumFrequency : Option ℚ := none
  resonanceFrequency : Option ℚ := none
  maximumAmplitude : Option ℚ := none
  impedance : Option ℚ := none
  maximumVoltage : Option ℚ := none
  maximumCurrent : Option ℚ := none
  maximumDisplacement : Option ℚ := none
  weight : Option ℚ := none
  size : Option ℚ := none
  custom : Option ℚ := none
  type : Option Nat := none
deriving DecidableEq

/-- Avatar.h:60-80. -/
structure Avatar where
  id : Int := -1
  lod : Int := 0
  type : Nat := 0
  mesh : Option Str := none
deriving DecidableEq

/-- Perception.h:97-177. -/
structure Perception where
  id : Int := -1
  avatarId : Int := -1
  description : Str := []
  priority : Option Int := none
  effectSemanticScheme : Option Str := none
  perceptionModality : Nat := 0
  channels : List Channel := []
  referenceDevices : List ReferenceDevice := []
  unitExponent : Option Int := none
  perceptionUnitExponent : Option Int := none
  effectLibrary : List Effect := []

/-- Sync.h:40-57. -/
structure Sync where
  timestamp : Int := -1
  timescale : Option Nat := some 1000
deriving DecidableEq

/-- Haptics.h:47-102. -/
structure Experience where
  version : Str := []
  profile : Str := [77, 97, 105, 110]
  level : Nat := 1
  date : Str := []
  description : Str := []
  perceptions : List Perception := []
  avatars : List Avatar := []
  timescale : Option Nat := some 1000
  syncs : List Sync := []

/-! Accessors with default values. -/

/-- Band.cpp:44-49, Channel.cpp:47-52, Perception.cpp:67-72. -/
def priorityOrDefault (p : Option Int) : Int := p.getD 0
/-- Band.cpp:52-57. -/
def Band.curveTypeOrDefault (b : Band) : Nat := b.curveType.getD 0
/-- Band.cpp:62-67. -/
def Band.blockLengthOrDefault (b : Band) : Int := b.blockLength.getD 0
/-- Effect.cpp:53-58, Effect.h:135. -/
def Effect.phaseOrDefault (e : Effect) : ℚ := e.phase.getD 0
/-- Effect.cpp:64-69, Effect.h:136. -/
def Effect.baseSignalOrDefault (e : Effect) : Nat := e.baseSignal.getD 0
/-- Perception.cpp:88-90, Perception.h:161. -/
def Perception.unitExponentOrDefault (p : Perception) : Int := p.unitExponent.getD (-3)
/-- Perception.cpp:100-102, Perception.h:162. -/
def Perception.perceptionUnitExponentOrDefault (p : Perception) : Int :=
  p.perceptionUnitExponent.getD 0

/-- Structural induction on effects with an induction hypothesis for every timeline effect. -/
theorem Effect.induct {P : Effect → Prop}
    (h : ∀ e : Effect, (∀ t ∈ e.timeline, P t) → P e) (e : Effect) : P e := by
  match e with
  | ⟨a, b, c, d, k, f, g, tl, w⟩ =>
    apply h
    intro t ht
    exact Effect.induct h t
termination_by sizeOf e
decreasing_by
  have := List.sizeOf_lt_of_mem ht
  simp only [Effect.mk.sizeOf_spec] at this ⊢
  omega

end Haptics
