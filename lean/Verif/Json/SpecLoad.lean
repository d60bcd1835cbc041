import Verif.Json.Tree
import Verif.Json.SpecConformance

/-!
What the JSON tree of a `.hjif` file has to look like to be loaded completely, and the experience it stands for.
-/

namespace Haptics.Json.Shape
open Haptics

/-- The object `j` has the member `key`, and `P` holds of its value. -/
def With (j : Json) (key : String) (P : Json → Prop) : Prop := ∃ v, j.get? key = some v ∧ P v

/-- If the object `j` has the member `key`, `P` holds of its value. -/
def Maybe (j : Json) (key : String) (P : Json → Prop) : Prop := ∀ v, j.get? key = some v → P v

/-- The integer `i`, of 32 bits. -/
def IsInt (i : Int) : Json → Prop
  | .num k => k = i ∧ -2 ^ 31 ≤ i ∧ i < 2 ^ 31
  | _ => False

/-- The number `n`, of 32 bits without a sign. -/
def IsCount (n : Nat) : Json → Prop
  | .num k => k = n ∧ n < 2 ^ 32
  | _ => False

/-- A number and the nearest single precision value. -/
def IsNumber (q : ℚ) : Json → Prop
  | .num k => q = fl32 k
  | .dbl d => q = fl32 d
  | _ => False

/-- A string and the text before its first zero byte. -/
def IsText (s : Str) : Json → Prop
  | .str t => s = t.takeWhile (· ≠ 0)
  | _ => False

/-- A name and its number in a table. -/
def IsName (table : List (String × Nat)) (n : Nat) : Json → Prop
  | .str t => ∃ name, (name, n) ∈ table ∧ t.takeWhile (· ≠ 0) = text name
  | _ => False

/-- The array `l`. -/
def IsArray (l : List Json) : Json → Prop
  | .arr k => k = l
  | _ => False

/-- An array, with `P` for each of its elements. -/
def Each (P : Json → Prop) (v : Json) : Prop := ∃ l, IsArray l v ∧ ∀ x ∈ l, P x

def effectTypes : List (String × Nat) := [("Basis", 0), ("Reference", 1), ("Composite", 2)]
def baseSignals : List (String × Nat) :=
  [("Sine", 0), ("Square", 1), ("Triangle", 2), ("SawToothUp", 3), ("SawToothDown", 4)]
def bandTypes : List (String × Nat) := [("Transient", 0), ("Curve", 1), ("VectorialWave", 2), ("WaveletWave", 3)]
def curveTypes : List (String × Nat) :=
  [("Unknown", 0), ("Cubic", 1), ("Linear", 2), ("Akima", 3), ("Bezier", 4), ("Bspline", 5)]
def avatarTypes : List (String × Nat) := [("Custom", 0), ("Vibration", 1), ("Pressure", 2), ("Temperature", 3)]
def actuatorTypes : List (String × Nat) := [("Unknown", 0), ("LRA", 1), ("VCA", 2), ("ERM", 3), ("Piezo", 4)]
def modalities : List (String × Nat) :=
  [("Other", 0), ("Pressure", 1), ("Acceleration", 2), ("Velocity", 3), ("Position", 4), ("Temperature", 5),
   ("Vibrotactile", 6), ("Vibration", 6), ("Water", 7), ("Wind", 8), ("Force", 9), ("Kinesthetic", 9),
   ("Vibrotactile Texture", 10), ("Texture", 10), ("Stiffness", 11), ("Friction", 12), ("Electrotactile", 13)]
def bodyPartNames : List (String × Nat) :=
  [("Unknown", 0), ("All", 1), ("Top", 10), ("Down", 11), ("Right", 12), ("Left", 13), ("Front", 14), ("Back", 15),
   ("Arm", 20), ("Head", 21), ("Chest", 22), ("Waist", 23), ("Leg", 24), ("Upper-arm", 30), ("Forearm", 31),
   ("Hand", 32), ("Crane", 33), ("Neck", 34), ("Thigh", 35), ("Calf", 36), ("Foot", 37), ("Palm", 40),
   ("Finger", 41), ("Sole", 42), ("Toe", 43), ("Thumb", 50), ("Index", 51), ("Middle", 52), ("Ring", 53),
   ("Pinky", 54), ("Hallux", 55), ("Index-toe", 56), ("Middle-toe", 57), ("Ring-toe", 58), ("Pinky-toe", 59),
   ("First Phalanx", 60), ("Second Phalanx", 61), ("Third Phalanx", 62), ("Minus", 254), ("Plus", 255)]

/-- The text of a wavelet payload: base64 characters, not all of them the one for zero. -/
def IsPayload : Json → Prop
  | .str s => s = [] ∨ ∃ c ∈ s, c ≠ 65
  | _ => False

/-! ### The form of a file -/

/-- An effect of a band, or of an effect library when `library`. -/
structure EffectFormed (library wavelet : Prop) (j : Json) : Prop where
  type : ∃ n, With j "effect_type" (IsName effectTypes n)
  position : ∃ i, With j "position" (IsInt i)
  id : library ∨ With j "effect_type" (IsName effectTypes 1) → ∃ i, With j "id" (IsInt i)
  baseSignal : Maybe j "base_signal" (fun v => ∃ n, IsName baseSignals n v)
  keyframes : Maybe j "keyframes" (Each (fun k => k.isObject = true))
  stream : ¬library → Maybe j "wavelet_stream" IsPayload
  wave : wavelet → With j "effect_type" (IsName effectTypes 0) → ∃ v, j.get? "wavelet_stream" = some v

structure BandFormed (j : Json) : Prop where
  type : ∃ n, With j "band_type" (IsName bandTypes n)
  lower : ∃ i, With j "lower_frequency_limit" (IsInt i)
  upper : ∃ i, With j "upper_frequency_limit" (IsInt i)
  curve : Maybe j "curve_type" (fun v => ∃ n, IsName curveTypes n v)
  block : With j "band_type" (IsName bandTypes 3) → ∃ i, With j "block_length" (IsInt i) ∧ 0 ≤ i
  effects : With j "effects" (Each (EffectFormed False (With j "band_type" (IsName bandTypes 3))))

structure ChannelFormed (j : Json) : Prop where
  id : ∃ i, With j "id" (IsInt i)
  description : ∃ s, With j "description" (IsText s)
  gain : ∃ q, With j "gain" (IsNumber q)
  mixing : ∃ q, With j "mixing_coefficient" (IsNumber q)
  mask : ∃ n, With j "body_part_mask" (IsCount n)
  target : Maybe j "body_part_target" (Each (fun v => ∃ n, IsName bodyPartNames n v))
  bands : With j "bands" (Each BandFormed)

structure DeviceFormed (j : Json) : Prop where
  id : ∃ i, With j "id" (IsInt i)
  name : ∃ s, With j "name" (IsText s)
  type : Maybe j "type" (fun v => ∃ n, IsName actuatorTypes n v)

structure AvatarFormed (j : Json) : Prop where
  id : ∃ i, With j "id" (IsInt i)
  lod : ∃ i, With j "lod" (IsInt i)
  type : ∃ n, With j "type" (IsName avatarTypes n)

structure PerceptionFormed (j : Json) : Prop where
  id : ∃ i, With j "id" (IsInt i)
  avatar : ∃ i, With j "avatar_id" (IsInt i)
  description : ∃ s, With j "description" (IsText s)
  modality : ∃ n, With j "perception_modality" (IsName modalities n)
  library : With j "effect_library" (Each (EffectFormed True False))
  channels : With j "channels" (Each ChannelFormed)
  devices : Maybe j "reference_devices" (Each DeviceFormed)

structure SyncFormed (j : Json) : Prop where
  timestamp : ∃ i, With j "timestamp" (IsInt i)

/-- The form of a whole file. -/
structure Formed (j : Json) : Prop where
  version : ∃ s, With j "version" (IsText s)
  profile : ∃ s, With j "profile" (IsText s)
  level : ∃ n, With j "level" (IsCount n)
  date : ∃ s, With j "date" (IsText s)
  description : ∃ s, With j "description" (IsText s)
  timescale : ∃ n, With j "timescale" (IsCount n)
  avatars : With j "avatars" (Each AvatarFormed)
  perceptions : With j "perceptions" (Each PerceptionFormed)
  syncs : With j "syncs" (Each SyncFormed)

/-! ### What a file stands for -/

/-- The elements of the array `key` of `j`, in order, stand for those of `l`; without the array there are none. -/
def Elements {α : Type} (R : Json → α → Prop) (j : Json) (key : String) (l : List α) : Prop :=
  (∃ a, With j key (IsArray a) ∧ List.Forall₂ R a l) ∨ (j.get? key = none ∧ l = [])

structure KeyframeOf (j : Json) (k : Keyframe) : Prop where
  position : ∀ i, With j "relative_position" (IsInt i) → k.relativePosition = some i
  amplitude : ∀ q, With j "amplitude_modulation" (IsNumber q) → k.amplitudeModulation = some q
  frequency : ∀ i, With j "frequency_modulation" (IsInt i) → k.frequencyModulation = some i
  noPosition : j.get? "relative_position" = none → k.relativePosition = none
  noAmplitude : j.get? "amplitude_modulation" = none → k.amplitudeModulation = none
  noFrequency : j.get? "frequency_modulation" = none → k.frequencyModulation = none

structure EffectOf (j : Json) (e : Effect) : Prop where
  type : With j "effect_type" (IsName effectTypes e.effectType)
  position : With j "position" (IsInt e.position)
  id : ∀ i, With j "id" (IsInt i) → e.id = i
  phase : ∀ q, With j "phase" (IsNumber q) → e.phase = some q
  signal : (∃ n, e.baseSignal = some n ∧ With j "base_signal" (IsName baseSignals n)) ∨
    (j.get? "base_signal" = none ∧ e.baseSignal = none)
  keyframes : Elements KeyframeOf j "keyframes" e.keyframes

/-- The effects of a band are sorted by their positions. -/
structure BandOf (j : Json) (b : Band) : Prop where
  type : With j "band_type" (IsName bandTypes b.bandType)
  lower : With j "lower_frequency_limit" (IsInt b.lowerFrequencyLimit)
  upper : With j "upper_frequency_limit" (IsInt b.upperFrequencyLimit)
  block : b.bandType = 3 → ∃ i, b.blockLength = some i ∧ With j "block_length" (IsInt i)
  effects : ∃ l, Elements EffectOf j "effects" l ∧ b.effects.Perm l
  sorted : b.effects.Pairwise (fun f g => f.position ≤ g.position)

structure ChannelOf (j : Json) (c : Channel) : Prop where
  id : With j "id" (IsInt c.id)
  description : With j "description" (IsText c.description)
  gain : With j "gain" (IsNumber c.gain)
  mixing : With j "mixing_coefficient" (IsNumber c.mixingWeight)
  mask : With j "body_part_mask" (IsCount c.bodyPartMask)
  target : (∃ l, c.bodyPartTarget = some l ∧ Elements (fun v n => IsName bodyPartNames n v) j "body_part_target" l) ∨
    (j.get? "body_part_target" = none ∧ c.bodyPartTarget = none)
  bands : Elements BandOf j "bands" c.bands

structure DeviceOf (j : Json) (d : ReferenceDevice) : Prop where
  id : With j "id" (IsInt d.id)
  name : With j "name" (IsText d.name)
  type : (∃ n, d.type = some n ∧ With j "type" (IsName actuatorTypes n)) ∨ (j.get? "type" = none ∧ d.type = none)

structure AvatarOf (j : Json) (a : Avatar) : Prop where
  id : With j "id" (IsInt a.id)
  lod : With j "lod" (IsInt a.lod)
  type : With j "type" (IsName avatarTypes a.type)

structure PerceptionOf (j : Json) (p : Perception) : Prop where
  id : With j "id" (IsInt p.id)
  avatar : With j "avatar_id" (IsInt p.avatarId)
  description : With j "description" (IsText p.description)
  modality : With j "perception_modality" (IsName modalities p.perceptionModality)
  library : Elements EffectOf j "effect_library" p.effectLibrary
  channels : Elements ChannelOf j "channels" p.channels
  devices : Elements DeviceOf j "reference_devices" p.referenceDevices

structure SyncOf (j : Json) (s : Sync) : Prop where
  timestamp : With j "timestamp" (IsInt s.timestamp)
  timescale : ∀ n, With j "timescale" (IsCount n) → s.timescale = some n

/-- The experience `e` is what the file `j` says. -/
structure ExperienceOf (j : Json) (e : Experience) : Prop where
  version : With j "version" (IsText e.version)
  profile : With j "profile" (IsText e.profile)
  level : ∃ n, With j "level" (IsCount n) ∧ e.level = n % 256
  date : With j "date" (IsText e.date)
  description : With j "description" (IsText e.description)
  timescale : ∃ n, With j "timescale" (IsCount n) ∧ e.timescale = some n
  avatars : Elements AvatarOf j "avatars" e.avatars
  perceptions : Elements PerceptionOf j "perceptions" e.perceptions
  syncs : Elements SyncOf j "syncs" e.syncs

end Haptics.Json.Shape
