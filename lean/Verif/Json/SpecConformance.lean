import Verif.Json.SpecRegex

/-! What C34 says: the rules an accepted experience meets. -/

namespace Haptics.Json
open Haptics

/-- The text of a literal. -/
def text (s : String) : Str := s.toUTF8.toList

/-- An effect in a band.  References lead to an effect of the library of the perception. -/
structure ConformantEffect (e : Experience) (p : Perception) (b : Band) (f : Effect) : Prop where
  simple : e.profile = text "Simple Parametric" → f.effectType ≠ EffectType.Composite
  wavelet : b.bandType = BandType.WaveletWave → f.keyframes = []
  reference : f.effectType = EffectType.Reference → ∃ l ∈ p.effectLibrary, l.id = f.id
  semantic : ∀ s, f.semantic = some s → ∃ n, (s, n) ∈ stringToEffectSemantic

structure ConformantBand (e : Experience) (p : Perception) (b : Band) : Prop where
  curve : b.bandType ≠ BandType.Curve → b.curveType = none
  /-- The block length of a wavelet band is a power of two. -/
  block : b.bandType = BandType.WaveletWave → ∃ k : Nat, b.blockLength = some (2 ^ k)
  simple : e.profile = text "Simple Parametric" → b.bandType ≠ BandType.WaveletWave
  limits : b.lowerFrequencyLimit ≤ b.upperFrequencyLimit
  effects : ∀ f ∈ b.effects, ConformantEffect e p b f

structure ConformantChannel (e : Experience) (p : Perception) (c : Channel) : Prop where
  device : ∀ id, c.referenceDeviceId = some id → ∃ d ∈ p.referenceDevices, d.id = id
  /-- The direction has a length of 1, up to one per cent. -/
  direction : ∀ v, c.direction = some v →
    (99 / 100 * 127) ^ 2 ≤ ((v.X ^ 2 + v.Y ^ 2 + v.Z ^ 2 : Int) : Rat) ∧
      ((v.X ^ 2 + v.Y ^ 2 + v.Z ^ 2 : Int) : Rat) ≤ (101 / 100 * 127) ^ 2
  bandCount : (e.level = 1 → c.bands.length ≤ 7) ∧ (e.level = 2 → c.bands.length ≤ 63)
  resolution : ∀ r, c.actuatorResolution = some r → 0 ≤ r.X ∧ 0 ≤ r.Y ∧ 0 ≤ r.Z
  /-- Targets lie within the resolution, which must be given. -/
  targets : ∀ l, c.actuatorTarget = some l → ∃ r, c.actuatorResolution = some r ∧
    ∀ t ∈ l, (0 ≤ t.X ∧ t.X ≤ r.X) ∧ (0 ≤ t.Y ∧ t.Y ≤ r.Y) ∧ (0 ≤ t.Z ∧ t.Z ≤ r.Z)
  bands : ∀ b ∈ c.bands, ConformantBand e p b

structure ConformantDevice (d : ReferenceDevice) : Prop where
  order : ∀ lo hi, d.minimumFrequency = some lo → d.maximumFrequency = some hi → lo ≤ hi
  above : ∀ lo f, d.minimumFrequency = some lo → d.resonanceFrequency = some f → lo ≤ f
  below : ∀ hi f, d.maximumFrequency = some hi → d.resonanceFrequency = some f → f ≤ hi

structure ConformantPerception (e : Experience) (p : Perception) : Prop where
  /-- Level 1 of the simple profile has Force, Vibrotactile, Stiffness and Vibrotactile Texture only. -/
  modality : e.profile = text "Simple Parametric" → e.level = 1 → p.perceptionModality ∈ [9, 6, 11, 10]
  avatar : p.avatarId = 0 ∨ ∃ a ∈ e.avatars, a.id = p.avatarId
  scheme : p.effectSemanticScheme = none
  channelCount : (e.level = 1 → p.channels.length ≤ 127) ∧ (e.level = 2 → p.channels.length ≤ 65535)
  deviceIds : (p.referenceDevices.map (·.id)).Nodup
  devices : ∀ d ∈ p.referenceDevices, ConformantDevice d
  channelIds : (p.channels.map (·.id)).Nodup
  channels : ∀ c ∈ p.channels, ConformantChannel e p c
  libraryIds : (p.effectLibrary.map (·.id)).Nodup
  library : e.profile = text "Simple Parametric" → ∀ f ∈ p.effectLibrary, f.effectType ≠ EffectType.Composite

structure Conformant (e : Experience) : Prop where
  version : IsVersion e.version
  date : HasFourDigits e.date
  profile : e.profile = text "Main" ∨ e.profile = text "Simple Parametric"
  level : e.level = 1 ∨ e.level = 2
  timescale : ∀ t, e.timescale = some t →
    (e.profile = text "Simple Parametric" → t = 1000) ∧ (e.profile = text "Main" → t ≤ 48000)
  avatarIds : (e.avatars.map (·.id)).Nodup
  avatars : ∀ a ∈ e.avatars, a.id ≠ 0 ∧ a.mesh ≠ some []
  perceptionIds : (e.perceptions.map (·.id)).Nodup
  perceptions : ∀ p ∈ e.perceptions, ConformantPerception e p

/-- The block lengths of the wavelet bands fit an `int`, without the smallest one. -/
def BlockLengthsFit (e : Experience) : Prop :=
  ∀ p ∈ e.perceptions, ∀ c ∈ p.channels, ∀ b ∈ c.bands, ∀ n, b.blockLength = some n → -2 ^ 31 < n ∧ n < 2 ^ 31

end Haptics.Json
