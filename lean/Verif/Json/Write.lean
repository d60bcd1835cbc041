import Verif.Json.Tree
import Verif.Json.Base64

/-!
Writing `.hjif` files: `IOJson::writeFile` and the `extract` functions, IOJson.cpp:1222-1680, up to the JSON tree.
-/

namespace Haptics.Json
open Haptics

/-- `rapidjson::Value(text.c_str(), allocator)`. -/
def textValue (s : Str) : Json := .str (cstr s)

/-- `rapidjson::Value` of an `unsigned int`. -/
def unsignedValue (n : Nat) : Json := .num n

/-- IOJson.cpp:1674-1680 `extractVector`. -/
def extractVector (v : Vector3) : Json :=
  mk [("X", some (.num v.X)), ("Y", some (.num v.Y)), ("Z", some (.num v.Z))]

/-- IOJson.cpp:1369-1382, 1565-1584: a keyframe. -/
def extractKeyframe (k : Keyframe) : Json :=
  mk [("relative_position", k.relativePosition.map .num),
      ("amplitude_modulation", k.amplitudeModulation.map .dbl),
      ("frequency_modulation", k.frequencyModulation.map .num)]

/-- IOJson.cpp:1324-1337 `extractSyncs`, a synchronisation. -/
def extractSync (s : Sync) : Json :=
  mk [("timestamp", some (.num s.timestamp)),
      ("timescale", s.timescale.map unsignedValue)]

/-- IOJson.cpp:1339-1391 `extractLibrary`, a library effect. -/
def extractLibraryEffect (f : Effect) : Except Err Json := do
  let effectType ← at? effectTypeToString f.effectType
  let baseSignal ← optAll (at? baseSignalToString) f.baseSignal
  pure (mk [("effect_type", some (.str effectType)),
    ("id", some (.num f.id)),
    ("position", some (.num f.position)),
    ("phase", f.phase.map .dbl),
    ("base_signal", baseSignal.map .str),
    ("semantic_keywords", f.semantic.map (fun s => textValue (semanticBytes s))),
    ("keyframes", some (.arr (f.keyframes.map extractKeyframe)))])

/-- IOJson.cpp:1393-1412 `extractAvatars`, an avatar; Avatar.h:46 for `Custom`. -/
def extractAvatar (a : Avatar) : Except Err Json := do
  let type ← at? avatarTypeToString a.type
  pure (mk [("id", some (.num a.id)),
    ("lod", some (.num a.lod)),
    ("type", some (.str type)),
    ("mesh", if a.type = 0 then a.mesh.map textValue else none)])

/-- IOJson.cpp:1523-1588: an effect of a band of type `bandType`. -/
def extractEffect (bandType : Nat) (f : Effect) : Except Err Json := do
  let effectType ← at? effectTypeToString f.effectType
  let isBasis := f.effectType == EffectType.Basis
  let isKeyed := isBasis && (bandType == BandType.Transient || bandType == BandType.VectorialWave)
  let baseSignal ← if isKeyed then optAll (at? baseSignalToString) f.baseSignal else pure none
  let stream ← if isBasis && bandType == BandType.WaveletWave then
      (writePayload f.waveletBitstream).map some else pure none
  pure (mk [("effect_type", some (.str effectType)),
    ("position", some (.num f.position)),
    ("semantic_keywords", f.semantic.map (fun s => textValue (semanticBytes s))),
    ("id", if f.effectType = EffectType.Reference then some (.num f.id) else none),
    ("phase", if isKeyed then f.phase.map .dbl else none),
    ("base_signal", baseSignal.map .str),
    ("wavelet_stream", stream.map textValue),
    ("keyframes", if isBasis && bandType != BandType.WaveletWave then
      some (.arr (f.keyframes.map extractKeyframe)) else none)])

/-- IOJson.cpp:1491-1594 `extractBands`, a band. -/
def extractBand (b : Band) : Except Err Json := do
  let bandType ← at? bandTypeToString b.bandType
  let curveType ← if b.bandType = BandType.Curve then optAll (at? curveTypeToString) b.curveType else pure none
  let effects ← mapAll (extractEffect b.bandType) b.effects
  pure (mk [("band_type", some (.str bandType)),
    ("priority", b.priority.map .num),
    ("curve_type", curveType.map .str),
    ("block_length", if b.bandType = BandType.WaveletWave then some (.num b.blockLengthOrDefault) else none),
    ("lower_frequency_limit", some (.num b.lowerFrequencyLimit)),
    ("upper_frequency_limit", some (.num b.upperFrequencyLimit)),
    ("effects", some (.arr effects))])

/-- IOJson.cpp:1414-1489 `extractChannels`, a channel. -/
def extractChannel (c : Channel) : Except Err Json := do
  let bodyPartTarget ← optAll (mapAll (at? bodyPartTargetToString)) c.bodyPartTarget
  let bands ← mapAll extractBand c.bands
  pure (mk [("id", some (.num c.id)),
    ("description", some (textValue c.description)),
    ("gain", some (.dbl c.gain)),
    ("mixing_coefficient", some (.dbl c.mixingWeight)),
    ("body_part_mask", some (.num c.bodyPartMask)),
    ("priority", c.priority.map .num),
    ("reference_device_id", c.referenceDeviceId.map .num),
    ("frequency_sampling", c.frequencySampling.map unsignedValue),
    ("sample_count", c.sampleCount.map unsignedValue),
    ("direction", c.direction.map extractVector),
    ("actuator_resolution", c.actuatorResolution.map extractVector),
    ("body_part_target", bodyPartTarget.map (fun l => .arr (l.map .str))),
    ("actuator_target", c.actuatorTarget.map (fun l => .arr (l.map extractVector))),
    ("vertices", if 0 < c.vertices.length then some (.arr (c.vertices.map .num)) else none),
    ("bands", some (.arr bands))])

/-- IOJson.cpp:1596-1672 `extractReferenceDevices`, a device. -/
def extractDevice (d : ReferenceDevice) : Except Err Json := do
  let type ← optAll (at? actuatorTypeToString) d.type
  pure (mk [("id", some (.num d.id)),
    ("name", some (textValue d.name)),
    ("body_part_mask", d.bodyPartMask.map unsignedValue),
    ("maximum_frequency", d.maximumFrequency.map .dbl),
    ("minimum_frequency", d.minimumFrequency.map .dbl),
    ("resonance_frequency", d.resonanceFrequency.map .dbl),
    ("maximum_amplitude", d.maximumAmplitude.map .dbl),
    ("impedance", d.impedance.map .dbl),
    ("maximum_voltage", d.maximumVoltage.map .dbl),
    ("maximum_current", d.maximumCurrent.map .dbl),
    ("maximum_displacement", d.maximumDisplacement.map .dbl),
    ("weight", d.weight.map .dbl),
    ("size", d.size.map .dbl),
    ("custom", d.custom.map .dbl),
    ("type", type.map .str)])

/-- IOJson.cpp:1270-1322 `extractPerceptions`, a perception. -/
def extractPerception (p : Perception) : Except Err Json := do
  let modality ← at? perceptionModalityToString p.perceptionModality
  let devices ← mapAll extractDevice p.referenceDevices
  let library ← mapAll extractLibraryEffect p.effectLibrary
  let channels ← mapAll extractChannel p.channels
  pure (mk [("id", some (.num p.id)),
    ("avatar_id", some (.num p.avatarId)),
    ("description", some (textValue p.description)),
    ("perception_modality", some (.str modality)),
    ("priority", p.priority.map .num),
    ("unit_exponent", p.unitExponent.map .num),
    ("perception_unit_exponent", p.perceptionUnitExponent.map .num),
    ("reference_devices", some (.arr devices)),
    ("effect_library", some (.arr library)),
    ("effect_semantic_scheme", p.effectSemanticScheme.map textValue),
    ("channels", some (.arr channels))])

/-- IOJson.cpp:1222-1268 `writeFile`, the tree.  `now` is the text of the current time. -/
def writeTree (now : Str) (e : Experience) : Except Err Json := do
  let avatars ← mapAll extractAvatar e.avatars
  let perceptions ← mapAll extractPerception e.perceptions
  pure (mk [("version", some (if versionCheck e.version then textValue e.version else .str (lit "2023"))),
    ("profile", some (textValue e.profile)),
    ("level", some (.num e.level)),
    ("date", some (if dateCheck e.date then textValue e.date else textValue now)),
    ("description", some (textValue e.description)),
    ("timescale", e.timescale.map unsignedValue),
    ("avatars", some (.arr avatars)),
    ("perceptions", some (.arr perceptions)),
    ("syncs", some (.arr (e.syncs.map extractSync)))])

end Haptics.Json
