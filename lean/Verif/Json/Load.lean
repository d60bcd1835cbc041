import Verif.Json.Write
import Verif.Types.Ops

/-!
Loading `.hjif` files: `IOJson::loadFile` and the other `load` functions, IOJson.cpp:623-1220, from the JSON tree.

Every `load` function returns `true`, so that `loadingSuccess` stays `true` and no call is skipped.  Elements
without what is required are skipped with a message (`none`).
-/

namespace Haptics.Json
open Haptics

/-- IOJson.cpp:1209-1220 `loadVector`, IOJsonPrimitives.cpp:79-91 `getVector`. -/
def loadVector (j : Json) : Option Vector3 :=
  match j.int? "X", j.int? "Y", j.int? "Z" with
  | some x, some y, some z => some ⟨x.bmod 256, y.bmod 256, z.bmod 256⟩
  | _, _, _ => none

/-- IOJson.cpp:1167-1193 `loadKeyframes`, a keyframe. -/
def loadKeyframe (j : Json) : Except Err (Option Keyframe) :=
  if j.isObject then
    .ok (some { relativePosition := j.int? "relative_position"
                amplitudeModulation := j.float? "amplitude_modulation"
                frequencyModulation := j.int? "frequency_modulation" })
  else .ok none

/-- IOJson.cpp:746-773 `loadSyncs`, a synchronisation. -/
def loadSync (j : Json) : Except Err (Option Sync) :=
  match j.int? "timestamp" with
  | none => .ok none
  | some t => .ok (some { timestamp := t, timescale := some ((j.uint? "timescale").getD 1000) })

/-- IOJson.cpp:775-831 `loadLibrary`, a library effect. -/
def loadLibraryEffect (j : Json) : Except Err (Option Effect) :=
  match j.str? "effect_type" with
  | none => .ok none
  | some name => do
    let effectType ← at? stringToEffectType name
    if (effectType = EffectType.Reference ∧ (j.int? "id").isNone) ∨
        ((effectType = EffectType.Reference ∨ effectType = EffectType.Basis) ∧ (j.int? "position").isNone) then
      pure none
    else do
      let id ← must (j.int? "id")
      let position ← must (j.int? "position")
      let baseSignal ← optAll (at? stringToBaseSignal) (j.str? "base_signal")
      let keyframes ← match j.get? "keyframes" with
        | none => pure []
        | some k => do
          let l ← must k.asArr
          collect loadKeyframe l
      pure (some { id := id, position := position, effectType := effectType
                   phase := j.float? "phase"
                   baseSignal := baseSignal
                   semantic := (j.str? "semantic_keywords").map semanticOf
                   keyframes := keyframes })

/-- IOJson.cpp:991-1055 `loadEffects`, an effect of a band of type `bandType`. -/
def loadEffect (bandType : Nat) (j : Json) : Except Err (Option Effect) :=
  match j.str? "effect_type" with
  | none => .ok none
  | some name => do
    let effectType ← at? stringToEffectType name
    if (effectType = EffectType.Reference ∧ (j.int? "id").isNone) ∨
        ((effectType = EffectType.Reference ∨ effectType = EffectType.Basis) ∧ (j.int? "position").isNone) ∨
        (effectType = EffectType.Basis ∧ bandType = BandType.WaveletWave ∧ (j.get? "wavelet_stream").isNone) then
      pure none
    else do
      let position ← must (j.int? "position")
      let baseSignal ← optAll (at? stringToBaseSignal) (j.str? "base_signal")
      let keyframes ← match j.arr? "keyframes" with
        | none => pure []
        | some l => collect loadKeyframe l
      let stream ← match j.get? "wavelet_stream" with
        | none => pure []
        | some (.str s) => readPayload s
        | some _ => .error .ub
      pure (some { id := (j.int? "id").getD (-1), position := position, effectType := effectType
                   phase := j.float? "phase"
                   baseSignal := baseSignal
                   semantic := (j.str? "semantic_keywords").map semanticOf
                   keyframes := keyframes
                   waveletBitstream := stream })

/-- A comparison of a JSON value with text. -/
def isText (o : Option Json) (s : Str) : Bool :=
  match o with
  | some (.str t) => t == s
  | _ => false

/-- IOJson.cpp:933-989 `loadBands`, a band. -/
def loadBand (j : Json) : Except Err (Option Band) :=
  match j.str? "band_type", j.int? "lower_frequency_limit", j.int? "upper_frequency_limit", j.arr? "effects" with
  | some name, some lower, some upper, some jsonEffects =>
    if isText (j.get? "band_type") (lit "WaveletWave") && (j.int? "block_length").isNone then
      .ok none
    else do
      let bandType ← at? stringToBandType name
      let curveType ← optAll (at? stringToCurveType) (j.str? "curve_type")
      let effects ← collect (loadEffect bandType) jsonEffects
      let band : Band := { bandType := bandType, lowerFrequencyLimit := lower, upperFrequencyLimit := upper
                           curveType := curveType
                           blockLength := some (if bandType = BandType.WaveletWave then
                             (j.int? "block_length").getD 0 else 0)
                           priority := j.int? "priority" }
      pure (some (effects.foldl Band.addEffect band))
  | _, _, _, _ => .ok none

/-- IOJson.cpp:833-931 `loadChannels`, a channel. -/
def loadChannel (j : Json) : Except Err (Option Channel) :=
  match j.int? "id", j.str? "description", j.float? "gain", j.float? "mixing_coefficient",
      j.float? "body_part_mask", j.arr? "bands" with
  | some id, some description, some gain, some mixingWeight, some _, some jsonBands => do
    let bodyPartMask ← must (j.uint? "body_part_mask")
    let bodyPartTarget ← optAll (fun l => mapAll (at? stringToBodyPartTarget) (l.filterMap Json.asStr))
      (j.arr? "body_part_target")
    let bands ← collect loadBand jsonBands
    pure (some { id := id, description := description, gain := gain, mixingWeight := mixingWeight
                 bodyPartMask := bodyPartMask
                 priority := j.int? "priority"
                 direction := (j.get? "direction").bind loadVector
                 actuatorResolution := (j.get? "actuator_resolution").bind loadVector
                 bodyPartTarget := bodyPartTarget
                 actuatorTarget := (j.arr? "actuator_target").map (·.filterMap loadVector)
                 frequencySampling := j.uint? "frequency_sampling"
                 sampleCount := j.uint? "sample_count"
                 referenceDeviceId := j.int? "reference_device_id"
                 vertices := ((j.arr? "vertices").getD []).filterMap Json.asInt
                 bands := bands })
  | _, _, _, _, _, _ => .ok none

/-- IOJson.cpp:1092-1165 `loadReferenceDevices`, a device. -/
def loadDevice (j : Json) : Except Err (Option ReferenceDevice) :=
  match j.int? "id", j.str? "name" with
  | some id, some name => do
    let type ← optAll (at? stringToActuatorType) (j.str? "type")
    pure (some { id := id, name := name
                 bodyPartMask := j.uint? "body_part_mask"
                 maximumFrequency := j.float? "maximum_frequency"
                 minimumFrequency := j.float? "minimum_frequency"
                 resonanceFrequency := j.float? "resonance_frequency"
                 maximumAmplitude := j.float? "maximum_amplitude"
                 impedance := j.float? "impedance"
                 maximumVoltage := j.float? "maximum_voltage"
                 maximumCurrent := j.float? "maximum_current"
                 maximumDisplacement := j.float? "maximum_displacement"
                 weight := j.float? "weight"
                 size := j.float? "size"
                 custom := j.float? "custom"
                 type := type })
  | _, _ => .ok none

/-- IOJson.cpp:1057-1089 `loadAvatars`, an avatar. -/
def loadAvatar (j : Json) : Except Err (Option Avatar) :=
  match j.int? "id", j.int? "lod", j.str? "type" with
  | some id, some lod, some name => do
    let type ← at? stringToAvatarType name
    pure (some { id := id, lod := lod, type := type, mesh := j.str? "mesh" })
  | _, _, _ => .ok none

/-- IOJson.cpp:673-744 `loadPerceptions`, a perception. -/
def loadPerception (j : Json) : Except Err (Option Perception) :=
  match j.int? "id", j.int? "avatar_id", j.str? "description", j.str? "perception_modality",
      j.arr? "channels", j.arr? "effect_library" with
  | some id, some avatarId, some description, some name, some jsonChannels, some jsonLibrary => do
    let modality ← at? stringToPerceptionModality name
    let library ← collect loadLibraryEffect jsonLibrary
    let channels ← collect loadChannel jsonChannels
    let devices ← collect loadDevice ((j.arr? "reference_devices").getD [])
    pure (some { id := id, avatarId := avatarId, description := description, perceptionModality := modality
                 priority := j.int? "priority"
                 unitExponent := j.int? "unit_exponent"
                 perceptionUnitExponent := j.int? "perception_unit_exponent"
                 effectLibrary := library
                 effectSemanticScheme := j.str? "effect_semantic_scheme"
                 channels := channels
                 referenceDevices := devices })
  | _, _, _, _, _, _ => .ok none

/-- IOJson.cpp:650-670: what `loadFile` does once the required members are there. -/
def loadExperience (j : Json) : Except Err Experience := do
  let version ← must (j.str? "version")
  let profile ← must (j.str? "profile")
  let level ← must (j.uint? "level")
  let date ← must (j.str? "date")
  let description ← must (j.str? "description")
  let avatars ← collect loadAvatar ((j.arr? "avatars").getD [])
  let perceptions ← collect loadPerception ((j.arr? "perceptions").getD [])
  let syncs ← collect loadSync ((j.arr? "syncs").getD [])
  let e : Experience := { version := version, profile := profile, level := level % 256, date := date
                          description := description
                          timescale := some ((j.uint? "timescale").getD 1000)
                          avatars := avatars, perceptions := perceptions, syncs := syncs }
  if checkExperience e then pure e else .error .fail

/-- IOJson.cpp:623-671 `loadFile`, from the tree into a new experience; `schema` is the check against the JSON
schema files, which are not part of the repository.  `.fail` is the result `false`. -/
def loadTree (schema : Json → Bool) (j : Json) : Except Err Experience :=
  if !j.isObject then .error .fail
  else if !schema j then .error .fail
  else if (j.get? "version").isNone ∨ (j.get? "profile").isNone ∨ (j.get? "level").isNone ∨
      (j.get? "date").isNone ∨ (j.get? "description").isNone ∨ (j.get? "timescale").isNone ∨
      (j.arr? "perceptions").isNone ∨ (j.arr? "avatars").isNone ∨ (j.arr? "syncs").isNone then .error .fail
  else loadExperience j

end Haptics.Json
