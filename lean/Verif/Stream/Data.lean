import Verif.Stream.Unit
import Verif.Types.Ops

/-
The payload of data packets: keyframes, effects, and what the receiver does with them.
/repo/source/IOHaptics/src/IOStream.cpp:2029-2145, 2201-2254, 2391-2756.
-/
namespace Haptics

/-! ### Keyframes -/

/-- IOStream.cpp:2527-2541 `writeTransient`: an absent amplitude, position or frequency makes
`optional::value` throw. -/
def writeTransient (k : Keyframe) : Except Err Bits :=
  match k.amplitudeModulation, k.relativePosition, k.frequencyModulation with
  | some a, some p, some f =>
    .ok (writeFloatNBits KEYFRAME_AMPLITUDE a (-MAX_AMPLITUDE) MAX_AMPLITUDE
      ++ (writeNBits KEYFRAME_POSITION p ++ writeNBits KEYFRAME_FREQUENCY f))
  | _, _, _ => .error .throw

/-- IOStream.cpp:2542-2554 `readTransient`. -/
def readTransient : Rd Keyframe := do
  let amplitude ← readFloatNBits KEYFRAME_AMPLITUDE (-MAX_AMPLITUDE) MAX_AMPLITUDE
  let position ← readUInt KEYFRAME_POSITION
  let frequency ← readUInt KEYFRAME_FREQUENCY
  pure { relativePosition := some position, amplitudeModulation := some amplitude,
         frequencyModulation := some frequency }

/-- IOStream.cpp:2556-2565 `writeCurve`. -/
def writeCurve (k : Keyframe) : Except Err Bits :=
  match k.amplitudeModulation, k.relativePosition with
  | some a, some p =>
    .ok (writeFloatNBits KEYFRAME_AMPLITUDE a (-MAX_AMPLITUDE) MAX_AMPLITUDE
      ++ writeNBits KEYFRAME_POSITION p)
  | _, _ => .error .throw

/-- IOStream.cpp:2566-2576 `readCurve`. -/
def readCurve : Rd Keyframe := do
  let amplitude ← readFloatNBits KEYFRAME_AMPLITUDE (-MAX_AMPLITUDE) MAX_AMPLITUDE
  let position ← readUInt KEYFRAME_POSITION
  pure { relativePosition := some position, amplitudeModulation := some amplitude }

/-- IOStream.cpp:2580, 2586, 2596: presence bits of amplitude (1) and frequency (2). -/
def vectorialMask (k : Keyframe) : Nat :=
  (if k.amplitudeModulation.isSome then 1 else 0) + (if k.frequencyModulation.isSome then 2 else 0)

/-- IOStream.cpp:2578-2602 `writeVectorial`. -/
def writeVectorial (k : Keyframe) : Except Err Bits :=
  match k.relativePosition with
  | none => .error .throw
  | some p =>
    .ok (writeNBits KEYFRAME_VECTORIAL_MASK (vectorialMask k)
      ++ (wOptF KEYFRAME_AMPLITUDE (-MAX_AMPLITUDE) MAX_AMPLITUDE k.amplitudeModulation
      ++ (writeNBits KEYFRAME_POSITION p ++ wOptI KEYFRAME_FREQUENCY k.frequencyModulation)))

/-- IOStream.cpp:2604-2622 `readVectorial`. -/
def readVectorial : Rd Keyframe := do
  let mask ← readUInt KEYFRAME_VECTORIAL_MASK
  let amplitude ← rOptF KEYFRAME_AMPLITUDE (-MAX_AMPLITUDE) MAX_AMPLITUDE (mask % 2 != 0)
  let position ← readUInt KEYFRAME_POSITION
  let frequency ← rOptI KEYFRAME_FREQUENCY (mask / 2 % 2 != 0)
  pure { relativePosition := some position, amplitudeModulation := amplitude,
         frequencyModulation := frequency }

/-- IOStream.cpp:2499-2511 `writeKeyframe`; its `false` for other band types is ignored by the caller
(l.2466). -/
def writeKeyframe (bandType : Nat) (k : Keyframe) : Except Err Bits :=
  if bandType = BandType.Transient then writeTransient k
  else if bandType = BandType.Curve then writeCurve k
  else if bandType = BandType.VectorialWave then writeVectorial k
  else .ok []

/-- IOStream.cpp:2513-2525 `readKeyframe`. -/
def readKeyframe (bandType : Nat) : Rd Keyframe :=
  if bandType = BandType.Transient then readTransient
  else if bandType = BandType.Curve then readCurve
  else if bandType = BandType.VectorialWave then readVectorial
  else Rd.error .fail

/-! ### Effects -/

/-- Phase and base signal, only present in vectorial bands (IOStream.cpp:2134-2141). -/
def writeWave (bandType : Nat) (e : Effect) : Bits :=
  if bandType = BandType.VectorialWave then
    writeFloatNBits EFFECT_PHASE e.phaseOrDefault 0 MAX_PHASE
    ++ writeNBits EFFECT_BASE_SIGNAL e.baseSignalOrDefault
  else []

/-- IOStream.cpp:2481-2486. -/
def readWave (bandType : Nat) : Rd (Option ℚ × Option Nat) :=
  if bandType = BandType.VectorialWave then do
    let phase ← readFloatNBits EFFECT_PHASE 0 MAX_PHASE
    let baseSignal ← readUInt EFFECT_BASE_SIGNAL
    pure (some phase, some baseSignal.toNat)
  else pure (none, none)

/-- IOStream.cpp:2098-2142, one effect of a data packet sent at `time`: `kfCount` keyframes, encoded in
`kfBits`. -/
def writeEffect (bandType : Nat) (time : Int) (e : Effect) (kfCount : Nat) (kfBits : Bits) :
    Except Err Bits :=
  let head := writeNBits EFFECT_ID e.id ++ (writeNBits EFFECT_TYPE e.effectType
    ++ writeNBits EFFECT_POSITION (e.position - time))
  if e.effectType = EffectType.Basis then
    match writeSemantic e.semantic with
    | .error x => .error x
    | .ok sem => .ok (head ++ (sem ++ (writeNBits EFFECT_KEYFRAME_COUNT kfCount
        ++ (writeWave bandType e ++ kfBits))))
  else .ok (head ++ kfBits)

/-- IOStream.cpp:2478-2497 `readEffectBasis`, with the semantic (l.2435-2442). -/
def readEffectBasis (bandType : Nat) (e : Effect) : Rd Effect := do
  let semantic ← readSemantic
  let kfCount ← readUInt EFFECT_KEYFRAME_COUNT
  let wave ← readWave bandType
  let keyframes ← rdList (readKeyframe bandType) kfCount.toNat
  pure { e with semantic := semantic, phase := wave.1, baseSignal := wave.2, keyframes := keyframes }

/-- IOStream.cpp:2420-2449 `readEffect`. -/
def readEffect (bandType : Nat) : Rd Effect := do
  let id ← readUInt EFFECT_ID
  let effectType ← readUInt EFFECT_TYPE
  let position ← readInt EFFECT_POSITION
  let e : Effect := { id := id, effectType := effectType.toNat, position := position }
  if effectType = EffectType.Basis then readEffectBasis bandType e
  else pure e

/-- IOBinaryBands.cpp:385-393 `writeWaveletEffect`: the size is cast to `uint16_t`, all bytes follow. -/
def writeWaveletBytes (e : Effect) : Bits :=
  writeNBits EFFECT_WAVELET_SIZE (e.waveletBitstream.length % 65536 : Nat)
  ++ strBits e.waveletBitstream

/-- IOBinaryBands.cpp:372-383 `readWaveletEffect`. -/
def readWaveletBytes : Rd (List UInt8) := do
  let size ← readUInt EFFECT_WAVELET_SIZE
  rdStr size.toNat

/-- IOStream.cpp:2391-2418 `readWaveletEffect`: the position is computed from the number of effects the
band has so far; `blockLength` unset throws, an upper limit of 0 is a division by zero. -/
def readWaveletEffect (timescale : Nat) (band : Band) : Rd Effect := do
  let id ← readUInt EFFECT_ID
  let effectType ← readUInt EFFECT_TYPE
  let semantic ← readSemantic
  match band.blockLength with
  | none => Rd.error .throw
  | some blockLength =>
    if band.upperFrequencyLimit = 0 then Rd.error .ub
    else do
      let bytes ← readWaveletBytes
      pure { id := id, effectType := effectType.toNat, semantic := semantic,
             position := ((timescale : Int) * blockLength * band.effects.length).tdiv
               band.upperFrequencyLimit,
             waveletBitstream := bytes }

/-! ### Data packets -/

/-- IOStream.cpp:2029-2050 `writeEffectHeader`: timestamp, access unit type, and the band's address. -/
def writeEffectHeader (time : Int) (auType : Nat) (perceId channelId bandId : Int) : Bits :=
  writeNBits DB_DURATION time ++ (writeNBits DB_AU_TYPE auType ++ (writeNBits MDPERCE_ID perceId
  ++ (writeNBits MDCHANNEL_ID channelId ++ writeNBits MDBAND_ID bandId)))

/-- IOStream.cpp:2721-2747: the receiver's band after one more effect.  A basis effect whose identifier
an effect of the band already has only adds its keyframes to that effect. -/
def mergeEffect (band : Band) (e : Effect) : Band :=
  if e.effectType = EffectType.Basis then
    match band.effects.findIdx? (fun x => x.id == e.id) with
    | some i => { band with
        effects := band.effects.modify i (fun x => { x with keyframes := x.keyframes ++ e.keyframes }) }
    | none => band.addEffect e
  else band.addEffect e

/-- `haptic.getPerceptionAt(p).getChannelAt(c).getBandAt(b)` replaced by its image under `f`. -/
def Experience.modifyBand (h : Experience) (p c b : Nat) (f : Band → Band) : Experience :=
  { h with perceptions := h.perceptions.modify p (fun x =>
    { x with channels := x.channels.modify c (fun y => { y with bands := y.bands.modify b f }) }) }

/-- IOStream.cpp:2719-2749 `addEffectToHaptic`. -/
def addEffectToHaptic (h : Experience) (p c b : Nat) (effects : List Effect) : Experience :=
  h.modifyBand p c b (fun band => effects.foldl mergeEffect band)

/-- IOStream.cpp:2750-2756 `addTimestampEffect`; `static_cast<int>(sreader.time)`. -/
def addTimestamp (time : Nat) (e : Effect) : Effect :=
  { e with position := e.position + toSigned 32 time }

/-- IOStream.cpp:2644-2651 `searchBandInHaptic`: the index stored with this band identifier. -/
def searchBandInHaptic (bandStreams : List (Int × Nat)) (id : Int) : Option Nat :=
  (bandStreams.find? (fun b => b.1 == id)).map (·.2)

/-- The effects in a data packet (IOStream.cpp:2236-2248). -/
def readEffects (r : Reader) (band : Band) (fxCount : Nat) : Rd (List Effect) :=
  if band.bandType ≠ BandType.WaveletWave then do
    let effects ← rdList (readEffect band.bandType) fxCount
    pure (effects.map (addTimestamp r.time))
  else do
    let e ← readWaveletEffect r.timescale band
    pure [e]

/-- IOStream.cpp:2212-2253, `readData` after the access unit type: the new experience.  Note that the
channel index may come from another perception; `getChannelAt` and `getBandAt` throw when out of range. -/
def readDataBody (r : Reader) : Rd Experience := do
  let perceptionId ← readUInt MDPERCE_ID
  match searchPerceptionInHaptic r.haptic perceptionId with
  | none => Rd.error .fail
  | some p => do
    let channelId ← readUInt MDCHANNEL_ID
    match searchChannelInHaptic r.haptic channelId with
    | none => Rd.error .fail
    | some c =>
      match r.haptic.perceptions[p]?.bind (fun x => x.channels[c]?) with
      | none => Rd.error .throw
      | some channel => do
        let bandId ← readUInt MDBAND_ID
        match searchBandInHaptic r.bandStreams bandId with
        | none => Rd.error .fail
        | some b =>
          match channel.bands[b]? with
          | none => Rd.error .throw
          | some band => do
            let fxCount ← readUInt DB_EFFECT_COUNT
            if fxCount > 0 then do
              let effects ← readEffects r band fxCount.toNat
              pure (addEffectToHaptic r.haptic p c b effects)
            else pure r.haptic

/-- IOStream.cpp:2201-2254 `readData`: while waiting for a sync point only random access units are
accepted, and one ends the wait. -/
def readData (payload : Bits) (r : Reader) : Except Err (Bool × Reader) :=
  match readUInt DB_AU_TYPE payload with
  | .error e => .error e
  | .ok (auType, rest) =>
    if r.waitSync && auType == 1 then .ok (false, r)
    else
      let r := { r with waitSync := false }
      match readDataBody r rest with
      | .ok (h, _) => .ok (true, { r with haptic := h })
      | .error .fail => .ok (false, r)
      | .error e => .error e

end Haptics
