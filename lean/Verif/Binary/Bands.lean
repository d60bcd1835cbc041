import Verif.Stream.Data

/-
Bands in the binary file format: /repo/source/IOHaptics/src/IOBinaryBands.cpp.
Writers return the bits they append to `output`; readers work on the flat view of the file
(`frdU`, see Bits/Model.lean): bits past the end of the file are 0.
`int` arithmetic on positions is exact (no overflow).
-/
namespace Haptics.Binary

/-! ### Band header -/

/-- IOBinaryBands.cpp:88-96: the code of a wavelet band's block length.  `optional::value` throws; a
division by zero, a conversion of a negative or too large number of samples to `int` and the logarithm of a
number that is not positive are undefined behaviour.  `(int)log2(x)` is the integer logarithm: below 2^31
the logarithm of a number that is not a power of two is further from an integer than the error of
`log2`. -/
def blockLengthCode (timescale : Nat) (b : Band) : Except Err Int :=
  match b.blockLength with
  | none => .error .throw
  | some ticks =>
    if timescale = 0 then .error .ub
    else
      let samples := ⌊fl64 (fl64 ((ticks : ℚ) / timescale) * b.upperFrequencyLimit)⌋
      if 1 ≤ samples ∧ samples < 2 ^ 31 then .ok ((Nat.log2 samples.toNat : Int) - 4)
      else .error .ub

/-- IOBinaryBands.cpp:84-97: curve type or block length code. -/
def writeBandParam (timescale : Nat) (b : Band) : Except Err Bits :=
  if b.bandType = BandType.Curve then .ok (writeNBits MDBAND_CURVE_TYPE b.curveTypeOrDefault)
  else if b.bandType = BandType.WaveletWave then
    match blockLengthCode timescale b with
    | .error e => .error e
    | .ok code => .ok (writeNBits MDBAND_BLK_LEN code)
  else .ok []

/-- IOBinaryBands.cpp:78-109 `writeBandHeader`. -/
def writeBandHeader (timescale : Nat) (b : Band) : Except Err Bits :=
  match writeBandParam timescale b with
  | .error e => .error e
  | .ok param => .ok (writeNBits MDBAND_BAND_TYPE b.bandType ++ (param
      ++ (writeNBits MDBAND_LOW_FREQ b.lowerFrequencyLimit
      ++ (writeNBits MDBAND_UP_FREQ b.upperFrequencyLimit
      ++ writeNBits MDBAND_EFFECT_COUNT b.effects.length))))

/-- IOBinaryBands.cpp:68-71: block length in ticks, in wrap-around unsigned arithmetic;
`(int)pow(2, code + 4)` (l.57) of 2^31 or more is undefined behaviour, as is a division by 0. -/
def blockLengthTicks (timescale : Nat) (code upper : Nat) : Except Err Int :=
  if code + 4 ≥ 31 then .error .ub
  else if upper = 0 then .error .ub
  else .ok (toSigned 32 (2 ^ (code + 4) * timescale % 2 ^ 32 / upper))

/-- The value of `Except` as a reader that consumes nothing. -/
def lift {α : Type} (x : Except Err α) : Rd α := fun s => x.map (fun a => (a, s))

/-- IOBinaryBands.cpp:46-58: curve type and block length code. -/
def readBandParam (bandType : Nat) : Rd (Option Nat × Nat) :=
  if bandType = BandType.Curve then do
    let curveType ← frdU MDBAND_CURVE_TYPE
    pure (some curveType, 0)
  else if bandType = BandType.WaveletWave then do
    let code ← frdU MDBAND_BLK_LEN
    pure (none, code)
  else pure (none, 0)

/-- IOBinaryBands.cpp:42-76 `readBandHeader` into a new band: the effects are placeholders. -/
def readBandHeader (timescale : Nat) : Rd Band := do
  let bandType ← frdU MDBAND_BAND_TYPE
  let param ← readBandParam bandType
  let low ← frdU MDBAND_LOW_FREQ
  let up ← frdU MDBAND_UP_FREQ
  let blockLength ← (if bandType = BandType.WaveletWave then lift (blockLengthTicks timescale param.2 up)
    else pure 0 : Rd Int)
  let effectCount ← frdU MDBAND_EFFECT_COUNT
  pure { bandType := bandType, curveType := param.1, blockLength := some blockLength,
         lowerFrequencyLimit := low, upperFrequencyLimit := up,
         effects := List.replicate effectCount {} }

/-! ### Keyframes -/

/-- IOBinaryBands.cpp:229-250: an absent value is written as 0. -/
def writeTransientKf (k : Keyframe) : Except Err Bits :=
  .ok (writeFloatNBits KEYFRAME_AMPLITUDE (k.amplitudeModulation.getD 0) (-MAX_AMPLITUDE) MAX_AMPLITUDE
    ++ (writeNBits KEYFRAME_POSITION (k.relativePosition.getD 0)
    ++ writeNBits KEYFRAME_FREQUENCY (k.frequencyModulation.getD 0)))

/-- IOBinaryBands.cpp:213-218. -/
def readTransientKf : Rd Keyframe := do
  let amplitude ← freadFloatNBits KEYFRAME_AMPLITUDE (-MAX_AMPLITUDE) MAX_AMPLITUDE
  let position ← frdU KEYFRAME_POSITION
  let frequency ← frdU KEYFRAME_FREQUENCY
  pure { relativePosition := some position, amplitudeModulation := some amplitude,
         frequencyModulation := some frequency }

/-- IOBinaryBands.cpp:273-288. -/
def writeCurveKf (k : Keyframe) : Except Err Bits :=
  .ok (writeFloatNBits KEYFRAME_AMPLITUDE (k.amplitudeModulation.getD 0) (-MAX_AMPLITUDE) MAX_AMPLITUDE
    ++ writeNBits KEYFRAME_POSITION (k.relativePosition.getD 0))

/-- IOBinaryBands.cpp:260-264. -/
def readCurveKf : Rd Keyframe := do
  let amplitude ← freadFloatNBits KEYFRAME_AMPLITUDE (-MAX_AMPLITUDE) MAX_AMPLITUDE
  let position ← frdU KEYFRAME_POSITION
  pure { relativePosition := some position, amplitudeModulation := some amplitude }

/-- IOBinaryBands.cpp:334-356: an absent position throws. -/
def writeVectorialKf (k : Keyframe) : Except Err Bits :=
  match k.relativePosition with
  | none => .error .throw
  | some p =>
    .ok (writeNBits KEYFRAME_MASK (vectorialMask k)
      ++ (wOptF KEYFRAME_AMPLITUDE (-MAX_AMPLITUDE) MAX_AMPLITUDE k.amplitudeModulation
      ++ (writeNBits KEYFRAME_POSITION p ++ wOptI KEYFRAME_FREQUENCY k.frequencyModulation)))

/-- `if (present) value = readFloatNBits(...)`. -/
def frOptF (n : Nat) (mn mx : ℚ) (present : Bool) : Rd (Option ℚ) :=
  if present then do
    let v ← freadFloatNBits n mn mx
    pure (some v)
  else pure none

/-- `if (present) value = readNBits(...)`. -/
def frOptI (n : Nat) (present : Bool) : Rd (Option Int) :=
  if present then do
    let v ← frdU n
    pure (some (v : Int))
  else pure none

/-- IOBinaryBands.cpp:303-319. -/
def readVectorialKf : Rd Keyframe := do
  let mask ← frdU KEYFRAME_MASK
  let amplitude ← frOptF KEYFRAME_AMPLITUDE (-MAX_AMPLITUDE) MAX_AMPLITUDE (mask % 2 != 0)
  let position ← frdU KEYFRAME_POSITION
  let frequency ← frOptI KEYFRAME_FREQUENCY (mask / 2 % 2 != 0)
  pure { relativePosition := some position, amplitudeModulation := amplitude,
         frequencyModulation := frequency }

/-! ### Effects -/

/-- Keyframe count, cast to `uint16_t`, and that many keyframes. -/
def writeKeyframes (w : Keyframe → Except Err Bits) (e : Effect) : Except Err Bits :=
  match wList w (e.keyframes.take (e.keyframes.length % 65536)) with
  | .error x => .error x
  | .ok b => .ok (writeNBits EFFECT_KEYFRAME_COUNT (e.keyframes.length % 65536 : Nat) ++ b)

/-- Keyframe count and that many keyframes, added to the effect. -/
def readKeyframes (p : Rd Keyframe) (e : Effect) : Rd Effect := do
  let n ← frdU EFFECT_KEYFRAME_COUNT
  let ks ← rdList p n
  pure { e with keyframes := e.keyframes ++ ks }

/-- IOBinaryBands.cpp:325-332 and the loop after: `writeVectorialEffect`. -/
def writeVectorialEffect (e : Effect) : Except Err Bits :=
  match writeKeyframes writeVectorialKf e with
  | .error x => .error x
  | .ok b => .ok (writeFloatNBits EFFECT_PHASE e.phaseOrDefault 0 MAX_PHASE
      ++ (writeNBits EFFECT_BASE_SIGNAL e.baseSignalOrDefault ++ b))

/-- IOBinaryBands.cpp:293-323 `readVectorialEffect`. -/
def readVectorialEffect (e : Effect) : Rd Effect := do
  let phase ← freadFloatNBits EFFECT_PHASE 0 MAX_PHASE
  let baseSignal ← frdU EFFECT_BASE_SIGNAL
  readKeyframes readVectorialKf { e with phase := some phase, baseSignal := some baseSignal }

/-- IOBinaryBands.cpp:361-371 `readWaveletEffect`. -/
def readWaveletBytesF (e : Effect) : Rd Effect := do
  let size ← frdU EFFECT_WAVELET_SIZE
  let bytes ← rdList (do let v ← frdU 8; pure (UInt8.ofNat v)) size
  pure { e with waveletBitstream := bytes }

/-- The `switch` of IOBinaryBands.cpp:177-200 for a known band type: 224-253, 268-291, 325-359, 385-393. -/
def writeBasisEffect (bandType : Nat) (e : Effect) : Except Err Bits :=
  if bandType = BandType.Transient then writeKeyframes writeTransientKf e
  else if bandType = BandType.Curve then writeKeyframes writeCurveKf e
  else if bandType = BandType.VectorialWave then writeVectorialEffect e
  else .ok (writeWaveletBytes e)

/-- The `switch` of IOBinaryBands.cpp:129-154: 207-222, 255-266, 293-323, 361-371; `false` for an unknown
band type. -/
def readBasisEffect (bandType : Nat) (e : Effect) : Rd Effect :=
  if bandType = BandType.Transient then readKeyframes readTransientKf e
  else if bandType = BandType.Curve then readKeyframes readCurveKf e
  else if bandType = BandType.VectorialWave then readVectorialEffect e
  else if bandType = BandType.WaveletWave then readWaveletBytesF e
  else Rd.error .fail

/-- IOBinaryBands.cpp:454-490 `writeTimelineEffect`, which is only called for composite effects (l.176,
l.468).  For each timeline effect it writes type and position and then calls itself, not with the timeline
effect but with the effect it was called with (l.468).  `stack` bounds the depth of the recursion. -/
def writeTimelineEffect : Nat → Effect → Except Err Bits
  | 0, _ => .error .diverge
  | stack + 1, e =>
    match wList (fun t => match writeTimelineEffect stack e with
        | .error x => .error x
        | .ok b => .ok (writeNBits EFFECT_TYPE t.effectType ++ (writeNBits EFFECT_POSITION t.position ++ b)))
      (e.timeline.take (e.timeline.length % 65536)) with
    | .error x => .error x
    | .ok b => .ok (writeNBits EFFECT_TIMELINE_COUNT (e.timeline.length % 65536 : Nat) ++ b)

/-- The loop of IOBinaryBands.cpp:419-450; `nested` is the recursive call.  For an unknown band type the
function returns `false`, which its callers ignore (l.127, l.430): the effects read so far stay, and the
file is left where it is. -/
def timelineLoop (bandType : Nat) (nested : Effect → Rd Effect) : Nat → Effect → Rd Effect
  | 0, e => pure e
  | n + 1, e => do
    let effectType ← frdU EFFECT_TYPE
    let position ← frdU EFFECT_POSITION
    let t : Effect := { effectType := effectType, position := position }
    if effectType = EffectType.Reference then do
      let id ← frdU EFFECT_ID
      timelineLoop bandType nested n { e with timeline := e.timeline ++ [{ t with id := id }] }
    else if effectType = EffectType.Composite then do
      let t ← nested t
      timelineLoop bandType nested n { e with timeline := e.timeline ++ [t] }
    else if bandType ≤ BandType.WaveletWave then do
      let t ← readBasisEffect bandType t
      timelineLoop bandType nested n { e with timeline := e.timeline ++ [t] }
    else pure e

/-- IOBinaryBands.cpp:414-452 `readTimelineEffect`; the first number bounds the recursion depth. -/
def readTimelineEffect (bandType : Nat) : Nat → Effect → Rd Effect
  | 0, _ => Rd.error .diverge
  | fuel + 1, e => do
    let n ← frdU EFFECT_TIMELINE_COUNT
    timelineLoop bandType (readTimelineEffect bandType fuel) n e

/-- Nesting cannot be deeper than the number of bits left: past the end of the file no effect is
composite. -/
def readTimeline (bandType : Nat) (e : Effect) : Rd Effect := fun s =>
  readTimelineEffect bandType (s.length + 1) e s

/-! ### Band body -/

/-- IOBinaryBands.cpp:165-202: one effect after the other; `false` for nothing but an early `return true`
for an unknown band type (l.199). -/
def writeEffects (stack : Nat) (bandType : Nat) : List Effect → Except Err Bits
  | [] => .ok []
  | e :: l =>
    let head := writeNBits EFFECT_TYPE e.effectType
      ++ (if e.effectType ≠ EffectType.Basis ∨ bandType ≠ BandType.WaveletWave
          then writeNBits EFFECT_POSITION e.position else [])
    let next (body : Except Err Bits) : Except Err Bits :=
      match body with
      | .error x => .error x
      | .ok b => match writeEffects stack bandType l with
        | .error x => .error x
        | .ok r => .ok (head ++ (b ++ r))
    if e.effectType = EffectType.Reference then next (.ok (writeNBits EFFECT_ID e.id))
    else if e.effectType = EffectType.Composite then next (writeTimelineEffect stack e)
    else if bandType ≤ BandType.WaveletWave then next (writeBasisEffect bandType e)
    else .ok head

/-- IOBinaryBands.cpp:163-205 `writeBandBody`. -/
def writeBandBody (stack : Nat) (b : Band) : Except Err Bits := writeEffects stack b.bandType b.effects

/-- IOBinaryBands.cpp:117-124: a basis effect of a wavelet band has no position of its own. -/
def readPosition (timescale : Nat) (b : Band) (index : Nat) (effectType : Nat) : Rd Int :=
  if effectType = EffectType.Basis ∧ b.bandType = BandType.WaveletWave then
    if b.upperFrequencyLimit = 0 then Rd.error .ub
    else pure (((index : Int) * b.blockLengthOrDefault * timescale).tdiv b.upperFrequencyLimit)
  else do
    let p ← frdU EFFECT_POSITION
    pure p

/-- IOBinaryBands.cpp:125-156: what follows the position. -/
def readBody (bandType : Nat) (e : Effect) : Rd Effect :=
  if e.effectType = EffectType.Reference then do
    let id ← frdU EFFECT_ID
    pure { e with id := id }
  else if e.effectType = EffectType.Composite then readTimeline bandType e
  else readBasisEffect bandType e

/-- IOBinaryBands.cpp:113-159, the loop over the (placeholder) effects from index `i` on. -/
def readEffects (timescale : Nat) (b : Band) : Nat → List Effect → Rd (List Effect)
  | _, [] => pure []
  | i, e :: l => do
    let effectType ← frdU EFFECT_TYPE
    let position ← readPosition timescale b i effectType
    let e ← readBody b.bandType { e with effectType := effectType }
    let l ← readEffects timescale b (i + 1) l
    pure ({ e with position := position } :: l)

/-- IOBinaryBands.cpp:110-161 `readBandBody`; `false` is `.error .fail` (what was read of the band is then
dropped by the caller, IOBinary.cpp:778-781). -/
def readBandBody (timescale : Nat) (b : Band) : Rd Band := do
  let l ← readEffects timescale b 0 b.effects
  pure { b with effects := l }

end Haptics.Binary
