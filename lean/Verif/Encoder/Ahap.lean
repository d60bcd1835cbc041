import Verif.Encoder.Inject
import Verif.Encoder.Numbers
import Verif.Json.Tree

/-!
Conversion of AHAP files: AhapEncoder.cpp.

The file is a JSON value (`Verif.Json.Tree`).  A `rapidjson` accessor whose assertion fails is reported as undefined
behaviour, and so is dereferencing an iterator outside of a vector.  `int` sums are taken to stay in range,
conversions of `double` are checked; `float` and `double` operations round.  NaN is reported as failure.
-/

namespace Haptics.Ahap
open Haptics Haptics.Json

/-- A control point: time in ticks, value. -/
abbrev Point := Int × ℚ

/-- `IsNumber`, `GetDouble`. -/
def asDouble : Json → Option ℚ
  | .num i => some (fl64 i)
  | .dbl q => some (fl64 q)
  | _ => none

/-- `HasMember`: asserts that the value is an object. -/
def member (j : Json) (key : String) : Except Err (Option Json) :=
  if j.isObject then .ok (j.get? key) else .error .ub

/-- `operator[]`: asserts that the member exists. -/
def index (j : Json) (key : String) : Except Err Json := must (j.get? key)

/-- `j == "text"`. -/
def isText (j : Json) (s : String) : Bool := match j with
  | .str t => t == s.toList.map (fun c => UInt8.ofNat c.toNat)
  | _ => false

/-- A member that is a number. -/
def number? (j : Json) (key : String) : Option ℚ := (j.get? key).bind asDouble

/-! AhapEncoder.cpp:50-62.  A literal is a `double`. -/
def DEFAULT_AMPLITUDE : ℚ := 1 / 2
def DEFAULT_FREQUENCY : Int := 90
def ACTUAL_AMPLITUDE_MIN_C : ℚ := fl64 (6138 / 10000)
def ACTUAL_AMPLITUDE_MIN_T : ℚ := fl64 (792 / 1000)
def ACTUAL_FREQUENCY_MIN : Int := 65
def ACTUAL_FREQUENCY_MAX : Int := 300

/-- `genericNormalization` from the frequencies of AHAP, 0 to 1, to Hz. -/
def toHz (f : ℚ) : ℚ := normalize64 0 1 ACTUAL_FREQUENCY_MIN ACTUAL_FREQUENCY_MAX f

/-- `static_cast<int>(std::round(toHz(..)))`. -/
def roundHz (f : ℚ) : Except Err Int := castInt (roundAway (toHz f))

/-- `static_cast<float>` of an interpolated value. -/
def interpolated (a b : Point) (x : Int) : Except Err ℚ := match linear64 a b x with
  | none => .error .fail
  | some y => .ok (fl32 y)

/-- `std::find_if` for the first control point at or after a time: the points before it, and the points from it on,
none if the iterator is `end()`.  The point before an iterator is the last of the former; there is none at
`begin()`. -/
def pointsBefore (points : List Point) (time : Int) : List Point := points.takeWhile (fun p => decide (p.1 < time))
def pointsFrom (points : List Point) (time : Int) : List Point := points.dropWhile (fun p => decide (p.1 < time))

/-! ### Reading -/

/-- AhapEncoder.cpp:192-206: one control point; without a time or a value it is skipped. -/
def controlPoint (offset : ℚ) (timescale : Nat) (k : Json) : Except Err (Option Point) :=
  if k.isObject then
    match number? k "Time", number? k "ParameterValue" with
    | some time, some value => do
      let t ← castInt (fl64 (fl64 (time + offset) * timescale))
      pure (some (t, value))
    | _, _ => pure none
  else .error .ub

/-- AhapEncoder.cpp:182-209 `extractKeyframes`; `none` is EXIT_FAILURE. -/
def extractKeyframes (curve : Json) (timescale : Nat) : Except Err (Option (List Point)) :=
  match number? curve "Time", curve.arr? "ParameterCurveControlPoints" with
  | some offset, some l => do
    let points ← collect (controlPoint offset timescale) l
    pure (some points)
  | _, _ => .ok none

/-- AhapEncoder.cpp:97-116: the points of all curves for the intensity and for the sharpness, in the order of the
file. -/
def extractCurves (timescale : Nat) : List Json → Except Err (Option (List Point × List Point))
  | [] => .ok (some ([], []))
  | e :: l => do
    let some curve ← member e "ParameterCurve" | extractCurves timescale l
    let parameter ← index curve "ParameterID"
    if isText parameter "HapticIntensityControl" then do
      let some points ← extractKeyframes curve timescale | pure none
      let some (a, f) ← extractCurves timescale l | pure none
      pure (some (points ++ a, f))
    else if isText parameter "HapticSharpnessControl" then do
      let some points ← extractKeyframes curve timescale | pure none
      let some (a, f) ← extractCurves timescale l | pure none
      pure (some (a, points ++ f))
    else extractCurves timescale l

/-- `param["ParameterValue"].GetDouble()`. -/
def parameterValue (p : Json) : Except Err ℚ := do
  let value ← index p "ParameterValue"
  must (asDouble value)

/-- AhapEncoder.cpp:231-243: the amplitude of a transient; its sharpness is not read, line 241 sets the default
frequency again. -/
def transientParameters : List Json → ℚ → Except Err ℚ
  | [], a => .ok a
  | p :: l, a => do
    let name ← index p "ParameterID"
    if isText name "HapticIntensity" then do
      let v ← parameterValue p
      transientParameters l (fl32 (normalize64 0 1 0 ACTUAL_AMPLITUDE_MIN_T v))
    else transientParameters l a

/-- AhapEncoder.cpp:317-335: amplitude, sharpness (`base_freq`) and frequency of a continuous event. -/
def continuousParameters : List Json → ℚ × ℚ × Int → Except Err (ℚ × ℚ × Int)
  | [], r => .ok r
  | p :: l, (a, s, f) => do
    let name ← index p "ParameterID"
    if isText name "HapticIntensity" then do
      let v ← parameterValue p
      continuousParameters l (fl32 (normalize64 0 1 0 ACTUAL_AMPLITUDE_MIN_C v), s, f)
    else if isText name "HapticSharpness" then do
      let v ← parameterValue p
      let f ← castInt (toHz v)
      continuousParameters l (a, v, f)
    else continuousParameters l (a, s, f)

/-- A time of an event in ticks: `static_cast<int>(std::round(time * timescale))`. -/
def eventTicks (time : ℚ) (timescale : Nat) : Except Err Int := castInt (roundAway (fl64 (time * timescale)))

/-- AhapEncoder.cpp:222-225, 302-304: a basis effect with a sine wave. -/
def eventEffect (position : Int) (keyframes : List Keyframe) : Effect :=
  { position := position, phase := some 0, baseSignal := some 0, keyframes := keyframes }

/-! ### Transients -/

/-- AhapEncoder.cpp:245-263: the amplitude of a transient. -/
def transientAmplitude (amplitudes : List Point) (position : Int) (amplitude : ℚ) : Except Err ℚ :=
  match (pointsBefore amplitudes position).getLast?, pointsFrom amplitudes position with
  | _, [] => .ok amplitude
  | some q, p :: _ => do
    let y ← interpolated q p position
    pure (fl32 (y * amplitude))
  | none, p :: _ => .ok (fl32 (fl32 p.2 * amplitude))

/-- AhapEncoder.cpp:265-281: the frequency of a transient. -/
def transientFrequency (frequencies : List Point) (position : Int) : Except Err Int :=
  match (pointsBefore frequencies position).getLast?, pointsFrom frequencies position with
  | _, [] => .ok DEFAULT_FREQUENCY
  | some q, p :: _ => match linear64 q p position with
    | none => .error .fail
    | some f => do
      let freq ← castInt (toHz f)
      pure (freq + DEFAULT_FREQUENCY)
  | none, _ :: _ => .ok ACTUAL_FREQUENCY_MAX

/-- AhapEncoder.cpp:211-288 `extractTransients`; `none` is EXIT_FAILURE. -/
def extractTransient (event : Json) (amplitudes frequencies : List Point) (timescale : Nat) :
    Except Err (Option Effect) :=
  match number? event "Time", event.arr? "EventParameters" with
  | some time, some parameters => do
    let position ← eventTicks time timescale
    let amplitude ← transientParameters parameters DEFAULT_AMPLITUDE
    let amplitude ← transientAmplitude amplitudes position amplitude
    let frequency ← transientFrequency frequencies position
    pure (some (eventEffect position [⟨some 0, some amplitude, some frequency⟩]))
  | _, _ => .ok none

/-! ### Continuous events -/

/-- `getKeyframeAt(0).setAmplitudeModulation(..)`. -/
def setFirstAmplitude (a : ℚ) : List Keyframe → List Keyframe
  | [] => []
  | k :: l => { k with amplitudeModulation := some a } :: l

/-- `getKeyframeAt(0).setFrequencyModulation(..)`. -/
def setFirstFrequency (f : Int) : List Keyframe → List Keyframe
  | [] => []
  | k :: l => { k with frequencyModulation := some f } :: l

/-- AhapEncoder.cpp:376-398: the loop of `modulateContinuousOnAmplitude`, with the point before the iterator and the
points from it on.  The event is at `position` and lasts for `length`; `last` is the amplitude of its last keyframe.
Reading the point before `begin()` is undefined. -/
def amplitudeLoop (position length : Int) (base : ℚ) :
    Option Point → List Point → (kfs : List Keyframe) → (last : ℚ) → Except Err (List Keyframe × ℚ)
  | _, [], kfs, last => .ok (kfs, last)
  | before, p :: rest, kfs, last =>
    if p.1 ≥ position + length then match before with
      | none => .error .ub
      | some q => do
        let y ← interpolated q p (position + length)
        pure (kfs, fl32 (y * last))
    else if position < p.1 then
      let kfs := if before.isNone then addAmplitudeKf (some base) (p.1 - position) true kfs else kfs
      let kfs := addAmplitudeKf (some (fl32 (fl32 p.2 * base))) (p.1 - position) true kfs
      let kfs := if rest.isEmpty then addAmplitudeKf (some base) (p.1 - position) true kfs else kfs
      amplitudeLoop position length base (some p) rest kfs last
    else amplitudeLoop position length base (some p) rest kfs last

/-- AhapEncoder.cpp:349-399 `modulateContinuousOnAmplitude`: the keyframes and the amplitude of the last one.
`kfs` has one keyframe, with the amplitude `base`.  Reading the point at `end()` is undefined. -/
def modulateAmplitude (points : List Point) (position length : Int) (base : ℚ) (kfs : List Keyframe) :
    Except Err (List Keyframe × ℚ) :=
  if points.isEmpty then .ok (kfs, base)
  else match (pointsBefore points position).getLast?, pointsFrom points position with
    | _, [] => .error .ub
    | before, p :: rest =>
      if p.1 = position ∧ !rest.isEmpty then
        amplitudeLoop position length base (some p) rest (setFirstAmplitude (fl32 (base * fl32 p.2)) kfs) base
      else match before with
        | none => amplitudeLoop position length base none (p :: rest) kfs base
        | some q =>
          if position < p.1 then do
            let y ← interpolated q p position
            amplitudeLoop position length base (some q) (p :: rest) (setFirstAmplitude (fl32 (y * base)) kfs) base
          else amplitudeLoop position length base (some q) (p :: rest) kfs base

/-- AhapEncoder.cpp:447-452, 460-465: back to the frequency of the event. -/
def addBaseFrequency (needed : Bool) (base : ℚ) (position : Int) (kfs : List Keyframe) : Except Err (List Keyframe) :=
  if needed then (roundHz base).map (fun g => addFrequencyKf (some g) position kfs) else .ok kfs

/-- AhapEncoder.cpp:432-468: the loop of `modulateContinuousOnFrequency`. -/
def frequencyLoop (position length : Int) (base : ℚ) :
    Option Point → List Point → (kfs : List Keyframe) → (last : Int) → Except Err (List Keyframe × Int)
  | _, [], kfs, last => .ok (kfs, last)
  | before, p :: rest, kfs, last =>
    if p.1 ≥ position + length then match before with
      | none => .error .ub
      | some q => do
        let f := chirp64 q.1 p.1 (fl64 (q.2 + base)) (fl64 (p.2 + base)) (position + length)
        let f ← roundHz (clamp01 (fl64 (f + base)))
        pure (kfs, f)
    else if position < p.1 then do
      let kfs ← addBaseFrequency before.isNone base (p.1 - position) kfs
      let f ← roundHz (clamp01 (fl64 (p.2 + base)))
      let kfs ← addBaseFrequency rest.isEmpty base (p.1 - position) (addFrequencyKf (some f) (p.1 - position) kfs)
      frequencyLoop position length base (some p) rest kfs last
    else frequencyLoop position length base (some p) rest kfs last

/-- AhapEncoder.cpp:401-469 `modulateContinuousOnFrequency`; `last` is the frequency of the last keyframe before. -/
def modulateFrequency (points : List Point) (position length : Int) (base : ℚ) (kfs : List Keyframe) (last : Int) :
    Except Err (List Keyframe × Int) :=
  if points.isEmpty then .ok (kfs, last)
  else match (pointsBefore points position).getLast?, pointsFrom points position with
    | _, [] => .error .ub
    | before, p :: rest =>
      if p.1 = position ∧ !rest.isEmpty then do
        let f ← roundHz (clamp01 (fl64 (p.2 + base)))
        frequencyLoop position length base (some p) rest (setFirstFrequency f kfs) last
      else match before with
        | none => frequencyLoop position length base none (p :: rest) kfs last
        | some q =>
          if position < p.1 then do
            let f ← roundHz (clamp01 (chirp64 q.1 p.1 (fl64 (q.2 + base)) (fl64 (p.2 + base)) position))
            frequencyLoop position length base (some q) (p :: rest) (setFirstFrequency f kfs) last
          else frequencyLoop position length base (some q) (p :: rest) kfs last

/-- AhapEncoder.cpp:336-342: keyframes of a continuous event. -/
def continuousKeyframes (amplitudes frequencies : List Point) (position length : Int) (amplitude : ℚ)
    (sharpness : ℚ) (frequency : Int) : Except Err (List Keyframe) := do
  let (kfs, lastAmplitude) ← modulateAmplitude amplitudes position length amplitude
    [⟨some 0, some amplitude, some frequency⟩]
  let (kfs, lastFrequency) ← modulateFrequency frequencies position length sharpness kfs frequency
  pure (kfs ++ [⟨some length, some lastAmplitude, some lastFrequency⟩])

/-- AhapEncoder.cpp:290-347 `extractContinuous`; `none` is EXIT_FAILURE. -/
def extractContinuous (event : Json) (amplitudes frequencies : List Point) (timescale : Nat) :
    Except Err (Option Effect) :=
  match number? event "Time", number? event "EventDuration", event.arr? "EventParameters" with
  | some time, some duration, some parameters => do
    let position ← eventTicks time timescale
    let length ← eventTicks duration timescale
    let (amplitude, sharpness, frequency) ← continuousParameters parameters (DEFAULT_AMPLITUDE, 1, DEFAULT_FREQUENCY)
    let kfs ← continuousKeyframes amplitudes frequencies position length amplitude sharpness frequency
    pure (some (eventEffect position kfs))
  | _, _, _ => .ok none

/-! ### The whole file -/

/-- AhapEncoder.cpp:118-139: the events; transients and continuous events in the order of the file. -/
def extractEvents (amplitudes frequencies : List Point) (timescale : Nat) :
    List Json → Except Err (Option (List Effect × List Effect))
  | [] => .ok (some ([], []))
  | e :: l => do
    let some event ← member e "Event" | extractEvents amplitudes frequencies timescale l
    let type ← index event "EventType"
    if isText type "HapticTransient" then do
      let some t ← extractTransient event amplitudes frequencies timescale | pure none
      let some (ts, cs) ← extractEvents amplitudes frequencies timescale l | pure none
      pure (some (t :: ts, cs))
    else if isText type "HapticContinuous" then do
      let some c ← extractContinuous event amplitudes frequencies timescale | pure none
      let some (ts, cs) ← extractEvents amplitudes frequencies timescale l | pure none
      pure (some (ts, c :: cs))
    else extractEvents amplitudes frequencies timescale l

/-- AhapEncoder.cpp:150-158: one effect with a keyframe for each transient. -/
def transientEffect (transients : List Effect) : Effect :=
  { keyframes := transients.flatMap (fun e => e.keyframes.map (fun k =>
      { k with relativePosition := some (k.relativePosition.getD 0 + e.position) })) }

/-- AhapEncoder.cpp:148-161: the band of the transients. -/
def transientBand (transients : List Effect) : Band :=
  let b : Band := { bandType := BandType.Transient, lowerFrequencyLimit := 65, upperFrequencyLimit := 300 }
  b.addEffect (transientEffect transients)

/-- AhapEncoder.cpp:145-176: the channel. -/
def fillChannel (c : Channel) (transients continuous : List Effect) : Except Err Channel :=
  { c with bands := c.bands ++ [transientBand transients] }.injectAll 65 300 continuous

/-- "placeholder description" -/
def placeholder : Str := "placeholder description".toList.map (fun c => UInt8.ofNat c.toNat)

/-- AhapEncoder.cpp:66-180 `encode` of a file that is well-formed JSON; `none` is EXIT_FAILURE. -/
def encode (json : Json) (timescale : Nat) (p : Perception) : Except Err (Option Perception) :=
  if p.channels.length > 1 then .ok none
  else if !json.isObject then .ok none
  else match json.arr? "Pattern" with
    | none => .ok none
    | some pattern => do
      let some (amplitudes, frequencies) ← extractCurves timescale pattern | pure none
      let some (transients, continuous) ← extractEvents amplitudes frequencies timescale pattern | pure none
      let c := p.channels.head?.getD { id := 0, description := placeholder }
      let c ← fillChannel c transients continuous
      pure (some { p with channels := [c] })

end Haptics.Ahap
