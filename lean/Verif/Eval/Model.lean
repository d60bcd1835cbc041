import Verif.Types.Ops
import Verif.Bits.Float
import Mathlib.Analysis.SpecialFunctions.Trigonometric.Basic
import Mathlib.Algebra.Order.Round

/-
Rendering of effects: /repo/source/Types/src/{Effect,Band,Channel}.cpp and the scalar helpers of
/repo/source/Tools/src/Tools.cpp.
`double` arithmetic is exact real arithmetic here (but for the length of recordings); what is kept of floating point is that a division by
zero gives no number: results are `Option ℝ`, where `none` stands for NaN.  The divisions that can have a
zero divisor below are `0 / 0`, or give the argument of a periodic function, which is NaN at infinity, so
`none` is NaN in every result.
-/
namespace Haptics

/-- A loop that fills a vector, stopped by the first error. -/
def mapE {α β : Type} (f : α → Except Err β) : List α → Except Err (List β)
  | [] => .ok []
  | a :: l => match f a with
    | .error x => .error x
    | .ok b => match mapE f l with
      | .error x => .error x
      | .ok r => .ok (b :: r)

/-- A loop that updates a state, stopped by the first error. -/
def foldE {α σ : Type} (f : σ → α → Except Err σ) : σ → List α → Except Err σ
  | s, [] => .ok s
  | s, a :: l => match f s a with
    | .error x => .error x
    | .ok s' => foldE f s' l

noncomputable section

/-- Division of doubles. -/
def fdiv (a b : ℝ) : Option ℝ := if b = 0 then none else some (a / b)

/-- Sum of doubles. -/
def fadd (a b : Option ℝ) : Option ℝ := match a, b with
  | some x, some y => some (x + y)
  | _, _ => none

/-! ### Interpolation -/

/-- Tools.cpp:39-60 `linearInterpolation`. -/
def linearInterpolation (a b : Int × ℝ) (x : ℝ) : Option ℝ :=
  if x < a.1 then some a.2
  else if x > b.1 then some b.2
  else if a.1 ≥ b.1 then
    -- start and end swapped
    fdiv (b.2 * (a.1 - x) + a.2 * (x - b.1)) (a.1 - b.1)
  else fdiv (a.2 * (b.1 - x) + b.2 * (x - a.1)) (b.1 - a.1)

/-- Tools.cpp:62-76 `chirpInterpolation`. -/
def chirpInterpolation (startTime endTime : Int) (startFrequency endFrequency position : ℝ) : ℝ :=
  if endTime < startTime then
    ((startFrequency - endFrequency) / (startTime - endTime)) / 2 * (position - endTime) + endFrequency
  else if startTime = endTime then endFrequency
  else ((endFrequency - startFrequency) / (endTime - startTime)) / 2 * (position - startTime)
    + startFrequency

/-- The cubic of Effect.cpp:365-368 and Tools.cpp:127, between `(t0, f0)` and `(t1, f1)`. -/
def cubicSegment (t0 f0 t1 f1 t : ℝ) : Option ℝ :=
  (fdiv ((f1 - f0) * (3 * (t1 - t0) + 2 * (t0 - t)) * (t - t0) ^ 2) ((t1 - t0) ^ 3)).map (f0 + ·)

/-- The segment of Effect.cpp:369-370 and Tools.cpp:106, between `(t0, f0)` and `(t1, f1)`. -/
def linearSegment (t0 f0 t1 f1 t : ℝ) : Option ℝ := fdiv (f0 * (t1 - t) + f1 * (t - t0)) (t1 - t0)

/-! CurveType.h:42-49 -/
abbrev CurveType.Unknown : Nat := 0
abbrev CurveType.Cubic : Nat := 1
abbrev CurveType.Linear : Nat := 2

/-- Both coordinates of a keyframe, if it has them. -/
def Keyframe.point (k : Keyframe) : Option (ℝ × ℝ) :=
  match k.relativePosition, k.amplitudeModulation with
  | some p, some a => some ((p : ℝ), (a : ℝ))
  | _, _ => none

/-- Effect.cpp:338-377 `EvaluateKeyframes`: the loop splits the keyframes before the first complete one
after the position. -/
def Effect.evaluateKeyframes (e : Effect) (position : ℝ) (curveType : Nat) (timescale : Nat) :
    Option ℝ :=
  let rel := position - e.position
  let points := e.keyframes.filterMap Keyframe.point
  match points.dropWhile (fun p => decide (¬ p.1 > rel)) with
  | [] => some 0
  | after :: _ =>
    match (points.takeWhile (fun p => decide (¬ p.1 > rel))).getLast? with
    | none => some after.2
    | some before =>
      if timescale = 0 then
        (if curveType = CurveType.Cubic ∨ curveType = CurveType.Linear then none else some 0)
      else
        let t0 := before.1 / timescale
        let t1 := after.1 / timescale
        let t := rel / timescale
        if curveType = CurveType.Cubic then cubicSegment t0 before.2 t1 after.2 t
        else if curveType = CurveType.Linear then linearSegment t0 before.2 t1 after.2 t
        else some 0

/-! ### Periodic signals -/

/-- `std::round`: halves away from zero. -/
def cround (x : ℝ) : ℝ := if 0 ≤ x then (⌊x + 1 / 2⌋ : ℝ) else -(⌊-x + 1 / 2⌋ : ℝ)

/-- Effect.cpp:379-401 `computeBaseSignal` (base signals of Effect.h:49). -/
def Effect.computeBaseSignal (e : Effect) (time frequency phase : ℝ) : ℝ :=
  let time := if frequency ≠ 0 then time + phase / (2 * Real.pi * frequency) else time
  match e.baseSignalOrDefault with
  | 0 => Real.sin (2 * Real.pi * time * frequency)
  | 1 => 1 - 2 * cround (time * frequency - ⌊time * frequency⌋)
  | 2 => 1 - 4 * |cround (time * frequency - 1 / 4) - (time * frequency - 1 / 4)|
  | 3 => 2 * (time * frequency - ⌊time * frequency + 1 / 2⌋)
  | 4 => 2 * (⌊time * frequency + 1 / 2⌋ - time * frequency)
  | _ => 1

/-- Effect.cpp:195-227: amplitude of a vectorial effect at `rel`. -/
def amplitudeModulationAt (keyframes : List Keyframe) (rel : ℝ) : Option ℝ :=
  let stop : Keyframe → Bool := fun k => match k.relativePosition, k.amplitudeModulation with
    | some p, some _ => decide ((p : ℝ) ≥ rel)
    | _, _ => false
  let before := (keyframes.takeWhile (fun k => !stop k)).reverse.find? (·.amplitudeModulation.isSome)
  match keyframes.dropWhile (fun k => !stop k) with
  | after :: _ => match before with
    | none => some ((after.amplitudeModulation.getD 0 : ℚ) : ℝ)
    | some b => linearInterpolation (b.relativePosition.getD 0, ((b.amplitudeModulation.getD 0 : ℚ) : ℝ))
        (after.relativePosition.getD 0, ((after.amplitudeModulation.getD 0 : ℚ) : ℝ)) rel
  | [] => match keyframes.reverse.find? (·.amplitudeModulation.isSome) with
    | some k => some ((k.amplitudeModulation.getD 0 : ℚ) : ℝ)
    | none => some 1

/-- Effect.cpp:234-262: the loop over frequency keyframes.  `prev` is the last keyframe with a frequency
before the current one; the result is the phase and, if the loop is left by `break`, the keyframes around
the position. -/
def frequencyLoop (rel : ℝ) : Option Keyframe → ℝ → List Keyframe →
    ℝ × Option (Option Keyframe × Keyframe)
  | _, phi, [] => (phi, none)
  | prev, phi, k :: l => match k.frequencyModulation with
    | none => frequencyLoop rel prev phi l
    | some f =>
      let pos : Int := k.relativePosition.getD 0
      if (pos : ℝ) ≥ rel then (phi, some (prev, k))
      else
        let phi := match prev with
          | some b => phi + Real.pi * ((pos - b.relativePosition.getD 0 : Int) : ℝ) * 0.001
              * ((b.frequencyModulation.getD 0 + f : Int) : ℝ)
          | none => if pos > 0 then phi + 2 * Real.pi * pos * 0.001 * f else phi
        frequencyLoop rel (some k) phi l

/-- Effect.cpp:183-299 `EvaluateVectorial`; `std::clamp` with bounds in the wrong order is undefined
behaviour. -/
def Effect.evaluateVectorial (e : Effect) (position : ℝ) (low high : Int) (timescale : Nat) :
    Except Err (Option ℝ) :=
  match e.timeLength BandType.VectorialWave 0 with
  | .error x => .error x
  | .ok len =>
    if position < e.position ∨ position > e.position + (len : ℝ) ∨ e.keyframes = [] then .ok (some 0)
    else
      let rel := position - e.position
      let (phi, found) := frequencyLoop rel none (e.phaseOrDefault : ℝ) e.keyframes
      let fr : Except Err (ℝ × ℝ) := match found with
        | some (none, k) => .ok ((k.frequencyModulation.getD 0 : Int), rel)
        | some (some b, k) =>
          if high < low then .error .ub
          else
            let f := chirpInterpolation (b.relativePosition.getD 0) (k.relativePosition.getD 0)
              (b.frequencyModulation.getD 0 : Int) (k.frequencyModulation.getD 0 : Int) rel
            .ok (max (low : ℝ) (min f high), rel - (b.relativePosition.getD 0 : Int))
        | none => match e.keyframes.reverse.find? (·.frequencyModulation.isSome) with
          | some k => .ok ((k.frequencyModulation.getD 0 : Int), rel)
          | none => .ok (0, rel)
      match fr with
      | .error x => .error x
      | .ok (frequency, rel') =>
        .ok (do
          let amp ← amplitudeModulationAt e.keyframes rel
          let time ← fdiv rel' timescale
          pure (amp * e.computeBaseSignal time frequency phi))

/-! ### Transients -/

/-- Effect.cpp:316-320 `checkingFunction`. -/
def transientActive (rel duration : ℝ) (k : Keyframe) : Bool :=
  match k.relativePosition with
  | none => false
  | some p => decide ((p : ℝ) ≤ rel ∧ (p : ℝ) + duration ≥ rel)

/-- Effect.cpp:324-333, on the keyframes from the last to the first.  A keyframe without amplitude is
never passed: `continue` does not advance the iterator. -/
def transientLoop (rel duration : ℝ) : ℝ → List Keyframe → Except Err (Option ℝ)
  | res, [] => .ok (some res)
  | res, k :: l =>
    if transientActive rel duration k then
      match k.amplitudeModulation with
      | none => .error .diverge
      | some a => match fdiv (4 * Real.pi * (rel - (k.relativePosition.getD 0 : Int))) duration with
        | none => .ok none
        | some x => transientLoop rel duration (res + Real.sin x * (a : ℝ)) l
    else .ok (some res)

/-- Effect.cpp:313-336 `EvaluateTransient`. -/
def Effect.evaluateTransient (e : Effect) (position duration : ℝ) : Except Err (Option ℝ) :=
  let rel := position - e.position
  transientLoop rel duration 0 (e.keyframes.reverse.dropWhile (fun k => !transientActive rel duration k))

/-! ### Wavelets -/

/-- Effect.cpp:301-311 `EvaluateWavelet` on the decoded samples: a negative index is undefined
behaviour. -/
def evaluateWavelet (samples : List ℝ) (effectPosition : Int) (position : ℝ) (fs : Int) (timescale : Nat) :
    Except Err (Option ℝ) :=
  match fdiv ((position - effectPosition) * fs) timescale with
  | none => .error .ub
  | some rel =>
    let index := ⌊rel⌋
    if index ≥ samples.length then .ok (some 0)
    else if index < 0 then .error .ub
    else .ok (some (samples.getD index.toNat 0))

/-! ### Bands and channels -/

/-- Band.cpp:272-274 `getTransientDuration` (`TIMESCALE` is 1000). -/
def transientDuration (timescale : Nat) : ℚ := TRANSIENT_DURATION_MS / 1000 * timescale

/-- Band.cpp:147-169 `EvaluationSwitch`.  `samples` gives the decoded samples of wavelet effects. -/
def Band.evaluationSwitch (samples : Effect → List ℝ) (b : Band) (position : ℝ) (e : Effect)
    (low high : Int) (timescale : Nat) : Except Err (Option ℝ) :=
  if b.bandType = BandType.Curve then
    .ok (e.evaluateKeyframes position b.curveTypeOrDefault timescale)
  else if b.bandType = BandType.VectorialWave then e.evaluateVectorial position low high timescale
  else if b.bandType = BandType.WaveletWave then
    evaluateWavelet (samples e) e.position position b.upperFrequencyLimit timescale
  else if b.bandType = BandType.Transient then
    if (e.position : ℝ) ≤ position then
      match e.timeLength BandType.Transient (transientDuration timescale) with
      | .error x => .error x
      | .ok len =>
        if position ≤ e.position + (len : ℝ) then
          e.evaluateTransient position (transientDuration timescale : ℚ)
        else .ok (some 0)
    else .ok (some 0)
  else .ok (some 0)

/-- Band.cpp:124-145 `Evaluate`: the last effect that has started. -/
def Band.evaluate (samples : Effect → List ℝ) (b : Band) (position : ℝ) (low high : Int) (timescale : Nat) :
    Except Err (Option ℝ) :=
  match b.effects.getLast? with
  | none => .ok (some 0)
  | some last =>
    match (if b.bandType = BandType.WaveletWave then .ok false
      else match last.timeLength b.bandType TRANSIENT_DURATION_MS with
        | .error x => .error x
        | .ok len => .ok (decide (position > last.position + (len : ℝ) ∨ position < 0)) :
          Except Err Bool) with
    | .error x => .error x
    | .ok true => .ok (some 0)
    | .ok false =>
      match b.effects.reverse.find? (fun e => decide ((e.position : ℝ) ≤ position)) with
      | none => .ok (some 0)
      | some e => b.evaluationSwitch samples position e low high timescale

/-- `if (res < -1) return -1; if (res > 1) return 1; return res;` (Channel.cpp:179-185, 194-199). Both
comparisons are false of NaN. -/
def clamp1 (x : Option ℝ) : Option ℝ := x.map (fun x => if x < -1 then -1 else if x > 1 then 1 else x)

/-- Channel.cpp:171-177: the sum over the bands. -/
def sumBands (samples : Effect → List ℝ) (position : ℝ) (timescale : Nat) :
    Option ℝ → List Band → Except Err (Option ℝ)
  | acc, [] => .ok acc
  | acc, b :: l =>
    match b.evaluate samples position b.lowerFrequencyLimit b.upperFrequencyLimit timescale with
    | .error x => .error x
    | .ok v => sumBands samples position timescale (fadd acc v) l

/-- Channel.cpp:171-186 `Evaluate`. -/
def Channel.evaluate (samples : Effect → List ℝ) (c : Channel) (position : ℝ) (timescale : Nat) :
    Except Err (Option ℝ) :=
  match sumBands samples position timescale (some 0) c.bands with
  | .error x => .error x
  | .ok v => .ok (clamp1 v)

/-- Band.cpp:259-266 `getBandTimeLength`. -/
def Band.timeLength (b : Band) (timescale : Nat) : Except Err ℚ :=
  match b.effects.getLast? with
  | none => .ok 0
  | some e => match e.timeLength b.bandType (transientDuration timescale) with
    | .error x => .error x
    | .ok len => .ok ((e.position : ℚ) + len)

/-- Helper.cpp:58-74: length of a channel, which the loop compares with the maximum. A division by a zero
sampling frequency gives an infinity or NaN (`.error .fail` here: no number). -/
def Channel.lengths (c : Channel) (timescale : Nat) : Except Err (List ℚ) :=
  match c.frequencySampling, c.sampleCount with
  | some fs, some n => if fs = 0 then .error .fail else .ok [fl64 (timescale * fl64 ((n : ℚ) / fs))]
  | _, _ => mapE (fun b => b.timeLength timescale) c.bands

/-- Helper.cpp:45-78 `getTimeLength`; `getTimescale().value()` throws. -/
def Experience.timeLength (h : Experience) : Except Err ℚ :=
  match h.timescale with
  | none => .error .throw
  | some timescale =>
    match mapE (fun c => c.lengths timescale) (h.perceptions.flatMap Perception.channels) with
    | .error x => .error x
    | .ok l => .ok (l.flatten.foldl max 0)

/-- Conversion of an `int` product to `unsigned int`. -/
def u32 (x : Int) : Nat := (x % 2 ^ 32).toNat

/-- The segments of Tools.cpp:100-110 and 120-131: one sample per integer `t`, from the current `t` to the
second point (`n` more iterations). -/
def segmentSamples (seg : ℝ → ℝ → ℝ → ℝ → ℝ → Option ℝ) (p0 p1 : Int × ℝ) (t n : Nat) :
    List (Option ℝ) :=
  (List.range n).map (fun i => seg p0.1 p0.2 p1.1 p1.2 ((t + i : Nat) : ℝ))

/-- Tools.cpp:95-113 `linearInterpolation2` and 115-134 `cubicInterpolation2`: the outer loop runs while
`t < points.back().first`; `points[i + 1]` past the end is undefined behaviour. -/
def interpolation2 (seg : ℝ → ℝ → ℝ → ℝ → ℝ → Option ℝ) (last : Int) : Nat → List (Int × ℝ) →
    Except Err (List (Option ℝ))
  | t, p0 :: p1 :: l =>
    if (t : Int) < last then
      let n := (p1.1 + 1 - t).toNat
      match interpolation2 seg last (t + n) (p1 :: l) with
      | .error x => .error x
      | .ok r => .ok (segmentSamples seg p0 p1 t n ++ r)
    else .ok []
  | t, _ => if (t : Int) < last then .error .ub else .ok []

/-- Band.cpp:182-187: position of a keyframe in samples and its amplitude; `.value()` throws. The division
is unsigned. -/
def curvePoint (fs : Int) (timescale : Nat) (k : Keyframe) : Except Err (Int × ℝ) :=
  match k.relativePosition with
  | none => .error .throw
  | some p =>
    if timescale = 0 then .error .ub
    else match k.amplitudeModulation with
      | none => .error .throw
      | some a => .ok (toSigned 32 (u32 (p * fs) / timescale), (a : ℝ))

/-- Band.cpp:177-189: positions relative to the first keyframe. -/
def curvePoints (fs : Int) (timescale : Nat) (l : List Keyframe) : Except Err (List (Int × ℝ)) :=
  match mapE (curvePoint fs timescale) l with
  | .error x => .error x
  | .ok [] => .error .ub
  | .ok (p :: ps) => .ok ((0, p.2) :: ps.map (fun q => (q.1 - p.1, q.2)))

/-- Band.cpp:194-213: the curve types modelled here; the other three interpolations are an argument. -/
def interpolateCurve (other : Nat → List (Int × ℝ) → Except Err (List (Option ℝ))) (curveType : Nat)
    (points : List (Int × ℝ)) : Except Err (List (Option ℝ)) :=
  let last := (points.getLastD (0, 0)).1
  if curveType = CurveType.Linear then interpolation2 linearSegment last 0 points
  else if 3 ≤ curveType ∧ curveType ≤ 5 then other curveType points
  else interpolation2 cubicSegment last 0 points

/-- Band.cpp:215-227: adds the samples of a curve effect to the band; an index past the end of the
interpolated signal is undefined behaviour. -/
def addCurve (amp : List (Option ℝ)) (curve : List (Option ℝ)) (last : Int) (position : Int) :
    Except Err (List (Option ℝ)) :=
  let count : Nat := (-position).toNat
  let start : Nat := position.toNat
  let touched := fun i => decide (start ≤ i ∧ ((i - start + count : Nat) : Int) ≤ last)
  if (List.range amp.length).any (fun i => touched i && decide (curve.length ≤ i - start + count)) then
    .error .ub
  else .ok ((List.range amp.length).map (fun i =>
    if touched i then fadd (amp.getD i (some 0)) (curve.getD (i - start + count) (some 0))
    else amp.getD i (some 0)))

/-- Band.cpp:176-229: one curve effect.  With two keyframes the interpolated signal is computed and then
dropped. -/
def addCurveEffect (other : Nat → List (Int × ℝ) → Except Err (List (Option ℝ))) (curveType : Nat)
    (fs pad : Int) (timescale : Nat) (amp : List (Option ℝ)) (e : Effect) :
    Except Err (List (Option ℝ)) :=
  match curvePoints fs timescale e.keyframes with
  | .error x => .error x
  | .ok points =>
    let last := (points.getLastD (0, 0)).1
    if points.length = 2 then
      match interpolation2 linearSegment last 0 points with
      | .error x => .error x
      | .ok _ => .ok amp
    else match interpolateCurve other curveType points with
      | .error x => .error x
      | .ok curve => addCurve amp curve last (toSigned 32 (u32 ((e.position + pad) * fs * timescale)))

/-- Band.cpp:244-252: the sum over the started effects, from the last to the first. -/
def sumEffects (samples : Effect → List ℝ) (b : Band) (position : ℝ) (timescale : Nat) :
    Option ℝ → List Effect → Except Err (Option ℝ)
  | acc, [] => .ok acc
  | acc, e :: l =>
    if (e.position : ℝ) ≤ position then
      match b.evaluationSwitch samples position e b.lowerFrequencyLimit b.upperFrequencyLimit timescale with
      | .error x => .error x
      | .ok v => sumEffects samples b position timescale (fadd acc v) l
    else sumEffects samples b position timescale acc l

/-- Band.cpp:233-252: one sample of the default branch.  The `if` of lines 235-242 only stores the zero
that is already there, but computes the length of the last effect; without effects `effects.end() - 1` is
undefined behaviour. `fs` is not zero (Helper.cpp passes the sampling frequency). -/
def Band.evaluationSample (samples : Effect → List ℝ) (b : Band) (fs pad : Int) (timescale : Nat) (ti : Nat) :
    Except Err (Option ℝ) :=
  match b.effects.getLast? with
  | none => .error .ub
  | some last =>
    match last.timeLength b.bandType (transientDuration timescale) with
    | .error x => .error x
    | .ok _ => sumEffects samples b (timescale * ((ti : ℝ) / fs - pad * 0.001)) timescale (some 0)
        b.effects.reverse

/-- Band.cpp:171-257 `EvaluationBand`. -/
def Band.evaluationBand (samples : Effect → List ℝ)
    (other : Nat → List (Int × ℝ) → Except Err (List (Option ℝ))) (b : Band) (sampleCount : Nat)
    (fs pad : Int) (timescale : Nat) : Except Err (List (Option ℝ)) :=
  if b.bandType = BandType.Curve then
    foldE (addCurveEffect other b.curveTypeOrDefault fs pad timescale)
      (List.replicate sampleCount (some 0)) b.effects
  else mapE (b.evaluationSample samples fs pad timescale) (List.range sampleCount)

/-- Channel.cpp:193-201: adds the signal of a band, clamping each sample. -/
def mixBand (channelAmp bandAmp : List (Option ℝ)) : List (Option ℝ) :=
  List.zipWith (fun x y => clamp1 (fadd x y)) channelAmp bandAmp

/-- Channel.cpp:191-202: the loop over the bands. -/
def mixBands (samples : Effect → List ℝ)
    (other : Nat → List (Int × ℝ) → Except Err (List (Option ℝ))) (sampleCount : Nat) (fs pad : Int)
    (timescale : Nat) : List (Option ℝ) → List Band → Except Err (List (Option ℝ))
  | amp, [] => .ok amp
  | amp, b :: l => match b.evaluationBand samples other sampleCount fs pad timescale with
    | .error x => .error x
    | .ok v => mixBands samples other sampleCount fs pad timescale (mixBand amp v) l

/-- Channel.cpp:188-204 `EvaluateChannel`. -/
def Channel.evaluateChannel (samples : Effect → List ℝ)
    (other : Nat → List (Int × ℝ) → Except Err (List (Option ℝ))) (c : Channel) (sampleCount : Nat)
    (fs pad : Int) (timescale : Nat) : Except Err (List (Option ℝ)) :=
  mixBands samples other sampleCount fs pad timescale (List.replicate sampleCount (some 0)) c.bands

end

end Haptics
