import Verif.Eval.Model

/-
Rendering of effects with the rounding of `double`: the functions of `Eval/Model.lean` once more, where every
operation is followed by a rounding.  /repo/source/Types/src/{Effect,Band,Channel}.cpp and
/repo/source/Tools/src/Tools.cpp.

The rounding and the functions of the library are parameters.  `Arith.exact` gives back the functions of
`Eval/Model.lean`; what is asked of a rounding, and that of binary64, are in `Eval/SpecRounded.lean`.
-/
namespace Haptics

/-- Arithmetic on `double`: the rounding of a result, `std::sin`, `std::pow(x, 2)`, `std::pow(x, 3)` and `M_PI`. -/
structure Arith where
  rd : ℝ → ℝ
  sin : ℝ → ℝ
  pow2 : ℝ → ℝ
  pow3 : ℝ → ℝ
  pi : ℝ

noncomputable section

/-- No rounding. -/
def Arith.exact : Arith := ⟨fun x => x, Real.sin, fun x => x ^ 2, fun x => x ^ 3, Real.pi⟩

namespace Rounded

variable (A : Arith)

/-- Division of doubles. -/
def fdiv (a b : ℝ) : Option ℝ := if b = 0 then none else some (A.rd (a / b))

/-- Sum of doubles. -/
def fadd (a b : Option ℝ) : Option ℝ := match a, b with
  | some x, some y => some (A.rd (x + y))
  | _, _ => none

/-- Effect.cpp:239 and Band.cpp:234 `MS_2_S`. -/
def milli : ℝ := A.rd 0.001

/-- Tools.cpp:39-60 `linearInterpolation`. -/
def linearInterpolation (a b : Int × ℝ) (x : ℝ) : Option ℝ :=
  if x < a.1 then some a.2
  else if x > b.1 then some b.2
  else if a.1 ≥ b.1 then
    fdiv A (A.rd (A.rd (b.2 * A.rd (a.1 - x)) + A.rd (a.2 * A.rd (x - b.1)))) (A.rd (a.1 - b.1))
  else fdiv A (A.rd (A.rd (a.2 * A.rd (b.1 - x)) + A.rd (b.2 * A.rd (x - a.1)))) (A.rd (b.1 - a.1))

/-- Tools.cpp:62-76 `chirpInterpolation`; the difference of the times is one of `int`. -/
def chirpInterpolation (startTime endTime : Int) (startFrequency endFrequency position : ℝ) : ℝ :=
  if endTime < startTime then
    A.rd (A.rd (A.rd (A.rd (A.rd (startFrequency - endFrequency) / (startTime - endTime)) / 2)
      * A.rd (position - endTime)) + endFrequency)
  else if startTime = endTime then endFrequency
  else A.rd (A.rd (A.rd (A.rd (A.rd (endFrequency - startFrequency) / (endTime - startTime)) / 2)
    * A.rd (position - startTime)) + startFrequency)

/-- Effect.cpp:365-368 and Tools.cpp:127. -/
def cubicSegment (t0 f0 t1 f1 t : ℝ) : Option ℝ :=
  let h := A.rd (t1 - t0)
  (fdiv A (A.rd (A.rd (A.rd (f1 - f0) * A.rd (A.rd (3 * h) + A.rd (2 * A.rd (t0 - t)))) * A.pow2 (A.rd (t - t0))))
    (A.pow3 h)).map (fun q => A.rd (f0 + q))

/-- Effect.cpp:369-370 and Tools.cpp:106. -/
def linearSegment (t0 f0 t1 f1 t : ℝ) : Option ℝ :=
  fdiv A (A.rd (A.rd (f0 * A.rd (t1 - t)) + A.rd (f1 * A.rd (t - t0)))) (A.rd (t1 - t0))

/-- Effect.cpp:338-377 `EvaluateKeyframes`. -/
def evaluateKeyframes (e : Effect) (position : ℝ) (curveType : Nat) (timescale : Nat) : Option ℝ :=
  let rel := A.rd (position - e.position)
  let points := e.keyframes.filterMap Keyframe.point
  match points.dropWhile (fun p => decide (¬ p.1 > rel)) with
  | [] => some 0
  | after :: _ =>
    match (points.takeWhile (fun p => decide (¬ p.1 > rel))).getLast? with
    | none => some after.2
    | some before =>
      if timescale = 0 then
        (if curveType = CurveType.Cubic ∨ curveType = CurveType.Linear then none else some 0)
      else
        let t0 := A.rd (before.1 / timescale)
        let t1 := A.rd (after.1 / timescale)
        let t := A.rd (rel / timescale)
        if curveType = CurveType.Cubic then cubicSegment A t0 before.2 t1 after.2 t
        else if curveType = CurveType.Linear then linearSegment A t0 before.2 t1 after.2 t
        else some 0

/-- Effect.cpp:379-401 `computeBaseSignal`. -/
def computeBaseSignal (e : Effect) (time frequency phase : ℝ) : Option ℝ :=
  let time : Option ℝ :=
    if frequency ≠ 0 then
      (fdiv A phase (A.rd (A.rd (2 * A.pi) * frequency))).map (fun q => A.rd (time + q))
    else some time
  time.map (fun time =>
    let x := A.rd (time * frequency)
    match e.baseSignalOrDefault with
    | 0 => A.sin (A.rd (A.rd (A.rd (2 * A.pi) * time) * frequency))
    | 1 => A.rd (1 - A.rd (2 * cround (A.rd (x - ⌊x⌋))))
    | 2 => A.rd (1 - A.rd (4 * |A.rd (cround (A.rd (x - 1 / 4)) - A.rd (x - 1 / 4))|))
    | 3 => A.rd (2 * A.rd (x - ⌊A.rd (x + 1 / 2)⌋))
    | 4 => A.rd (2 * A.rd (⌊A.rd (x + 1 / 2)⌋ - x))
    | _ => 1)

/-- Effect.cpp:195-227: amplitude of a vectorial effect at `rel`. -/
def amplitudeModulationAt (keyframes : List Keyframe) (rel : ℝ) : Option ℝ :=
  let stop : Keyframe → Bool := fun k => match k.relativePosition, k.amplitudeModulation with
    | some p, some _ => decide ((p : ℝ) ≥ rel)
    | _, _ => false
  let before := (keyframes.takeWhile (fun k => !stop k)).reverse.find? (·.amplitudeModulation.isSome)
  match keyframes.dropWhile (fun k => !stop k) with
  | after :: _ => match before with
    | none => some ((after.amplitudeModulation.getD 0 : ℚ) : ℝ)
    | some b => linearInterpolation A (b.relativePosition.getD 0, ((b.amplitudeModulation.getD 0 : ℚ) : ℝ))
        (after.relativePosition.getD 0, ((after.amplitudeModulation.getD 0 : ℚ) : ℝ)) rel
  | [] => match keyframes.reverse.find? (·.amplitudeModulation.isSome) with
    | some k => some ((k.amplitudeModulation.getD 0 : ℚ) : ℝ)
    | none => some 1

/-- Effect.cpp:234-262: the loop over frequency keyframes; the sums and differences of frequencies and times are those
of `int`. -/
def frequencyLoop (rel : ℝ) : Option Keyframe → ℝ → List Keyframe →
    ℝ × Option (Option Keyframe × Keyframe)
  | _, phi, [] => (phi, none)
  | prev, phi, k :: l => match k.frequencyModulation with
    | none => frequencyLoop rel prev phi l
    | some f =>
      let pos : Int := k.relativePosition.getD 0
      if (pos : ℝ) ≥ rel then (phi, some (prev, k))
      else
        let phi := match prev with
          | some b => A.rd (phi + A.rd (A.rd (A.rd (A.pi * ((pos - b.relativePosition.getD 0 : Int) : ℝ)) * milli A)
              * ((b.frequencyModulation.getD 0 + f : Int) : ℝ)))
          | none => if pos > 0 then A.rd (phi + A.rd (A.rd (A.rd (A.rd (2 * A.pi) * pos) * milli A) * f)) else phi
        frequencyLoop rel (some k) phi l

/-- Effect.cpp:403-425 `getEffectTimeLength`. -/
def timeLength (e : Effect) (bandType : Nat) (transientDuration : ℝ) : Except Err ℝ :=
  if e.keyframes.isEmpty then .ok 0
  else if bandType = BandType.Transient ∨ bandType = BandType.Curve ∨ bandType = BandType.VectorialWave then
    match (e.keyframes.filterMap Keyframe.relativePosition).getLast? with
    | none => .error .ub
    | some p => .ok (if bandType = BandType.Transient then A.rd (p + transientDuration) else p)
  else .ok 0

/-- Effect.cpp:183-299 `EvaluateVectorial`. -/
def evaluateVectorial (e : Effect) (position : ℝ) (low high : Int) (timescale : Nat) : Except Err (Option ℝ) :=
  match timeLength A e BandType.VectorialWave 0 with
  | .error x => .error x
  | .ok len =>
    if position < e.position ∨ position > A.rd (e.position + len) ∨ e.keyframes = [] then .ok (some 0)
    else
      let rel := A.rd (position - e.position)
      let (phi, found) := frequencyLoop A rel none (e.phaseOrDefault : ℝ) e.keyframes
      let fr : Except Err (ℝ × ℝ) := match found with
        | some (none, k) => .ok ((k.frequencyModulation.getD 0 : Int), rel)
        | some (some b, k) =>
          if high < low then .error .ub
          else
            let f := chirpInterpolation A (b.relativePosition.getD 0) (k.relativePosition.getD 0)
              (b.frequencyModulation.getD 0 : Int) (k.frequencyModulation.getD 0 : Int) rel
            .ok (max (low : ℝ) (min f high), A.rd (rel - (b.relativePosition.getD 0 : Int)))
        | none => match e.keyframes.reverse.find? (·.frequencyModulation.isSome) with
          | some k => .ok ((k.frequencyModulation.getD 0 : Int), rel)
          | none => .ok (0, rel)
      match fr with
      | .error x => .error x
      | .ok (frequency, rel') =>
        .ok (do
          let amp ← amplitudeModulationAt A e.keyframes rel
          let time ← fdiv A rel' timescale
          let s ← computeBaseSignal A e time frequency phi
          pure (A.rd (amp * s)))

/-- Effect.cpp:316-320 `checkingFunction`. -/
def transientActive (rel duration : ℝ) (k : Keyframe) : Bool :=
  match k.relativePosition with
  | none => false
  | some p => decide ((p : ℝ) ≤ rel ∧ A.rd ((p : ℝ) + duration) ≥ rel)

/-- Effect.cpp:324-333. -/
def transientLoop (rel duration : ℝ) : ℝ → List Keyframe → Except Err (Option ℝ)
  | res, [] => .ok (some res)
  | res, k :: l =>
    if transientActive A rel duration k then
      match k.amplitudeModulation with
      | none => .error .diverge
      | some a =>
        match fdiv A (A.rd (A.rd (4 * A.pi) * A.rd (rel - (k.relativePosition.getD 0 : Int)))) duration with
        | none => .ok none
        | some x => transientLoop rel duration (A.rd (res + A.rd (A.sin x * (a : ℝ)))) l
    else .ok (some res)

/-- Effect.cpp:313-336 `EvaluateTransient`. -/
def evaluateTransient (e : Effect) (position duration : ℝ) : Except Err (Option ℝ) :=
  let rel := A.rd (position - e.position)
  transientLoop A rel duration 0 (e.keyframes.reverse.dropWhile (fun k => !transientActive A rel duration k))

/-- Effect.cpp:301-311 `EvaluateWavelet` on the decoded samples. -/
def evaluateWavelet (samples : List ℝ) (effectPosition : Int) (position : ℝ) (fs : Int) (timescale : Nat) :
    Except Err (Option ℝ) :=
  match fdiv A (A.rd (A.rd (position - effectPosition) * fs)) timescale with
  | none => .error .ub
  | some rel =>
    let index := ⌊rel⌋
    if index ≥ samples.length then .ok (some 0)
    else if index < 0 then .error .ub
    else .ok (some (samples.getD index.toNat 0))

/-- Band.cpp:272-274 `getTransientDuration`; without a timescale it is 22 / inf. -/
def transientDuration (timescale : Nat) : ℝ :=
  if timescale = 0 then 0 else A.rd (22 / A.rd (1000 / timescale))

/-- Band.cpp:147-169 `EvaluationSwitch`. -/
def evaluationSwitch (samples : Effect → List ℝ) (b : Band) (position : ℝ) (e : Effect)
    (low high : Int) (timescale : Nat) : Except Err (Option ℝ) :=
  if b.bandType = BandType.Curve then
    .ok (evaluateKeyframes A e position b.curveTypeOrDefault timescale)
  else if b.bandType = BandType.VectorialWave then evaluateVectorial A e position low high timescale
  else if b.bandType = BandType.WaveletWave then
    evaluateWavelet A (samples e) e.position position b.upperFrequencyLimit timescale
  else if b.bandType = BandType.Transient then
    if (e.position : ℝ) ≤ position then
      match timeLength A e BandType.Transient (transientDuration A timescale) with
      | .error x => .error x
      | .ok len =>
        if position ≤ A.rd (e.position + len) then
          evaluateTransient A e position (transientDuration A timescale)
        else .ok (some 0)
    else .ok (some 0)
  else .ok (some 0)

/-- Band.cpp:124-145 `Evaluate`. -/
def bandEvaluate (samples : Effect → List ℝ) (b : Band) (position : ℝ) (low high : Int) (timescale : Nat) :
    Except Err (Option ℝ) :=
  match b.effects.getLast? with
  | none => .ok (some 0)
  | some last =>
    match (if b.bandType = BandType.WaveletWave then .ok false
      else match timeLength A last b.bandType 22 with
        | .error x => .error x
        | .ok len => .ok (decide (position > A.rd (last.position + len) ∨ position < 0)) :
          Except Err Bool) with
    | .error x => .error x
    | .ok true => .ok (some 0)
    | .ok false =>
      match b.effects.reverse.find? (fun e => decide ((e.position : ℝ) ≤ position)) with
      | none => .ok (some 0)
      | some e => evaluationSwitch A samples b position e low high timescale

/-- Channel.cpp:171-177: the sum over the bands. -/
def sumBands (samples : Effect → List ℝ) (position : ℝ) (timescale : Nat) :
    Option ℝ → List Band → Except Err (Option ℝ)
  | acc, [] => .ok acc
  | acc, b :: l =>
    match bandEvaluate A samples b position b.lowerFrequencyLimit b.upperFrequencyLimit timescale with
    | .error x => .error x
    | .ok v => sumBands samples position timescale (fadd A acc v) l

/-- Channel.cpp:171-186 `Evaluate`. -/
def evaluate (samples : Effect → List ℝ) (c : Channel) (position : ℝ) (timescale : Nat) :
    Except Err (Option ℝ) :=
  match sumBands A samples position timescale (some 0) c.bands with
  | .error x => .error x
  | .ok v => .ok (clamp1 v)

/-- Band.cpp:194-213. -/
def interpolateCurve (other : Nat → List (Int × ℝ) → Except Err (List (Option ℝ))) (curveType : Nat)
    (points : List (Int × ℝ)) : Except Err (List (Option ℝ)) :=
  let last := (points.getLastD (0, 0)).1
  if curveType = CurveType.Linear then interpolation2 (linearSegment A) last 0 points
  else if 3 ≤ curveType ∧ curveType ≤ 5 then other curveType points
  else interpolation2 (cubicSegment A) last 0 points

/-- Band.cpp:215-227. -/
def addCurve (amp : List (Option ℝ)) (curve : List (Option ℝ)) (last : Int) (position : Int) :
    Except Err (List (Option ℝ)) :=
  let count : Nat := (-position).toNat
  let start : Nat := position.toNat
  let touched := fun i => decide (start ≤ i ∧ ((i - start + count : Nat) : Int) ≤ last)
  if (List.range amp.length).any (fun i => touched i && decide (curve.length ≤ i - start + count)) then
    .error .ub
  else .ok ((List.range amp.length).map (fun i =>
    if touched i then fadd A (amp.getD i (some 0)) (curve.getD (i - start + count) (some 0))
    else amp.getD i (some 0)))

/-- Band.cpp:176-229: one curve effect. -/
def addCurveEffect (other : Nat → List (Int × ℝ) → Except Err (List (Option ℝ))) (curveType : Nat)
    (fs pad : Int) (timescale : Nat) (amp : List (Option ℝ)) (e : Effect) :
    Except Err (List (Option ℝ)) :=
  match curvePoints fs timescale e.keyframes with
  | .error x => .error x
  | .ok points =>
    let last := (points.getLastD (0, 0)).1
    if points.length = 2 then
      match interpolation2 (linearSegment A) last 0 points with
      | .error x => .error x
      | .ok _ => .ok amp
    else match interpolateCurve A other curveType points with
      | .error x => .error x
      | .ok curve => addCurve A amp curve last (toSigned 32 (u32 ((e.position + pad) * fs * timescale)))

/-- Band.cpp:244-252: the sum over the started effects. -/
def sumEffects (samples : Effect → List ℝ) (b : Band) (position : ℝ) (timescale : Nat) :
    Option ℝ → List Effect → Except Err (Option ℝ)
  | acc, [] => .ok acc
  | acc, e :: l =>
    if (e.position : ℝ) ≤ position then
      match evaluationSwitch A samples b position e b.lowerFrequencyLimit b.upperFrequencyLimit timescale with
      | .error x => .error x
      | .ok v => sumEffects samples b position timescale (fadd A acc v) l
    else sumEffects samples b position timescale acc l

/-- Band.cpp:233-252: one sample of the default branch. -/
def evaluationSample (samples : Effect → List ℝ) (b : Band) (fs pad : Int) (timescale : Nat) (ti : Nat) :
    Except Err (Option ℝ) :=
  match b.effects.getLast? with
  | none => .error .ub
  | some last =>
    match timeLength A last b.bandType (transientDuration A timescale) with
    | .error x => .error x
    | .ok _ => sumEffects A samples b (A.rd (timescale * A.rd (A.rd ((ti : ℝ) / fs) - A.rd (pad * milli A)))) timescale
        (some 0) b.effects.reverse

/-- Band.cpp:171-257 `EvaluationBand`. -/
def evaluationBand (samples : Effect → List ℝ)
    (other : Nat → List (Int × ℝ) → Except Err (List (Option ℝ))) (b : Band) (sampleCount : Nat)
    (fs pad : Int) (timescale : Nat) : Except Err (List (Option ℝ)) :=
  if b.bandType = BandType.Curve then
    foldE (addCurveEffect A other b.curveTypeOrDefault fs pad timescale)
      (List.replicate sampleCount (some 0)) b.effects
  else mapE (evaluationSample A samples b fs pad timescale) (List.range sampleCount)

/-- Channel.cpp:193-201: adds the signal of a band, clamping each sample. -/
def mixBand (channelAmp bandAmp : List (Option ℝ)) : List (Option ℝ) :=
  List.zipWith (fun x y => clamp1 (fadd A x y)) channelAmp bandAmp

/-- Channel.cpp:191-202: the loop over the bands. -/
def mixBands (samples : Effect → List ℝ)
    (other : Nat → List (Int × ℝ) → Except Err (List (Option ℝ))) (sampleCount : Nat) (fs pad : Int)
    (timescale : Nat) : List (Option ℝ) → List Band → Except Err (List (Option ℝ))
  | amp, [] => .ok amp
  | amp, b :: l => match evaluationBand A samples other b sampleCount fs pad timescale with
    | .error x => .error x
    | .ok v => mixBands samples other sampleCount fs pad timescale (mixBand A amp v) l

/-- Channel.cpp:188-204 `EvaluateChannel`. -/
def evaluateChannel (samples : Effect → List ℝ)
    (other : Nat → List (Int × ℝ) → Except Err (List (Option ℝ))) (c : Channel) (sampleCount : Nat)
    (fs pad : Int) (timescale : Nat) : Except Err (List (Option ℝ)) :=
  mixBands A samples other sampleCount fs pad timescale (List.replicate sampleCount (some 0)) c.bands

end Rounded
end
end Haptics
