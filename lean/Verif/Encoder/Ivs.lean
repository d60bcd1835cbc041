import Verif.Encoder.IvsRepeat
import Verif.Encoder.Inject
import Verif.Encoder.Numbers

/-!
Conversion of IVS files: IvsEncoder.cpp.

The XML document is taken as the elements and attributes the code looks at; an attribute that is absent is `none`,
integers are what `as_int` returns.  `int` sums are taken to stay in range; conversions of `double` are checked.
-/

namespace Haptics.Ivs
open Haptics

/-- A `basis-effect` element. -/
structure Basis where
  name : Str := []
  type : String := ""
  waveform : String := ""
  duration : Option Int := none
  magnitude : Option Int := none
  period : Option Int := none
  attackTime : Option Int := none
  attackLevel : Option Int := none
  fadeTime : Option Int := none
  fadeLevel : Option Int := none

/-- A `launch-event` element. -/
structure Launch where
  effect : Str := []
  time : Option Int := none
  durationOverride : Option Int := none
  magnitudeOverride : Option Int := none
  periodOverride : Option Int := none

/-- A `timeline-effect` element. -/
structure Timeline where
  name : Str := []
  launchEvents : List Launch := []
  repeatEvents : List Repeat := []

/-- An `ivs-file` element. -/
structure File where
  lastModified : Str := []
  basisEffects : List Basis := []
  timelines : List Timeline := []

/-- IvsEncoder.cpp:417-420 `millisecondsToTimeScale`; MS_2_S is 0.001 (Tools.h:42). -/
def toTicks (milliseconds : Int) (timescale : Nat) : Except Err Int :=
  castInt (fl64 (fl64 (milliseconds * fl64 (1 / 1000)) * timescale))

/-- IvsEncoder.cpp:407-415 `floatToInt`. -/
def floatToInt (f : Int) : Int := if f < 0 then (f + (2 ^ 31 - 1) + 1).tdiv 1000 else f

/-- IvsEncoder.cpp:308-316 `getDuration`, 299-306. -/
def getDuration (b : Basis) (l : Launch) : Int := match l.durationOverride with
  | some d => d
  | none => b.duration.getD (-1)

/-- IvsEncoder.cpp:318-331 `getMagnitude`. -/
def getMagnitude (b : Basis) (l : Launch) : Int := match l.magnitudeOverride with
  | some m => m
  | none => b.magnitude.getD (-1)

/-- IvsEncoder.cpp:333-347 `getPeriod`. -/
def getPeriod (b : Basis) (l : Launch) : Int := match l.periodOverride with
  | some p => floatToInt p
  | none => (b.period.map floatToInt).getD (-1)

/-- IvsEncoder.cpp:349-369 `getWaveform`; `BaseSignal(-1)` as unsigned number. -/
def getWaveform (b : Basis) : Nat := match b.waveform with
  | "sine" => 0
  | "square" => 1
  | "triangle" => 2
  | "sawtooth-up" => 3
  | "sawtooth-down" => 4
  | _ => 2 ^ 32 - 1

/-- IvsEncoder.cpp:163: period in milliseconds to Hz.  Converting the infinity of a zero period is undefined. -/
def frequency (period : Int) : Except Err Int :=
  if fl64 (fl32 period * fl64 (1 / 1000)) = 0 then .error .ub
  else castInt (fl64 (1 / fl64 (fl32 period * fl64 (1 / 1000))))

/-- IvsEncoder.cpp:178, 188, 207: `MAGNITUDE_2_AMPLITUDE` is .0001F (IvsEncoder.h:94). -/
def amplitudeOf (level : Int) : ℚ := fl32 (fl32 level * fl32 (1 / 10000))

/-- `static_cast<float>(linearInterpolation(..))`.  NaN is not a number of the model: reported as failure. -/
def interpolated (a b : Int × ℚ) (x : Int) : Except Err ℚ := match linear64 a b x with
  | none => .error .fail
  | some y => .ok (fl32 y)

/-- IvsEncoder.cpp:201-219: the fade; `attackTime` is -1 without attack. -/
def fade (b : Basis) (timescale : Nat) (amplitude : ℚ) (duration attackTime : Int) (e : Effect) : Except Err Effect :=
  let fadeDuration := b.fadeTime.getD (-1)
  if fadeDuration = -1 then .ok e
  else do
    let fadeDuration ← toTicks fadeDuration timescale
    let fadeTime := duration - fadeDuration
    let fadeAmplitude := amplitudeOf (b.fadeLevel.getD 0)
    let actualAttackTime := max attackTime 0
    let e ← if fadeTime < actualAttackTime then do
        let y ← interpolated (fadeTime, amplitude) (duration, fadeAmplitude) actualAttackTime
        pure (e.addAmplitudeAt (some y) actualAttackTime false)
      else if fadeTime > actualAttackTime then pure (e.addAmplitudeAt (some amplitude) fadeTime)
      else pure e
    pure (e.addAmplitudeAt (some fadeAmplitude) duration)

/-- IvsEncoder.cpp:184-221: attack and fade. -/
def envelope (b : Basis) (timescale : Nat) (amplitude : ℚ) (duration : Int) (e : Effect) : Except Err Effect :=
  let attackTime := b.attackTime.getD (-1)
  if attackTime = -1 then fade b timescale amplitude duration attackTime e
  else do
    let attackTime ← toTicks attackTime timescale
    let attackAmplitude := amplitudeOf (b.attackLevel.getD 0)
    let e := e.addAmplitudeAt (some attackAmplitude) 0
    if attackTime ≥ duration then do
      let y ← interpolated (0, attackAmplitude) (attackTime, amplitude) duration
      pure (e.addAmplitudeAt (some y) duration)
    else fade b timescale amplitude duration attackTime (e.addAmplitudeAt (some amplitude) attackTime)

/-- IvsEncoder.cpp:154-222 `convertToEffect`; `none` if it returns false. -/
def convertToEffect (b : Basis) (l : Launch) (timescale : Nat) : Except Err (Option Effect) :=
  let signal : Except Err (Option (Nat × Int)) :=
    if b.type = "periodic" then (frequency (getPeriod b l)).map (fun f => some (getWaveform b, f))
    else if b.type = "magsweep" then .ok (some (0, 170))
    else .ok none
  match signal with
  | .error x => .error x
  | .ok none => .ok none
  | .ok (some (baseSignal, freq)) => do
    let duration ← toTicks (getDuration b l) timescale
    let amplitude := amplitudeOf (getMagnitude b l)
    let e ← envelope b timescale amplitude duration
      { position := l.time.getD (-1), phase := some 0, baseSignal := some baseSignal,
        keyframes := [⟨some 0, some amplitude, some freq⟩, ⟨some duration, some amplitude, some freq⟩] }
    pure (some e)

/-- IvsEncoder.cpp:255-270 `getLaunchedEffect`: the first basis effect of that name. -/
def getLaunchedEffect (basis : List Basis) (l : Launch) : Option Basis := basis.find? (·.name == l.effect)

/-- IvsEncoder.cpp:98-111: the effects that are launched. -/
def launched (basis : List Basis) (timescale : Nat) : List Launch → Except Err (List Effect)
  | [] => .ok []
  | l :: ls => match getLaunchedEffect basis l with
    | none => launched basis timescale ls
    | some b => match convertToEffect b l timescale with
      | .error x => .error x
      | .ok none => launched basis timescale ls
      | .ok (some e) => (launched basis timescale ls).map (e :: ·)

/-- IvsEncoder.cpp:140 of every effect. -/
def ticks (timescale : Nat) : List Effect → Except Err (List Effect)
  | [] => .ok []
  | e :: l => do
    let p ← toTicks e.position timescale
    let l ← ticks timescale l
    pure ({ e with position := p } :: l)

/-- IvsEncoder.cpp:65-119: the effects of a timeline enter its channel; `sort` is `std::sort` at 71-77. -/
def encodeTimeline (sort : List Repeat → List Repeat) (basis : List Basis) (timescale : Nat) (t : Timeline)
    (c : Channel) : Except Err Channel := do
  let es ← launched basis timescale t.launchEvents
  let es ← ticks timescale (expandRepeats (sort t.repeatEvents) es)
  c.injectAll 0 1000 es

/-- IvsEncoder.cpp:58-62: the channel of a timeline, where the perception has none. -/
def newChannel (f : File) (t : Timeline) : Channel := { id := 0, description := t.name ++ [32, 45, 32] ++ f.lastModified }

/-- IvsEncoder.cpp:55-122: timelines one by one; the k-th goes to the k-th channel, which is created if needed. -/
def encodeTimelines (sort : List Repeat → List Repeat) (f : File) (timescale : Nat) :
    List Timeline → List Channel → Except Err (List Channel)
  | [], cs => .ok cs
  | t :: ts, [] => do
    let c ← encodeTimeline sort f.basisEffects timescale t (newChannel f t)
    let cs ← encodeTimelines sort f timescale ts []
    pure (c :: cs)
  | t :: ts, c :: cs => do
    let c ← encodeTimeline sort f.basisEffects timescale t c
    let cs ← encodeTimelines sort f timescale ts cs
    pure (c :: cs)

/-- IvsEncoder.cpp:42-125 `encode`, of a file that is well-formed XML. -/
def encode (sort : List Repeat → List Repeat) (f : File) (timescale : Nat) (p : Perception) : Except Err Perception := do
  let cs ← encodeTimelines sort f timescale f.timelines p.channels
  pure { p with channels := cs }

end Haptics.Ivs
