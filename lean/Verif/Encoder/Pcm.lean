import Verif.Encoder.Numbers
import Verif.Types.Model
import Verif.Tools.Wav
import Verif.Json.Tables

/-! Encoding of WAV files: Encoder/src/PcmEncoder.cpp.

Signals are lists of (finite) `double` values.  The low-pass filter, the evaluation of a band and the wavelet encoder are
parameters (the latter two have models of their own). -/

namespace Haptics.Pcm
open Haptics

/-- A point of a curve: index and value. -/
abbrev Point := Int × ℚ

/-- Tools.cpp:90-93 `is_eq`. -/
def isEq (a b : ℚ) : Bool := decide (|fl64 (a - b)| ≤ 100 / 2 ^ 52)

/-- PcmEncoder.cpp:220-222: the condition of the loop. -/
def turns (last value next : ℚ) : Bool :=
  decide ((value ≥ last ∧ value ≥ next) ∨ (value ≤ last ∧ value ≤ next)) && !(isEq value last && isEq value next)

/-- PcmEncoder.cpp:218-231: the loop, from index `i` of `value` on; also gives the last index and value. -/
def extremaLoop (i : Int) (last value : ℚ) : List ℚ → List Point × Point
  | [] => ([], (i, value))
  | next :: rest =>
    let r := extremaLoop (i + 1) value next rest
    if turns last value next then ((i, value) :: r.1, r.2) else r

/-- PcmEncoder.cpp:176-239 `localExtrema`. -/
def localExtrema (signal : List ℚ) (includeBorder : Bool) : List Point :=
  match signal with
  | [] => []
  | [a] => if includeBorder then [(0, a), (0, a)] else []
  | [a, b] => if includeBorder then [(0, a), (1, b)] else []
  | a :: b :: rest =>
    let r := extremaLoop 1 a b rest
    if includeBorder then (0, a) :: r.1 ++ [r.2] else r.1

/-- PcmEncoder.cpp:161-162: the tick of an index.  The conversion of a result that is not an `int` is undefined; so is
that of `0 / 0` and `x / 0`. -/
def tick (timescale : Nat) (rate : ℚ) (i : Int) : Except Err Int :=
  if rate = 0 then .error .ub else castInt (roundAway (fl64 (fl64 (timescale * i) / rate)))

/-- A keyframe of a curve; the amplitude is stored as `float`. -/
def curveKeyframe (position : Int) (value : ℚ) : Keyframe := ⟨some position, some (fl32 value), none⟩

/-- PcmEncoder.cpp:163-169: what is done with one point at tick `position`. -/
def addPoint (position last : Int) (value : ℚ) (kfs : List Keyframe) : List Keyframe :=
  if position > last then kfs ++ [curveKeyframe position value]
  else if position = last then
    (if kfs = [] then kfs else kfs.dropLast ++ [curveKeyframe position value])
  else kfs

/-- PcmEncoder.cpp:159-170. -/
def keyframesLoop (timescale : Nat) (rate : ℚ) : List Point → (last : Int) → List Keyframe → Except Err (List Keyframe)
  | [], _, kfs => .ok kfs
  | p :: rest, last, kfs => do
    let position ← tick timescale rate p.1
    keyframesLoop timescale rate rest position (addPoint position last p.2 kfs)

/-- PcmEncoder.cpp:151-157 and 171: the band with its effect. -/
def curveBand (upper : Int) (keyframes : List Keyframe) : Band :=
  { bandType := BandType.Curve, curveType := some 1, blockLength := some 0, lowerFrequencyLimit := 0,
    upperFrequencyLimit := upper,
    effects := [{ position := 0, phase := some 0, baseSignal := some 0, keyframes := keyframes }] }

/-- PcmEncoder.cpp:143-174 `convertToCurveBand`; `none` when it returns false (and leaves the band as it was). -/
def convertToCurveBand (points : List Point) (rate limit : ℚ) (timescale : Nat) : Except Err (Option Band) :=
  if limit ≤ 0 then .ok none
  else do
    let upper ← castInt limit
    let kfs ← keyframesLoop timescale rate points (-1) []
    pure (some (curveBand upper kfs))

/-- PcmEncoder.h:62-67. -/
structure Config where
  curveFrequencyLimit : ℚ := 0
  waveletEnabled : Bool := true
  vectorialEnabled : Bool := true

/-- The parts that are parameters: the low-pass filter, `EvaluationBand` for a number of samples, and `encodeSignal`,
which gives the wavelet band or `none` when it returns false. -/
structure Parts where
  lowPass : List ℚ → ℚ → List ℚ
  evaluate : Band → Nat → Except Err (List ℚ)
  wavelet : List ℚ → Except Err (Option Band)

/-- PcmEncoder.cpp:100-108: the curve type for a modality. -/
def curveTypeFor (modality : Nat) : Nat :=
  if modality = 9 ∨ modality = 11 then 2 else if modality = 6 ∨ modality = 10 then 1 else 0

/-- PcmEncoder.cpp:87-110: the curve band, and whether it is added.  A band that is not made stays the default one. -/
def curvePart (parts : Parts) (cfg : Config) (timescale : Nat) (modality : Nat) (rate : Nat) (signal : List ℚ) :
    Except Err (Band × Bool) :=
  if cfg.vectorialEnabled ∧ (cfg.curveFrequencyLimit > 0 ∨ ¬ cfg.waveletEnabled) then do
    let low := if cfg.curveFrequencyLimit > 0 then parts.lowPass signal cfg.curveFrequencyLimit
      else signal.map (fun _ => 0)
    let filtered := if ¬ cfg.waveletEnabled ∧ cfg.curveFrequencyLimit = 0 then signal else low
    let b ← convertToCurveBand (localExtrema filtered true) rate
      (if cfg.curveFrequencyLimit > 0 then cfg.curveFrequencyLimit else rate) timescale
    match b with
    | some b => pure ({ b with curveType := some (curveTypeFor modality) }, true)
    | none => pure ({}, false)
  else .ok ({}, false)

/-- `signal_wavelet[i] -= other[i]` for all `i`; reading behind the end is undefined. -/
def subtract : List ℚ → List ℚ → Except Err (List ℚ)
  | [], _ => .ok []
  | _ :: _, [] => .error .ub
  | x :: l, y :: m => do
    let r ← subtract l m
    pure (fl64 (x - y) :: r)

/-- PcmEncoder.cpp:117-127: what the wavelet encoder is given. -/
def residual (parts : Parts) (cfg : Config) (signal : List ℚ) (band : Band) : Except Err (List ℚ) :=
  if cfg.curveFrequencyLimit > 0 then
    if cfg.vectorialEnabled then do
      let s ← parts.evaluate band signal.length
      subtract signal s
    else subtract signal (parts.lowPass signal cfg.curveFrequencyLimit)
  else .ok signal

/-- PcmEncoder.cpp:115-137: the wavelet band. -/
def waveletPart (parts : Parts) (cfg : Config) (signal : List ℚ) (band : Band) : Except Err (Option Band) :=
  if cfg.waveletEnabled then do
    let s ← residual parts cfg signal band
    parts.wavelet s
  else .ok none

/-- PcmEncoder.cpp:74-138: the bands of one channel. -/
def encodeChannel (parts : Parts) (cfg : Config) (timescale modality rate count : Nat) (signal : List ℚ) (c : Channel) :
    Except Err Channel := do
  let curve ← curvePart parts cfg timescale modality rate signal
  let wavelet ← waveletPart parts cfg signal curve.1
  pure { c with
    bands := c.bands ++ (if curve.2 then [curve.1] else []) ++ wavelet.toList
    frequencySampling := some rate
    sampleCount := some count }

/-- PcmEncoder.cpp:73-139: the channels from `i` on (the parser has a signal for each of its channels). -/
def channelsLoop (parts : Parts) (cfg : Config) (timescale rate count : Nat) :
    List (List ℚ) → (i : Nat) → Perception → Except Err Perception
  | [], _, p => .ok p
  | signal :: rest, i, p => do
    let c ← (match p.channels[i]? with | some c => .ok c | none => .error .throw)
    let c ← encodeChannel parts cfg timescale p.perceptionModality rate count signal c
    channelsLoop parts cfg timescale rate count rest (i + 1) { p with channels := p.channels.set i c }

/-- PcmEncoder.cpp:62. -/
def placeholder (i : Nat) : Channel :=
  { id := i, description := Json.lit "I'm a placeholder", gain := 1, mixingWeight := 1, bodyPartMask := 2 ^ 32 - 1 }

/-- PcmEncoder.cpp:53-141 `encode`: the code returned and the perception afterwards.  `file` is what the parser holds
after `loadFile`, whose result is not looked at: nothing when the file cannot be opened. -/
def encode (parts : Parts) (cfg : Config) (timescale : Nat) (file : Option Wav.Parser) (out : Perception) :
    Except Err (Nat × Perception) :=
  let w := file.getD {}
  if out.channels.length > w.numChannels then .ok (1, out)
  else do
    let new := (List.range (w.numChannels - out.channels.length)).map (fun k => placeholder (out.channels.length + k))
    let count := w.numSamples / w.numChannels % 2 ^ 32
    let p ← channelsLoop parts cfg timescale (w.sampleRate % 2 ^ 32).toNat count w.buffer 0
      { out with channels := out.channels ++ new }
    pure (0, p)

end Haptics.Pcm
