import Verif.Psycho.Model
import Verif.Wavelet.Encoder
import Verif.Bits.Float

/-!
The ratios of signal to mask: `PsychohapticModel/src/PsychohapticModel.cpp`, `getSMR`, `globalMaskingThreshold` and
`perceptualThreshold`.

Logarithm, power, square root and the Fourier transform (`dj_fft.h`, not part of the repository) are parameters.
Arithmetic is exact but for the threshold, where every operation is followed by the rounding of `double`.
-/

namespace Haptics.Psycho
open Haptics

/-- The functions that are called and not modelled: `log10`, `pow(10, x)`, `pow(x, 2)`, `sqrt`, and the spectrum that
`dj::fft1d` gives, as pairs of real and imaginary part. -/
structure Lib where
  log10 : Rat → Rat
  pow10 : Rat → Rat
  square : Rat → Rat
  sqrt : Rat → Rat
  fft : List Rat → List (Rat × Rat)

/-- PsychohapticModel.h:42 `c`. -/
def constC : Rat := fl64 (1 / 550)
/-- PsychohapticModel.h:43 `b`. -/
def constB : Rat := fl64 (1 - fl64 (250 * constC))

/-- PsychohapticModel.cpp:132 and 135: the threshold at the frequency `f`, in `double`. -/
def thresholdAt (lib : Lib) (f : Rat) : Rat :=
  let temp := fl64 (50 / lib.square (lib.log10 constB))
  lib.pow10 (fl64 (fl64 (|fl64 (temp * lib.square (lib.log10 (fl64 (fl64 (constC * f) + constB))))| - 45) / 10))

/-- PsychohapticModel.cpp:130-147 `perceptualThreshold`, over the frequencies: from the first value that is not below 1 on, all
values are 1. -/
def threshold (lib : Lib) : (freqs : List Rat) → List Rat
  | [] => []
  | f :: l =>
    if thresholdAt lib f ≥ 1 then 1 :: l.map (fun _ => 1)
    else thresholdAt lib f :: threshold lib l

/-- PsychohapticModel.cpp:71-82 and 85-88: the magnitudes of the first `bl` bins, times `correction`.  The block is copied to
`2 * bl` values. -/
def magnitudes (lib : Lib) (correction : Rat) (bl : Nat) (block : List Rat) : Except Err (List Rat) :=
  if block.length > 2 * bl then .error .ub
  else
    let s := lib.sqrt (2 * bl)
    .ok (((lib.fft (block ++ List.replicate (2 * bl - block.length) 0)).take bl).map (fun a =>
      correction * lib.sqrt (a.1 * s * (a.1 * s) + a.2 * s * (a.2 * s))))

/-- PsychohapticModel.cpp:87-88: the magnitude in dB.  `log10(0)` is −inf, for which the number `bottom` stands here; all that is
done with it is to compare it, to subtract it and (in `energy`) to raise 10 to it. -/
def level (lib : Lib) (bottom m : Rat) : Rat := if m = 0 then bottom else 20 * lib.log10 m

/-- PsychohapticModel.cpp:101: `pow(base, spect_mag[i] / factor)`, which is 0 for −inf. -/
def energy (lib : Lib) (m : Rat) : Rat := if m = 0 then 0 else lib.pow10 (20 * lib.log10 m / 10)

/-- PsychohapticModel.cpp:388-399 `findMaxVector`, of a vector that is not empty. -/
def findMaxVector : List Rat → Rat
  | [] => 0
  | v :: l => l.foldl (fun m x => if x > m then x else m) v

/-- PsychohapticModel.cpp:109-128 `globalMaskingThreshold`, at the bin with the frequency `f` and the threshold `t`.  The mask of
a peak is always a number (C86), so the case `.fail` does not arise. -/
def maskValue (lib : Lib) (freqs : List Rat) (peaks : List (Nat × Rat)) (f t : Rat) : Except Err Rat :=
  if peaks = [] then .ok t
  else do
    match ← peakMask freqs f peaks with
    | none => .error .fail
    | some m => .ok (lib.pow10 (m / 10) + t)

/-- PsychohapticModel.cpp:109-128: the mask at all bins. -/
def maskValues (lib : Lib) (freqs : List Rat) (peaks : List (Nat × Rat)) : (bins : List (Rat × Rat)) → Except Err (List Rat)
  | [] => .ok []
  | b :: l => do
    let v ← maskValue lib freqs peaks b.1 b.2
    let more ← maskValues lib freqs peaks l
    .ok (v :: more)

/-- PsychohapticModel.cpp:98-103: the sums over the bins of each band, for the bands that begin at the first number and end at the
following ones. -/
def bandSums (v : List Rat) : (start : Nat) → (stops : List Nat) → List Rat
  | _, [] => []
  | start, stop :: l => ((v.drop start).take (stop - start)).sum :: bandSums v stop l

/-- PsychohapticModel.cpp:69-107 `getSMR`, with a model for `bl` bins at `fs` Hz (PsychohapticModel.cpp:40-67).  `first` is the
static variable `correction` (line 84), set in the first call of the process. -/
def getSMR (lib : Lib) (bottom : Rat) (bl fs : Nat) (first : Option Rat) (block : List Rat) :
    Except Err (Wavelet.Model × Option Rat) := do
  let correction := first.getD (1 / lib.sqrt bl)
  let mags ← magnitudes lib correction bl block
  let levels := mags.map (level lib bottom)
  let peaks ← findPeaks levels 12 (findMaxVector levels - 45)
  let mask ← maskValues lib (freqs bl fs) peaks ((freqs bl fs).zip (threshold lib (freqs bl fs)))
  let stops ← bookCumulative bl
  let energies := bandSums (mags.map (energy lib)) 0 stops.tail
  let masks := bandSums mask 0 stops.tail
  .ok (⟨energies, energies.zipWith (fun e m => (Wavelet.Ext.ratio e m).log (fun q => 10 * lib.log10 q)) masks⟩,
    some correction)

/-- The blocks of a process one after the other, each with the block length and sampling frequency of the model it is given
to. -/
def run (lib : Lib) (bottom : Rat) : (first : Option Rat) → (calls : List (Nat × Nat × List Rat)) →
    Except Err (List Wavelet.Model)
  | _, [] => .ok []
  | first, (bl, fs, block) :: l => do
    let r ← getSMR lib bottom bl fs first block
    let more ← run lib bottom r.2 l
    .ok (r.1 :: more)

/-- WaveletEncoder.cpp:92: what the wavelet encoder gets to know about a block, if the models of the process have one block length
(C93); it is not undefined for blocks of 8, 16, 32, … samples (C93). -/
def ratios (lib : Lib) (bottom : Rat) (bl fs : Nat) (block : List Rat) : Wavelet.Model :=
  match getSMR lib bottom bl fs none block with
  | .ok r => r.1
  | .error _ => ⟨[], []⟩

end Haptics.Psycho
