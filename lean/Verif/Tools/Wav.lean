import Verif.Encoder.Numbers

/-! WAV files: Tools/src/WavParser.cpp.

Samples are rational: multiplication with 32768 and rounding are exact for `double` values, and so is the conversion of
16 bit samples to `float` and `double`.  NaN and infinite samples are left out.  The library dr_wav, which is not part of
the repository, is taken to store and give back the header fields and the samples. -/

namespace Haptics.Wav
open Haptics

/-- A WAV file of 16 bit PCM: number of channels, rate and the interleaved samples, as unsigned words. -/
structure File where
  channels : Nat
  rate : Int
  samples : List Nat
deriving DecidableEq, Repr

/-- `(uint16_t)v`.  The language leaves this undefined for negative values; with `wrap` they are taken modulo 2^16, as
compilers for x86 do. -/
def toU16 (wrap : Bool) (v : ℚ) : Except Err Nat :=
  if -1 < v then .ok (truncQ v).toNat
  else if wrap then .ok (truncQ v % 65536).toNat
  else .error .ub

/-- WavParser.cpp:86-95 and 124-131: one sample. -/
def sample (wrap : Bool) (x : ℚ) : Except Err Nat :=
  let v := roundAway (x * 32768)
  if v > 32767 then .ok 32767
  else if v < -32768 then .ok 32768
  else toU16 wrap v

/-- WavParser.cpp:74-99 `saveFile` for one channel. -/
def saveMono (wrap : Bool) (rate : Int) (buff : List ℚ) : Except Err File := do
  let samples ← buff.mapM (sample wrap)
  pure ⟨1, rate, samples⟩

/-- `b_int.at(i) = x`. -/
def put (l : List Nat) (i x : Nat) : Except Err (List Nat) := if i < l.length then .ok (l.set i x) else .error .throw

/-- WavParser.cpp:123-132: the samples of channel `c` of `n`, from sample `i` on.  (The counter is 32 bits wide; longer
signals are left out.) -/
def channelLoop (wrap : Bool) (n c : Nat) : List ℚ → (i : Nat) → List Nat → Except Err (List Nat)
  | [], _, l => .ok l
  | x :: t, i, l => do
    let w ← sample wrap x
    let l ← put l (i * n + c) w
    channelLoop wrap n c t (i + 1) l

/-- WavParser.cpp:121-134: the channels from `c` on. -/
def channelsLoop (wrap : Bool) (n : Nat) : List (List ℚ) → (c : Nat) → List Nat → Except Err (List Nat)
  | [], _, l => .ok l
  | b :: t, c, l => do
    let l ← channelLoop wrap n c b 0 l
    channelsLoop wrap n t (c + 1) l

/-- WavParser.cpp:101-138 `saveFile` for several channels; `none` when it returns false. -/
def saveMulti (wrap : Bool) (rate : Int) (buff : List (List ℚ)) : Except Err (Option File) :=
  match buff with
  | [] => .error .throw
  | b :: t =>
    if t.any (fun x => x.length ≠ b.length) then .ok none
    else do
      let samples ← channelsLoop wrap buff.length buff 0 (List.replicate (buff.length * b.length) 0)
      pure (some ⟨buff.length, rate, samples⟩)

/-- WavParser.h:63-66: the object. -/
structure Parser where
  sampleRate : Int := 0
  numChannels : Nat := 0
  numSamples : Nat := 0
  buffer : List (List ℚ) := []
deriving DecidableEq, Repr

/-- A 16 bit sample as `float`, as dr_wav gives it. -/
def value (w : Nat) : ℚ := if w < 32768 then (w : ℚ) / 32768 else ((w : ℚ) - 65536) / 32768

/-- WavParser.cpp:65-69. -/
def spread (n : Nat) : List ℚ → (diff : Nat) → List (List ℚ) → Except Err (List (List ℚ))
  | [], _, b => .ok b
  | x :: t, d, b =>
    if d % n < b.length then spread n t (d + 1) (b.modify (d % n) (· ++ [x])) else .error .throw

/-- WavParser.cpp:41-72 `loadFile` of a file that can be opened. -/
def load (f : File) : Except Err Parser := do
  let frames := f.samples.length / f.channels
  let numSamples := frames * f.channels
  let buffer ← spread f.channels ((f.samples.take numSamples).map value) 0 (List.replicate f.channels [])
  pure ⟨f.rate, f.channels, numSamples, buffer⟩

end Haptics.Wav
