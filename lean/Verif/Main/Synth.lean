import Verif.Tools.Args
import Verif.Tools.Text
import Verif.Tools.Ohm
import Verif.Eval.Model
import Verif.Encoder.Numbers
import Verif.Types.Ops

/-! The synthesizer as a program: Synthesizer/src/main.cpp and Helper.cpp.

What is written to the console is left out.  The number of samples is computed in `double`, samples are real numbers or NaN
(`none`); their quantization is in Tools/Wav.lean. -/

namespace Haptics.SynthMain
open Haptics Haptics.Args
open Haptics.Json (lit)

noncomputable section

/-- Helper.cpp:102: the number of samples of each channel.  Conversion to `uint32_t` of a value that does not fit, or of
the quotient by a timescale of zero, is undefined. -/
def sampleCount (length : ℚ) (fs pad : Int) (timescale : Nat) : Except Err Nat :=
  if timescale = 0 then .error .ub
  else
    let v := roundAway (fl64 (fl64 (fs * fl64 (length + 2 * pad)) / timescale))
    if 0 ≤ v ∧ v < 2 ^ 32 then .ok (truncQ v).toNat else .error .ub

/-- The parts that are parameters: what `transformBand` makes of a wavelet band, the samples it leaves in an effect, and
the interpolations of other curves. -/
structure Parts where
  transform : Nat → Band → Except Err Band
  samples : Effect → List ℝ
  other : Nat → List (Int × ℝ) → Except Err (List (Option ℝ))

/-- Helper.cpp:84-95: wavelet bands are decoded. -/
def decodeBand (parts : Parts) (timescale : Nat) (b : Band) : Except Err Band :=
  if b.bandType = BandType.WaveletWave then parts.transform timescale b else .ok b

def decodeChannel (parts : Parts) (timescale : Nat) (c : Channel) : Except Err Channel := do
  let bands ← mapE (decodeBand parts timescale) c.bands
  pure { c with bands := bands }

def decodePerception (parts : Parts) (timescale : Nat) (p : Perception) : Except Err Perception := do
  let channels ← mapE (decodeChannel parts timescale) p.channels
  pure { p with channels := channels }

/-- Helper.cpp:105-109: the factor of a channel. -/
def factor (p : Perception) (c : Channel) : ℝ := (c.gain : ℝ) * (10 : ℝ) ^ (p.perceptionUnitExponent.getD 0)

/-- Helper.cpp:101-110: one channel. -/
def playChannel (parts : Parts) (length : ℚ) (fs pad : Int) (timescale : Nat) (pc : Perception × Channel) :
    Except Err (List (Option ℝ)) := do
  let n ← sampleCount length fs pad timescale
  let r ← pc.2.evaluateChannel parts.samples parts.other n fs pad timescale
  pure (r.map (Option.map (fun x => x * factor pc.1 pc.2)))

/-- All channels with their perceptions. -/
def channelsOf (ps : List Perception) : List (Perception × Channel) := ps.flatMap (fun p => p.channels.map (fun c => (p, c)))

/-- Helper.cpp:79-114 `playFile`: the signals that are saved.  Without channels `saveFile` throws (WavParser.cpp:103). -/
def playFile (parts : Parts) (h : Experience) (length : ℚ) (fs pad : Int) : Except Err (List (List (Option ℝ))) := do
  let ps ← mapE (decodePerception parts (h.timescale.getD 1000)) h.perceptions
  match h.timescale with
  | none => .error .throw
  | some timescale => do
    let amplitudes ← mapE (playChannel parts length fs pad timescale) (channelsOf ps)
    if amplitudes.isEmpty then .error .throw else pure amplitudes

/-- The signals of an experience. -/
def synthesize (parts : Parts) (h : Experience) (fs pad : Int) : Except Err (List (List (Option ℝ))) := do
  let length ← h.linearize.timeLength
  playFile parts h.linearize length fs pad

/-- What the program is run on.  `readStream` is `none` when it returns false; `loadJson` gives the experience after
loading, whether or not it succeeds; `bits` are the bits of a `float`. -/
structure Env where
  isFile : Str → Bool
  readStream : Str → Except Err (Option Experience)
  loadJson : Str → Except Err Experience
  bits : ℚ → BitVec 32
  parts : Parts

/-- The files that are written: the signals, and the name and the bytes of the OHM file. -/
structure Output where
  file : Str
  rate : Int
  signals : List (List (Option ℝ))
  ohm : Option (Str × List UInt8)

/-- Synthesizer/src/main.cpp:87-90, 96-99, 105-108. -/
def valueOf (tokens : List Str) (a b : Str) : Str :=
  if (getCmdOption tokens a).isEmpty then getCmdOption tokens b else getCmdOption tokens a

/-- Synthesizer/src/main.cpp:96-102. -/
def outputName (tokens : List Str) : Str :=
  if (valueOf tokens (lit "-o") (lit "--output")).isEmpty then lit "out.wav" else valueOf tokens (lit "-o") (lit "--output")

/-- Synthesizer/src/main.cpp:105-118: the sampling frequency; `none` when the program fails. -/
def rateOf (tokens : List Str) : Except Err (Option Int) :=
  if (valueOf tokens (lit "-fs") (lit "--sampling_frequency")).isEmpty then .ok (some 8000)
  else do
    let fs ← stoi (valueOf tokens (lit "-fs") (lit "--sampling_frequency"))
    pure (if fs ≤ 0 then none else some fs)

/-- Synthesizer/src/main.cpp:122-127. -/
def padOf (tokens : List Str) : Except Err Int :=
  if (getCmdOption tokens (lit "--pad")).isEmpty then .ok 0
  else do
    let pad ← stoi (getCmdOption tokens (lit "--pad"))
    pure (max pad 0)

/-- Synthesizer/src/main.cpp:129-137: the experience; `none` when the program fails. -/
def inputOf (env : Env) (tokens : List Str) (file : Str) : Except Err (Option Experience) :=
  if cmdOptionExists tokens (lit "-b") || cmdOptionExists tokens (lit "--binary") then env.readStream file
  else (env.loadJson file).map some

/-- `std::filesystem::path::filename`: what follows the last slash. -/
def fileName (path : Str) : Str := (path.reverse.takeWhile (fun b => b ≠ 47)).reverse

/-- The part of a path before its file name, with the slash. -/
def folderPart (path : Str) : Str := (path.reverse.dropWhile (fun b => b ≠ 47)).reverse

/-- `std::filesystem::path::stem` of a file name: what is before its last period, unless the name begins with that period
or is `..`. -/
def stem (name : Str) : Str :=
  let front := (name.reverse.dropWhile (fun b => b ≠ 46)).reverse
  if name = [46, 46] ∨ front.length ≤ 1 then name else front.dropLast

/-- `std::filesystem::path::replace_extension`. -/
def replaceExtension (path ext : Str) : Str := folderPart path ++ stem (fileName path) ++ ext

/-- Synthesizer/src/main.cpp:146-153: the OHM file, when it is asked for.  What `playFile` does to wavelet bands does not
matter for it.  That a file cannot be opened for writing is not modelled. -/
def ohmFile (bits : ℚ → BitVec 32) (tokens : List Str) (h : Experience) : Except Err (Option (Str × List UInt8)) :=
  if cmdOptionExists tokens (lit "--generate_ohm") then do
    let data ← Ohm.extractMetadata bits (fileName (outputName tokens)) h
    let bytes ← Ohm.write data
    pure (some (replaceExtension (outputName tokens) (lit ".ohm"), bytes))
  else .ok none

/-- Synthesizer/src/main.cpp:79-156 `main`: the exit code and what is written. -/
def run (env : Env) (tokens : List Str) : Except Err (Int × Option Output) :=
  if cmdOptionExists tokens (lit "-h") || cmdOptionExists tokens (lit "--help") then .ok (0, none)
  else
    let file := valueOf tokens (lit "-f") (lit "--file")
    if file.isEmpty || !env.isFile file then .ok (1, none)
    else do
      let rate ← rateOf tokens
      match rate with
      | none => pure (1, none)
      | some fs => do
        let pad ← padOf tokens
        let input ← inputOf env tokens file
        match input with
        | none => pure (1, none)
        | some h => do
          let signals ← synthesize env.parts h fs pad
          let ohm ← ohmFile env.bits tokens h.linearize
          pure (0, some ⟨outputName tokens, fs, signals, ohm⟩)

end

end Haptics.SynthMain
