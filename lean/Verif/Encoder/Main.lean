import Verif.Tools.Args
import Verif.Tools.Text
import Verif.Tools.Ohm
import Verif.Types.Ops
import Verif.Encoder.Numbers

/-! The encoder as a program: Encoder/src/main.cpp, with the settings of Encoder/include/PcmEncoder.h.

What is written to the console is left out.  An encoder that returns `EXIT_FAILURE` is one that gives no perception. -/

namespace Haptics.EncoderMain
open Haptics Haptics.Args
open Haptics.Json (lit)

/-- PcmEncoder.h:62-67 `EncodingConfig`. -/
structure Settings where
  limit : ℚ
  blockLength : Int
  budget : Int
  wavelet : Bool
  vectorial : Bool
deriving DecidableEq

/-- PcmEncoder.h:54 `DEFAULT_CUTOFF_FREQUENCY`. -/
def defaultCutoff : ℚ := 145 / 2
/-- PcmEncoder.h:55 `DEFAULT_BLOCK_LENGTH_SMP`. -/
def defaultBlockLength : Int := 1024
/-- PcmEncoder.h:56 `DEFAULT_BIT_BUDGET`. -/
def defaultBudget : Int := 16

/-- PcmEncoder.h:57-60 and 101-103: the polynomial in `double`; `pow` gives the rounded power. -/
def budgetCurve (t : ℚ) : ℚ :=
  fl64 (fl64 (fl64 (fl64 (fl64 (2573 / 10000000) * fl64 (t ^ 3)) + fl64 (fl64 (-4421 / 100000) * fl64 (t ^ 2))) +
    fl64 (fl64 (3433 / 1000) * t)) + fl64 (-6506 / 1000))

/-- PcmEncoder.h:104, with Spiht_Enc.h:50: the largest budget.  The logarithm of a number that is not positive cannot be
converted. -/
def maxBudget (blockLength : Int) : Except Err Int :=
  if blockLength ≤ 0 then .error .ub else .ok (((Nat.log2 blockLength.toNat : Int) - 1) * 15)

/-- PcmEncoder.h:101-109: the budget for a bit rate. -/
def budgetFor (bitrate blockLength : Int) : Except Err Int := do
  let raw ← castInt ⌊budgetCurve bitrate⌋
  let m ← maxBudget blockLength
  pure (if raw > m then m else if raw < 1 then 1 else raw)

/-- What the options of the command line say about WAV files. -/
structure Options where
  bitrate : Option Int
  budget : Option Int
  blockLength : Option Int
  cutoff : ℚ
  wavelet : Bool
  vectorial : Bool

/-- Encoder/src/main.cpp:205-229 (and 248-269): the settings, with PcmEncoder.h:78-113. -/
def settings (o : Options) : Except Err Settings :=
  match o.bitrate, o.budget with
  | some b, _ => do
    let budget ← budgetFor b (o.blockLength.getD defaultBlockLength)
    pure ⟨o.cutoff, o.blockLength.getD defaultBlockLength, budget, o.wavelet, o.vectorial⟩
  | none, some b => .ok ⟨o.cutoff, o.blockLength.getD defaultBlockLength, b, o.wavelet, o.vectorial⟩
  | none, none => .ok ⟨defaultCutoff, defaultBlockLength, defaultBudget, o.wavelet, o.vectorial⟩

/-- What the program is run on: the files, and the parts that have models of their own.  `ahap`, `ivs` and `wav` give the
perception after encoding a file into it, or `none` when they return `EXIT_FAILURE`; `beside f g` is the file `g` in the
folder of `f`; `loadJson` gives the experience after loading, whether or not it succeeds. -/
structure Env where
  isFile : Str → Bool
  stod : Str → Except Err ℚ
  loadOhm : Str → Option Ohm.Data
  metadata : Ohm.Data → Experience → Except Err Experience
  beside : Str → Str → Str
  ahap : Str → Nat → Perception → Except Err (Option Perception)
  ivs : Str → Nat → Perception → Except Err (Option Perception)
  wav : Str → Settings → Nat → Perception → Except Err (Option Perception)
  loadJson : Str → Experience → Except Err Experience

/-- What is written: under which name, what, and in packets of which duration when it is binary. -/
structure Output where
  file : Str
  content : Experience
  packets : Option Int

/-- `cmdOptionExists` of one of two names. -/
def given (tokens : List Str) (a b : Str) : Bool := cmdOptionExists tokens a || cmdOptionExists tokens b

/-- Encoder/src/main.cpp:112-115, 121-124: the value of the first name, or else of the second. -/
def valueOf (tokens : List Str) (a b : Str) : Str :=
  if (getCmdOption tokens a).isEmpty then getCmdOption tokens b else getCmdOption tokens a

/-- Encoder/src/main.cpp:121-131: the name of the file that is written. -/
def outputName (tokens : List Str) : Str :=
  if (valueOf tokens (lit "-o") (lit "--output")).isEmpty then
    (if given tokens (lit "-b") (lit "--binary") then lit "out.hmpg" else lit "out.hjif")
  else valueOf tokens (lit "-o") (lit "--output")

/-- Encoder/src/main.cpp:134-147: an option that takes an integer. -/
def intOption (tokens : List Str) (name : Str) : Except Err (Option Int) :=
  if cmdOptionExists tokens name then (stoi (getCmdOption tokens name)).map some else .ok none

/-- Encoder/src/main.cpp:134-157: the options for WAV files. -/
def options (env : Env) (tokens : List Str) : Except Err Options := do
  let bitrate ← intOption tokens (lit "-kb")
  let budget ← intOption tokens (lit "-bu")
  let blockLength ← intOption tokens (lit "-bl")
  let cutoff ← if cmdOptionExists tokens (lit "-cf") then env.stod (getCmdOption tokens (lit "-cf"))
    else .ok defaultCutoff
  pure ⟨bitrate, budget, blockLength, cutoff, !cmdOptionExists tokens (lit "--disable-wavelet"),
    !cmdOptionExists tokens (lit "--disable-vectorial")⟩

/-- Encoder/src/main.cpp:159-165: the timescale, converted to `unsigned int`. -/
def timescaleOf (tokens : List Str) : Except Err Nat := do
  let t ← intOption tokens (lit "-ts")
  pure ((t.getD 1000) % 2 ^ 32).toNat

/-- The kinds of files that hold one signal, by their extension: main.cpp:197, 200, 203 and 238, 242, 246. -/
inductive Kind
  | ahap | ivs | wav
deriving DecidableEq

def kindOf (ext : Str) : Option Kind :=
  if ext = lit "json" ∨ ext = lit "ahap" then some .ahap
  else if ext = lit "xml" ∨ ext = lit "ivs" then some .ivs
  else if ext = lit "wav" then some .wav
  else none

/-- Encoder/src/main.cpp:197-232 and 238-272: one file encoded into a perception. -/
def encodeKind (env : Env) (o : Options) (timescale : Nat) (file : Str) (p : Perception) :
    Kind → Except Err (Option Perception)
  | .ahap => env.ahap file timescale p
  | .ivs => env.ivs file timescale p
  | .wav => do
    let s ← settings o
    env.wav file s timescale p

/-- Encoder/src/main.cpp:185-237: the elements of an OHM file from `i` on; `none` for `EXIT_FAILURE`. -/
def elementsLoop (env : Env) (o : Options) (ohm : Str) :
    List Ohm.ElementInfo → (i : Nat) → Experience → Except Err (Option Experience)
  | [], _, x => .ok (some x)
  | e :: rest, i, x =>
    let file := env.beside ohm e.filename
    if !env.isFile file then .ok none
    else match x.perceptions[i]? with
      | none => .error .throw
      | some p =>
        match kindOf (getFileExt file) with
        | none => elementsLoop env o ohm rest (i + 1) x
        | some k => do
          let r ← encodeKind env o (x.timescale.getD 1000) file p k
          match r with
          | none => pure none
          | some q => elementsLoop env o ohm rest (i + 1) { x with perceptions := x.perceptions.set i q }

/-- Encoder/src/main.cpp:169-237: an OHM file. -/
def encodeOhm (env : Env) (o : Options) (file : Str) (x : Experience) : Except Err (Option Experience) :=
  match env.loadOhm file with
  | none => .ok none
  | some d => do
    let x ← env.metadata d x
    if d.elements.length ≠ x.perceptions.length then pure none else elementsLoop env o file d.elements 0 x

/-- Encoder/src/main.cpp:166. -/
def blank : Perception := { id := 0, avatarId := 0, perceptionModality := 0 }

/-- Encoder/src/main.cpp:167-278: the experience of a file and the exit code; `none` for `EXIT_FAILURE`. -/
def encodeFile (env : Env) (o : Options) (file : Str) (x : Experience) : Except Err (Option (Int × Experience)) :=
  let ext := getFileExt file
  if ext = lit "ohm" then do
    let r ← encodeOhm env o file x
    pure (r.map (fun y => (0, y)))
  else match kindOf ext with
    | some k => do
      let r ← encodeKind env o (x.timescale.getD 1000) file blank k
      pure (r.map (fun p => (0, { x with perceptions := x.perceptions ++ [p] })))
    | none =>
      if ext = lit "hjif" then do
        let y ← env.loadJson file x
        pure (some (-1, y))
      else .ok none

/-- Encoder/src/main.cpp:284-289. -/
def finish (tokens : List Str) (x : Experience) : Experience :=
  let y := if given tokens (lit "-r") (lit "--refactor") then x.refactor else x
  if given tokens (lit "-l") (lit "--linearize") then
    y.linearize else y

/-- Encoder/src/main.cpp:291-301: the file that is written. -/
def write (tokens : List Str) (x : Experience) : Except Err Output :=
  if given tokens (lit "-b") (lit "--binary") then do
    let d ← intOption tokens (lit "--packet_duration")
    pure ⟨outputName tokens, finish tokens x, some (d.getD 128)⟩
  else .ok ⟨outputName tokens, finish tokens x, none⟩

/-- Encoder/src/main.cpp:104-304 `main`: the exit code and what is written. -/
def run (env : Env) (tokens : List Str) : Except Err (Int × Option Output) :=
  if given tokens (lit "-h") (lit "--help") then .ok (0, none)
  else
    let file := valueOf tokens (lit "-f") (lit "--file")
    if file.isEmpty || !env.isFile file then .ok (1, none)
    else do
      let o ← options env tokens
      let timescale ← timescaleOf tokens
      let r ← encodeFile env o file { timescale := some timescale }
      match r with
      | none => pure (1, none)
      | some (code, x) => do
        let out ← write tokens x
        pure (code, some out)

end Haptics.EncoderMain
