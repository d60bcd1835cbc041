import Verif.Tools.Args
import Verif.Stream.Reader
import Verif.Json.Tables

/-! The decoder as a program: Decoder/src/main.cpp.  What is written to the console is left out. -/

namespace Haptics.DecoderMain
open Haptics Haptics.Args
open Haptics.Json (lit)

/-- Decoder/src/main.cpp:72-75, 82-85: the value of the first name, or else of the second. -/
def valueOf (tokens : List Str) (a b : Str) : Str :=
  if (getCmdOption tokens a).isEmpty then getCmdOption tokens b else getCmdOption tokens a

/-- IOStream.cpp:63-91: `readFile` of a file that may be missing, in which case `loadFile` gives no units and its result
is not looked at. -/
def readNamed (content : Option (List UInt8)) : Except Err (Bool × Option Experience) :=
  match content with
  | none => .ok (true, some { timescale := some ({} : Reader).timescale })
  | some bytes => readStream bytes

/-- Decoder/src/main.cpp:64-105 `main`: the exit code, and the name and content of the JSON file that is written. -/
def run (files : Str → Option (List UInt8)) (tokens : List Str) : Except Err (Nat × Option (Str × Experience)) :=
  if cmdOptionExists tokens (lit "-h") || cmdOptionExists tokens (lit "--help") then .ok (0, none)
  else if (valueOf tokens (lit "-f") (lit "--file")).isEmpty then .ok (1, none)
  else if (valueOf tokens (lit "-o") (lit "--output")).isEmpty then .ok (1, none)
  else do
    let r ← readNamed (files (valueOf tokens (lit "-f") (lit "--file")))
    if !r.1 then pure (1, none)
    else pure (0, some (valueOf tokens (lit "-o") (lit "--output"), r.2.getD {}))

end Haptics.DecoderMain
