import Verif.Types.Model

/-! The command line: Tools/src/InputParser.cpp.  The tokens are those of `argv`, with the name of the program first. -/

namespace Haptics.Args
open Haptics

/-- InputParser.cpp:44-53 `getCmdOption`. -/
def getCmdOption (tokens : List Str) (option : Str) : Str :=
  match tokens.dropWhile (fun t => t ≠ option) with
  | _ :: v :: _ => v
  | _ => []

/-- InputParser.cpp:55-57 `cmdOptionExists`. -/
def cmdOptionExists (tokens : List Str) (option : Str) : Bool := tokens.any (fun t => t = option)

/-- InputParser.cpp:59-66 `getFileExt`. -/
def getFileExt (filename : Str) : Str :=
  if filename.contains 46 then (filename.reverse.takeWhile (fun b => b ≠ 46)).reverse else []

end Haptics.Args
