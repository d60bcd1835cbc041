import Verif.Main.Synth
import Verif.Encoder.Main

/-! Where the encoder looks for the files that an OHM file names. -/

namespace Haptics.EncoderMain
open Haptics

/-- `std::filesystem::path::parent_path`: the part before the file name, without slashes at its end unless it is the root.
(More than one slash at the begin is taken as one.) -/
def parentPath (path : Str) : Str :=
  let folder := SynthMain.folderPart path
  let short := (folder.reverse.dropWhile (fun b => b = 47)).reverse
  if short.isEmpty then folder.take 1 else short

/-- `operator/` of paths: an absolute path replaces the folder, and a slash is put between only where there is none. -/
def join (folder name : Str) : Str :=
  if name.head? = some 47 then name
  else if folder.isEmpty || folder.getLast? = some 47 then folder ++ name
  else folder ++ [47] ++ name

/-- Encoder/src/main.cpp:184-190: the file of an element of the OHM file `ohm`. -/
def besideOf (ohm name : Str) : Str := join (parentPath ohm) name

end Haptics.EncoderMain
