import Verif.Json.SpecFile
import Verif.Stream.SpecStream
import Verif.Stream.SpecSizes

/-! What C97 says: a `.hjif` file is made into a stream and the stream into a `.hjif` file. -/

namespace Haptics
open Haptics.Json

/-- The texts that are checked when a file is loaded have no zero byte, as those that come from a file. -/
structure CheckedTexts (h : Experience) : Prop where
  date : NoZero h.date
  meshes : ∀ a ∈ h.avatars, ∀ m ∈ a.mesh, NoZero m

/-- What is left of an experience after a stream and a file: void effects are gone, values are as precise as the stream
has them (`receivedStream`: C17, C18), and the file keeps what files keep (`kept`: C71). -/
noncomputable def Experience.transcoded (now : Str) (h : Experience) : Experience := kept now h.prune.receivedStream

end Haptics
