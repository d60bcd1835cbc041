import Verif.Stream.SpecFrames

/-
C120: streams in which the description is repeated.  Nothing here refers to packets or the functions that write and read units.
-/
namespace Haptics

/-- Frames without the sync points among them. -/
def withoutSyncs (frames : List Frame) : List Frame := frames.filter (fun f => f.syncTime.isNone)

end Haptics
