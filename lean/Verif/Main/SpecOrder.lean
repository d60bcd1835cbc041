import Verif.Types.Model

/-! C117: the order of perceptions and channels. -/

namespace Haptics

/-- All channels, each with what its perception says. -/
def Experience.tracks (h : Experience) : List (Perception × Channel) :=
  h.perceptions.flatMap (fun p => p.channels.map (fun c => ({ p with channels := [] }, c)))

end Haptics
