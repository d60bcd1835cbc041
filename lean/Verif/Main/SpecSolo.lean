import Verif.Types.Model

/-! C115: a channel alone. -/

namespace Haptics

/-- The experience with no other channel than `c` of perception `p`. -/
def Experience.solo (h : Experience) (p : Perception) (c : Channel) : Experience := { h with perceptions := [{ p with channels := [c] }] }

end Haptics
