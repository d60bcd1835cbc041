import Mathlib.Data.Rat.Defs

/-! What C88 says: playing a signal that was cut into blocks. -/

namespace Haptics.Playback

/-- Blocks placed one after the other, every `ticks` ticks. -/
def place (ticks : Nat) (blocks : List (List ℚ)) : List (Nat × List ℚ) := blocks.mapIdx (fun j b => (j * ticks, b))

/-- The samples of a band are the signal made of the blocks, up to a delay of `lag` samples at most. -/
def Plays (out : Nat → Except ε ℚ) (blocks : List (List ℚ)) (lag : Nat) : Prop :=
  ∀ ti < blocks.flatten.length, ∃ i, i ≤ ti ∧ ti ≤ i + lag ∧ out ti = .ok (blocks.flatten.getD i 0)

end Haptics.Playback
