import Verif.Main.SpecSynth

/-! Padding: silence before and after the sound. -/

namespace Haptics

/-- `s'` is `d` samples of silence and then `s`, as far as `s'` and `s` go. -/
def Delayed (d : ℕ) (s s' : List (Option ℝ)) : Prop :=
  (∀ i, i < d → i < s'.length → s'[i]? = some (some 0)) ∧ ∀ i, i < s.length → i + d < s'.length → s'[i + d]? = s[i]?

end Haptics
