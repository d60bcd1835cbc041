import Verif.Stream.SpecStream
import Verif.Stream.SpecSizes

/-
C116: the duration of the packets of a stream.
-/
namespace Haptics

/-- Nothing in the experience is tied to the packets: there are no wavelet bands and no references to effects of the
library. -/
def Experience.Untied (h : Experience) : Prop :=
  ∀ b ∈ h.allBands, b.bandType ≠ BandType.WaveletWave ∧ ∀ e ∈ b.effects, e.effectType ≠ EffectType.Reference

end Haptics
