import Verif.Eval.SpecMix

/-! The value at a position and the sample of the signal at that time. -/

namespace Haptics

/-- The effects of the band do not last less than no time, are in order of time, and each has ended when the next starts. -/
def Band.OneAtATime (b : Band) (ts : ℕ) : Prop :=
  (∀ e ∈ b.effects, ∀ len, e.timeLength b.bandType (transientDuration ts) = .ok len → 0 ≤ len) ∧
  b.effects.Pairwise fun e f => ∃ len, e.timeLength b.bandType (transientDuration ts) = .ok len ∧ (e.position : ℚ) + len < f.position

/-- The decoded samples of each block of a wavelet band end, at the latest, when the next block starts. -/
def Band.BlockAtATime (samples : Effect → List ℝ) (b : Band) (ts : ℕ) : Prop :=
  b.effects.Pairwise fun e f => ((samples e).length : ℤ) * ts ≤ (f.position - e.position) * b.upperFrequencyLimit

/-- The position, in ticks, of sample number `i`. -/
noncomputable def sampleTime (ts : ℕ) (fs : ℤ) (i : ℕ) : ℝ := ts * (i / fs)

end Haptics
