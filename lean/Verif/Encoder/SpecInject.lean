import Verif.Types.Ops

/-! What is expected of effects that are distributed to bands: no effect is lost, and one band plays one effect at
a time. -/

namespace Haptics

/-- How long an effect lasts: up to its last keyframe. -/
def Effect.length (e : Effect) : Int := (e.keyframes.getLast?.bind (·.relativePosition)).getD 0

/-- The last keyframe of the effect is at a time, and not before its start. -/
def Effect.Timed (e : Effect) : Prop := ∃ p : Int, e.keyframes.getLast?.bind (·.relativePosition) = some p ∧ 0 ≤ p

/-- The effects of a band come one after the other: each is over before the next one begins. -/
def Band.Sequential (b : Band) : Prop := b.effects.Pairwise (fun x y => x.position + x.length < y.position)

/-- How many of the effects play at an instant, in ticks. -/
def playing (t : Int) (es : List Effect) : Nat :=
  es.countP (fun e => decide (e.position ≤ t ∧ t ≤ e.position + e.length))

/-- All effects of a channel, band by band. -/
def Channel.effects (c : Channel) : List Effect := c.bands.flatMap (·.effects)

/-- `d` is `c` with more in it: same parameters, each band is where it was, with its effects, bands that are not
vectorial are the same, and all further bands are vectorial with the given limits, and default parameters otherwise. -/
structure Extends (lower upper : Int) (c d : Channel) : Prop where
  same : { d with bands := [] } = { c with bands := [] }
  old : ∀ (i : Nat) (b : Band), c.bands[i]? = some b → ∃ b' : Band, d.bands[i]? = some b' ∧
    { b' with effects := [] } = { b with effects := [] } ∧ b.effects.Sublist b'.effects ∧
    (b.bandType ≠ BandType.VectorialWave → b' = b)
  new : ∀ (i : Nat) (b : Band), c.bands.length ≤ i → d.bands[i]? = some b →
    { b with effects := [] } =
      ({ bandType := BandType.VectorialWave, lowerFrequencyLimit := lower, upperFrequencyLimit := upper } : Band)

end Haptics
