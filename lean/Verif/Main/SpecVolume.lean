import Verif.Types.Model
import Mathlib.Data.Real.Basic

/-! C114: the volume of a channel, and what is not heard. -/

namespace Haptics

/-- Nothing but the effects of a channel and the length of its recording; gain 1. -/
def Channel.soundOnly (c : Channel) : Channel := { bands := c.bands, frequencySampling := c.frequencySampling, sampleCount := c.sampleCount }

/-- Nothing but the channels of a perception and its library. -/
def Perception.soundOnly (p : Perception) : Perception := { channels := p.channels.map Channel.soundOnly, effectLibrary := p.effectLibrary }

/-- Nothing but the perceptions of an experience and its timescale. -/
def Experience.soundOnly (h : Experience) : Experience := { perceptions := h.perceptions.map Perception.soundOnly, timescale := h.timescale }

/-- The volumes of the channels: the gain, in units of the perception. -/
noncomputable def Experience.volumes (h : Experience) : List ℝ :=
  h.perceptions.flatMap (fun p => p.channels.map (fun c => (c.gain : ℝ) * (10 : ℝ) ^ (p.perceptionUnitExponent.getD 0)))

/-- A signal played louder by a factor. -/
noncomputable def louder (k : ℝ) (s : List (Option ℝ)) : List (Option ℝ) := s.map (Option.map (fun x => x * k))

end Haptics
