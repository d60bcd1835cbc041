import Verif.Main.SpecPadding

/-! The same experience, later: all effects are moved by the same number of ticks. -/

namespace Haptics

/-- The effect starts `δ` ticks later. -/
def Effect.moved (δ : ℤ) (e : Effect) : Effect := { e with position := e.position + δ }

/-- All effects start `δ` ticks later. -/
def Band.moved (δ : ℤ) (b : Band) : Band := { b with effects := b.effects.map (Effect.moved δ) }

/-- All effects start `δ` ticks later. -/
def Channel.moved (δ : ℤ) (c : Channel) : Channel := { c with bands := c.bands.map (Band.moved δ) }

/-- All effects start `δ` ticks later; those of the library have no time of their own. -/
def Perception.moved (δ : ℤ) (p : Perception) : Perception := { p with channels := p.channels.map (Channel.moved δ) }

/-- All effects start `δ` ticks later. -/
def Experience.moved (δ : ℤ) (h : Experience) : Experience := { h with perceptions := h.perceptions.map (Perception.moved δ) }

end Haptics
