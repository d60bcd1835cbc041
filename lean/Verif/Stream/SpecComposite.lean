import Mathlib.Data.List.Sort
import Verif.Stream.SpecStream

/-
C57 with composite effects: a stream transports the parts of composite effects, each at its own time.
Nothing here refers to units, packets or the functions that write and read them.
-/
namespace Haptics

/-- An effect does not start after another one. -/
def NotAfter (x y : Effect) : Prop := x.position ≤ y.position

instance : DecidableRel NotAfter := fun x y => inferInstanceAs (Decidable (x.position ≤ y.position))

/-- The band with the parts of its composite effects in their place, in the order of time. -/
def Band.dissolved (b : Band) : Band :=
  { b with effects := (placedAll 0 b.effects).insertionSort NotAfter }

def Channel.dissolved (c : Channel) : Channel := { c with bands := c.bands.map Band.dissolved }

def Perception.dissolved (p : Perception) : Perception := { p with channels := p.channels.map Channel.dissolved }

/-- The experience without composite effects that plays the same. -/
def Experience.dissolved (h : Experience) : Experience :=
  { h with perceptions := h.perceptions.map Perception.dissolved }

/-- The experience in which every effect has an identifier; `ids` are in use elsewhere. -/
def Experience.assignFrom (ids : List Int) (h : Experience) : Experience :=
  { h with perceptions := (mapAccum Perception.assignIds ids h.perceptions).1 }

/-- What is sent of an experience with composite effects: their parts, with new identifiers for those that have
none. -/
def Experience.sent (h : Experience) : Experience := h.dissolved.assignFrom (getEffectsId h)

/-- No effect, composite or not, has a negative identifier (-1 stands for none). -/
def Experience.AllIdentified (h : Experience) : Prop :=
  ∀ b ∈ h.allBands, ∀ e ∈ b.effects, -1 ≤ e.id

/-- The composite effects start together with what contains them, see `c59_negation`. -/
def Experience.FlatStarts (h : Experience) : Prop :=
  ∀ b ∈ h.allBands, flatStartAll b.effects

end Haptics
