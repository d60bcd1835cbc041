import Verif.Tools.Ohm
import Mathlib.Data.List.DropRight

/-! What is expected of OHM files. -/

namespace Haptics.Ohm
open Haptics

/-- What a field of `n` bytes holds of a text: the first `n` bytes, without zeros at the end. -/
def kept (n : Nat) (s : Str) : Str := (s.take n).rdropWhile (· == 0)

/-- The text fits a field of `n` bytes. -/
def Fits (n : Nat) (s : Str) : Prop := s.length ≤ n ∧ s.getLast? ≠ some 0

/-- A mask is loaded as it is when no byte of it but the highest one has its highest bit set without all bits above
being set. -/
def Plain (m : BitVec 32) : Prop := ∀ i ∈ [7, 15, 23], m.getLsbD i = true → ∀ j, i < j → j < 32 → m.getLsbD j = true
instance (m : BitVec 32) : Decidable (Plain m) :=
  decidable_of_iff (∀ i ∈ [7, 15, 23], m.getLsbD i = true → ∀ j, j < 32 → i < j → m.getLsbD j = true)
    ⟨fun h i hi hm j h1 h2 => h i hi hm j h2 h1, fun h i hi hm j h1 h2 => h i hi hm j h2 h1⟩

/-- The numbers of a file fit their fields, and the elements say how many channels they have. -/
structure Writable (d : Data) : Prop where
  header : d.header = ohmHeader
  version : -32768 ≤ d.version ∧ d.version < 32768
  elements : d.elements.length < 32768
  channels : ∀ e ∈ d.elements, e.numChannels = e.channels.length ∧ e.channels.length < 32768

/-- All texts fit their fields and all masks are plain. -/
structure Exact (d : Data) : Prop where
  description : Fits 32 d.description
  elements : ∀ e ∈ d.elements, Fits 64 e.filename ∧ Fits 32 e.description
  channels : ∀ e ∈ d.elements, ∀ c ∈ e.channels, Fits 32 c.description ∧ Plain c.mask

/-- What comes back of channel `j` of a perception. -/
def backChannel (j : Nat) (c : Channel) : Channel :=
  { id := j, description := c.description, gain := c.gain, mixingWeight := 1, bodyPartMask := c.bodyPartMask }

/-- What comes back of perception `i` of an experience. -/
def backPerception (i : Nat) (p : Perception) : Perception :=
  { id := i, avatarId := 0, description := p.description, perceptionModality := convertToModality p.description,
    channels := p.channels.mapIdx backChannel }

end Haptics.Ohm
