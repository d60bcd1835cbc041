import Verif.Binary.SpecBands

/-
Composite effects in a binary file: what fits, and what a reader is entitled to find.
-/
namespace Haptics

/-- A composite effect, nested at most `depth` deep, whose parts fit. -/
def Effect.TimelineFits (bandType : Nat) : Nat → Effect → Prop
  | 0, _ => False
  | depth + 1, e => e.timeline.length < 65536 ∧ ∀ t ∈ e.timeline, U 25 t.position ∧
    ((t.effectType = EffectType.Composite ∧ t.TimelineFits bandType depth) ∨
      (t.effectType ≠ EffectType.Composite ∧ t.FileFits bandType))

/-- What a file keeps of a composite effect: the parts in their order, each with its type and position, and
what is kept of a part of its type. -/
def Effect.storedTimeline (bandType : Nat) : Nat → Effect → Effect
  | 0, e => e
  | depth + 1, e =>
    { effectType := e.effectType
      position := e.position
      timeline := e.timeline.map (fun t =>
        if t.effectType = EffectType.Composite then t.storedTimeline bandType depth
        else { t.stored bandType with position := t.position }) }

end Haptics
