import Verif.Encoder.IvsRepeat
import Mathlib.Algebra.BigOperators.Group.List.Basic

/-! What C40 says of repeat events: at which times an effect is played. -/

namespace Haptics.Ivs
open Haptics

/-- The event is repeated together with what happens at time `t`. -/
def Repeat.Covers (r : Repeat) (t : Int) : Prop := r.time ≤ t ∧ t < r.time + r.duration
instance (r : Repeat) (t : Int) : Decidable (r.Covers t) := inferInstanceAs (Decidable (_ ∧ _))

/-- The repeat events with the time one pass takes when all events within are expanded.  Events are ordered by
time, the outer before the inner. -/
def passes : List Repeat → List (Repeat × Int)
  | [] => []
  | r :: rs => (r, r.duration + (((passes rs).filter (fun x => r.Covers x.1.time)).map (fun x => x.1.count * x.2)).sum)
      :: passes rs

/-- How much later than `t` something launched at `t` is played, once for every pass of every event around it:
passes before, and all further passes of events that are over. -/
def shifts (t : Int) : List (Repeat × Int) → List Int
  | [] => [0]
  | (r, pass) :: rs =>
    if r.Covers t then
      (List.range (r.count.toNat + 1)).flatMap (fun i : Nat => (shifts t rs).map (· + i * pass))
    else if r.time + r.duration ≤ t then (shifts t rs).map (· + r.count * pass)
    else shifts t rs

/-- The effects that should be played. -/
def played (repeats : List Repeat) (effects : List Effect) : List Effect :=
  effects.flatMap (fun e => (shifts e.position (passes repeats)).map
    (fun s => { e with position := e.position + s }))

/-- Events that do not overlap, in order. -/
def Separate (repeats : List Repeat) : Prop :=
  (∀ r ∈ repeats, 0 ≤ r.duration ∧ 0 ≤ r.count) ∧
    repeats.Pairwise (fun r s => r.time + r.duration ≤ s.time)

/-- Effects are launched in the order of time. -/
def InOrder (effects : List Effect) : Prop := effects.Pairwise (fun e f => e.position ≤ f.position)

end Haptics.Ivs
