import Verif.Types.SpecOps

/-
What splitting a band into packets means.  Nothing here refers to the packet writers or readers.
-/
namespace Haptics

/-- The moment of a keyframe of an effect. -/
def Effect.timeOf (e : Effect) (k : Keyframe) : Int := e.position + k.relativePosition.getD 0

/-- The moments at which an effect has something to send: its keyframes, or its start if it is a
reference to an effect of the library. -/
def Effect.eventTimes (e : Effect) : List Int :=
  if e.effectType = EffectType.Basis then e.keyframes.map e.timeOf else [e.position]

/-- The part of an effect in the time window [lo, hi). -/
def Effect.slice (lo hi : Int) (e : Effect) : Effect :=
  if e.effectType = EffectType.Basis then
    { e with keyframes := e.keyframes.filter (fun k => decide (lo ≤ e.timeOf k ∧ e.timeOf k < hi)) }
  else e

/-- Whether an effect has an event in the time window [lo, hi). -/
def Effect.occursIn (lo hi : Int) (e : Effect) : Bool :=
  e.eventTimes.any (fun t => decide (lo ≤ t ∧ t < hi))

/-- What the effects of a band contribute to the time window [lo, hi). -/
def windowOf (lo hi : Int) (effects : List Effect) : List Effect :=
  (effects.filter (Effect.occursIn lo hi)).map (Effect.slice lo hi)

/-- The first `n` windows of length `d` from `time` on, with their contents. -/
def windows (d : Int) (effects : List Effect) : Nat → Int → List (Int × List Effect)
  | 0, _ => []
  | n + 1, time => (time, windowOf time (time + d) effects) :: windows d effects n (time + d)

/-- The windows in which there is something to send. -/
def packetsOf (d : Int) (effects : List Effect) (n : Nat) (time : Int) : List (Int × List Effect) :=
  (windows d effects n time).filter (fun w => !w.2.isEmpty)

/-- Effects that do not overlap: no effect has an event before the last event of an earlier effect,
positions are in order, every basis effect has keyframes, all positioned. -/
structure Sequential (effects : List Effect) : Prop where
  times : (effects.flatMap Effect.eventTimes).Pairwise (· ≤ ·)
  ordered : TimeOrdered effects
  types : ∀ e ∈ effects, e.effectType = EffectType.Basis ∨ e.effectType = EffectType.Reference
  keyframes : ∀ e ∈ effects, e.effectType = EffectType.Basis → e.keyframes ≠ []
  positioned : ∀ e ∈ effects, ∀ k ∈ e.keyframes, k.relativePosition.isSome

/-- No basis effect shares its identifier with an earlier effect of the band. -/
def DistinctIds (effects : List Effect) : Prop :=
  effects.Pairwise (fun a b => b.effectType = EffectType.Basis → a.id ≠ b.id)

end Haptics
