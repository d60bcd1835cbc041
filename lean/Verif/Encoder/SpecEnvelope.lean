import Verif.Encoder.Ivs

/-! What the attack and the fade of an IVS effect mean. -/

namespace Haptics.Ivs
open Haptics

/-- The amplitude at time `t` of an effect of `duration` ticks: from `attackLevel` up to `level` within `attack`
ticks, from `level` to `fadeLevel` within the last `fade` ticks. -/
def envelopeAt (attack fade duration : Int) (attackLevel level fadeLevel t : ℚ) : ℚ :=
  if t < attack then attackLevel + (level - attackLevel) * t / attack
  else if t > duration - fade then level + (fadeLevel - level) * (t - (duration - fade)) / fade
  else level

/-- The straight line from one keyframe to the next. -/
def lineAt (p q : Int × ℚ) (t : ℚ) : ℚ := p.2 + (q.2 - p.2) * (t - p.1) / (q.1 - p.1)

/-- Neighbours in a list. -/
def Neighbours {α : Type} (l : List α) (a b : α) : Prop := ∃ pre post, l = pre ++ a :: b :: post

/-- The keyframes of an effect as points of a curve. -/
def points (e : Effect) : List (Option Int × Option ℚ) :=
  e.keyframes.map (fun k => (k.relativePosition, k.amplitudeModulation))

/-- A curve through the points from 0 to `duration`, in the order of time, that is `f` on every segment. -/
structure IsCurve (points : List (Int × ℚ)) (duration : Int) (f : ℚ → ℚ) : Prop where
  first : ∃ y l, points = (0, y) :: l
  last : ∃ y l, points = l ++ [(duration, y)]
  increasing : points.Pairwise (fun p q => p.1 < q.1)
  line : ∀ p q, Neighbours points p q → ∀ t : ℚ, p.1 ≤ t → t ≤ q.1 → f t = lineAt p q t

end Haptics.Ivs
