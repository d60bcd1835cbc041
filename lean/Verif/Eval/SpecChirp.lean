import Verif.Types.Model
import Mathlib.Analysis.SpecialFunctions.Trigonometric.Basic
import Mathlib.Algebra.Order.Round

/-
What a vibration described by keyframes should sound like: an amplitude curve times a periodic signal
whose number of cycles so far is the area under the frequency curve.
-/
namespace Haptics

noncomputable section

/-- The line through `(t, a)` and the points of `l`, at `x` (from `t` on); it stays at its last value. -/
def lineFrom (t : ℤ) (a : ℝ) : List (ℤ × ℝ) → ℝ → ℝ
  | [], _ => a
  | (t', a') :: l, x => if x ≤ t' then a + (a' - a) * (x - t) / (t' - t) else lineFrom t' a' l x

/-- The line through the points, at `x`; constant before the first one and after the last one.  Without
points it is 1. -/
def lineAt : List (ℤ × ℝ) → ℝ → ℝ
  | [], _ => 1
  | (t, a) :: l, x => if x ≤ t then a else lineFrom t a l x

/-- Area from `t` to `x` under the line through `(t, f)` and the points of `l`: trapezia. -/
def areaFrom (t : ℤ) (f : ℝ) : List (ℤ × ℝ) → ℝ → ℝ
  | [], x => (x - t) * f
  | (t', f') :: l, x =>
    if x ≤ t' then (x - t) * (f + (f + (f' - f) * (x - t) / (t' - t))) / 2
    else (t' - t) * (f + f') / 2 + areaFrom t' f' l x

/-- Area from 0 to `x` under the line through the points. -/
def areaTo : List (ℤ × ℝ) → ℝ → ℝ
  | [], x => x
  | (t, f) :: l, x => if x ≤ t then x * f else t * f + areaFrom t f l x

/-- The amplitudes of an effect over time. -/
def amplitudePoint (k : Keyframe) : Option (ℤ × ℝ) :=
  match k.relativePosition, k.amplitudeModulation with
  | some p, some a => some (p, (a : ℝ))
  | _, _ => none

/-- The frequencies of an effect over time. -/
def frequencyPoint (k : Keyframe) : Option (ℤ × ℝ) :=
  match k.relativePosition, k.frequencyModulation with
  | some p, some f => some (p, (f : ℝ))
  | _, _ => none

def amplitudePoints (e : Effect) : List (ℤ × ℝ) := e.keyframes.filterMap amplitudePoint
def frequencyPoints (e : Effect) : List (ℤ × ℝ) := e.keyframes.filterMap frequencyPoint

/-- The base signals (sine, square, triangle, two saw teeth) after `c` cycles; other numbers are no signal of
the format. -/
def waveform : Nat → ℝ → ℝ
  | 0, c => Real.sin (2 * Real.pi * c)
  | 1, c => if Int.fract c < 1 / 2 then 1 else -1
  | 2, c => 1 - 4 * |c - 1 / 4 - round (c - 1 / 4)|
  | 3, c => 2 * (c - round c)
  | 4, c => 2 * (round c - c)
  | _, _ => 1

/-- Every keyframe has a position; the positions go up from 0 on. -/
def Timed (e : Effect) : Prop :=
  (∀ k ∈ e.keyframes, ∃ p : ℤ, k.relativePosition = some p ∧ 0 ≤ p) ∧
  e.keyframes.Pairwise (fun k k' => k.relativePosition.getD 0 < k'.relativePosition.getD 0)

/-- All frequencies of the effect are positive and within the limits of the band. -/
def InBand (e : Effect) (low high : ℤ) : Prop :=
  ∀ p ∈ frequencyPoints e, 0 < p.2 ∧ (low : ℝ) ≤ p.2 ∧ p.2 ≤ high

end
end Haptics
