import Verif.Eval.SpecSplines

/-
What a natural cubic spline is.  A segment is given by the coefficients of a cubic polynomial in the time since its start.
-/
namespace Haptics.Splines

section Generic
variable {K : Type} [Field K]

/-- Value, slope and second derivative of a cubic. -/
def valueOf (s : K × K × K × K) (t : K) : K := s.1 + s.2.1 * t + s.2.2.1 * t ^ 2 + s.2.2.2 * t ^ 3
@[inherit_doc valueOf]
def slopeOf (s : K × K × K × K) (t : K) : K := s.2.1 + 2 * s.2.2.1 * t + 3 * s.2.2.2 * t ^ 2
@[inherit_doc valueOf]
def curvatureOf (s : K × K × K × K) (t : K) : K := 2 * s.2.2.1 + 6 * s.2.2.2 * t

/-- The time from keyframe `i` to the next one. -/
def duration (pts : List (ℤ × K)) (i : ℕ) : K := (((pts.getD (i + 1) (0, 0)).1 - (pts.getD i (0, 0)).1 : ℤ) : K)

/-- The cubics `s 0, s 1, …` form the natural spline through the keyframes: each one goes from a keyframe to the next; where they meet
they have the same slope and the same curvature; at both ends the curvature is zero. -/
structure NaturalSpline (pts : List (ℤ × K)) (s : ℕ → K × K × K × K) : Prop where
  starts : ∀ i, i + 1 < pts.length → valueOf (s i) 0 = (pts.getD i (0, 0)).2
  ends : ∀ i, i + 1 < pts.length → valueOf (s i) (duration pts i) = (pts.getD (i + 1) (0, 0)).2
  smooth : ∀ i, i + 2 < pts.length → slopeOf (s i) (duration pts i) = slopeOf (s (i + 1)) 0
  bends : ∀ i, i + 2 < pts.length → curvatureOf (s i) (duration pts i) = curvatureOf (s (i + 1)) 0
  natural : ∀ n, pts.length = n + 2 → curvatureOf (s 0) 0 = 0 ∧ curvatureOf (s n) (duration pts n) = 0

end Generic

end Haptics.Splines
