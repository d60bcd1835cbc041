import Verif.Eval.Spec

/-
What the three splines should be.
-/
namespace Haptics.Splines
open Haptics

/-- The cubic through `(x0, y0)` and `(x1, y1)` with the slopes `s0` and `s1` there. -/
noncomputable def hermite (x0 y0 s0 x1 y1 s1 x : ℝ) : ℝ :=
  let u := (x - x0) / (x1 - x0)
  y0 * (1 + 2 * u) * (1 - u) ^ 2 + y1 * u ^ 2 * (3 - 2 * u) + (x1 - x0) * (s0 * u * (1 - u) ^ 2 - s1 * u ^ 2 * (1 - u))

/-- Slope of the line from keyframe `i` to the next one. -/
noncomputable def lineSlope (pts : List (ℤ × ℝ)) (i : ℕ) : ℝ :=
  ((pts.getD (i + 1) (0, 0)).2 - (pts.getD i (0, 0)).2) / ((pts.getD (i + 1) (0, 0)).1 - (pts.getD i (0, 0)).1)

/-- The slopes of the lines between keyframes, continued by two lines at each end so that they change evenly. -/
noncomputable def extendedSlope (pts : List (ℤ × ℝ)) (j : ℤ) : ℝ :=
  let n := pts.length
  if j < 0 then lineSlope pts 0 + j * (lineSlope pts 1 - lineSlope pts 0)
  else if j < n - 1 then lineSlope pts j.toNat
  else lineSlope pts (n - 2) + (j - (n - 2)) * (lineSlope pts (n - 2) - lineSlope pts (n - 3))

/-- How much the slope changes on the next line after keyframe `i`, and on the one before it. -/
noncomputable def changeAfter (pts : List (ℤ × ℝ)) (i : ℕ) : ℝ := |extendedSlope pts (i + 1) - extendedSlope pts i|
@[inherit_doc changeAfter]
noncomputable def changeBefore (pts : List (ℤ × ℝ)) (i : ℕ) : ℝ := |extendedSlope pts (i - 1) - extendedSlope pts (i - 2)|

/-- Akima's rule for the slope at keyframe `i`: a mean of the slopes on both sides, each one weighted with the change
on the other side.  Where both changes are negligible compared to those at another keyframe, the slope before it. -/
noncomputable def akimaSlope (pts : List (ℤ × ℝ)) (i : ℕ) : ℝ :=
  open Classical in
  if ∀ j < pts.length, (changeAfter pts j + changeBefore pts j) / 10 ^ 8 < changeAfter pts i + changeBefore pts i then
    (changeAfter pts i * extendedSlope pts (i - 1) + changeBefore pts i * extendedSlope pts i) /
      (changeAfter pts i + changeBefore pts i)
  else extendedSlope pts (i - 1)

/-- One value per sample, from the first keyframe at 0 to the last. -/
def FullLength {α : Type} (pts : List (ℤ × ℝ)) (r : List α) : Prop := (r.length : ℤ) = (pts.getLastD (0, 0)).1 + 1

/-- The point of the quadratic curve with the control values `a`, `b`, `c` at the parameter `t`. -/
def quadratic (a b c t : ℝ) : ℝ := (1 - t) ^ 2 * a + 2 * t * (1 - t) * b + t ^ 2 * c

/-- Sample `i` of a Bezier curve: keyframes are taken by threes, each three sharing the last with the next, and the sample is
the amplitude where the curve is at `i`. -/
def OnBezier (pts : List (ℤ × ℝ)) (i : ℕ) (y : ℝ) : Prop :=
  ∃ pre q0 q1 q2 post t, pts = pre ++ q0 :: q1 :: q2 :: post ∧ pre.length % 2 = 0 ∧ 0 ≤ t ∧ t ≤ 1 ∧
    (i : ℝ) = quadratic q0.1 q1.1 q2.1 t ∧ y = quadratic q0.2 q1.2 q2.2 t

/-- No three consecutive keyframes span more than 32767 samples. -/
def Short (pts : List (ℤ × ℝ)) : Prop :=
  ∀ pre q0 q1 q2 post, pts = pre ++ q0 :: q1 :: q2 :: post → q2.1 - q0.1 ≤ 32767

end Haptics.Splines
