import Verif.Eval.Model
import Mathlib.Analysis.SpecialFunctions.Sqrt
import Mathlib.Algebra.Order.Field.Basic

/-
The three interpolations of /repo/source/Tools/src/Tools.cpp that `Eval/Model.lean` takes as an argument:
Akima, Bezier and B-spline curves through, or along, the keyframes of an effect.
Arithmetic is exact, except that the B-spline takes the rounding of its running parameter as an argument.
-/
namespace Haptics.Splines
open Haptics

section Generic
variable {K : Type} [Field K] [LinearOrder K]

/-! ### Akima -/

/-- Tools.cpp:213-218: slope `m[i]` of the line from keyframe `i` to the next one. -/
def secant (pts : List (Int × K)) (i : Nat) : K :=
  ((pts.getD (i + 1) (0, 0)).2 - (pts.getD i (0, 0)).2) /
    (((pts.getD (i + 1) (0, 0)).1 - (pts.getD i (0, 0)).1 : Int) : K)

/-- Tools.cpp:217, 220-223: `m1`, the slopes with two more at each end. -/
def slope (pts : List (Int × K)) (i : Nat) : K :=
  let n := pts.length
  if i = 0 then 3 * secant pts 0 - 2 * secant pts 1
  else if i = 1 then 2 * secant pts 0 - secant pts 1
  else if i = n + 1 then 2 * secant pts (n - 2) - secant pts (n - 3)
  else if i = n + 2 then 3 * secant pts (n - 2) - 2 * secant pts (n - 3)
  else secant pts (i - 2)

/-- Tools.cpp:226: `dm`. -/
def slopeChange (pts : List (Int × K)) (i : Nat) : K := |slope pts (i + 1) - slope pts i|

/-- Tools.cpp:235-237: `f`. -/
def bend (pts : List (Int × K)) (i : Nat) : K := slopeChange pts (i + 2) + slopeChange pts i

/-- Tools.cpp:232-241: `max`, which starts at `AKIMA_EPSILON`. -/
def maxBend (pts : List (Int × K)) : K :=
  (List.range pts.length).foldl (fun m i => if bend pts i > m then bend pts i else m) (-100)

/-- Tools.cpp:227-229 and 243-247: `b[i]`, the slope of the curve at keyframe `i`.  The threshold is
`AKIMA_THRESHOLD` to the power of `AKIMA_THRESHOLD2`. -/
def tangent (pts : List (Int × K)) (i : Nat) : K :=
  if bend pts i > 1 / 100000000 * maxBend pts then
    (slopeChange pts (i + 2) * slope pts (i + 1) + slopeChange pts i * slope pts (i + 2)) / bend pts i
  else slope pts (i + 1)

/-- Tools.cpp:214: `dx[i]`. -/
def gap (pts : List (Int × K)) (i : Nat) : K :=
  (((pts.getD (i + 1) (0, 0)).1 - (pts.getD i (0, 0)).1 : Int) : K)

/-- Tools.cpp:249-252: `c[i]`. -/
def coefC (pts : List (Int × K)) (i : Nat) : K :=
  (3 * secant pts i - 2 * tangent pts i - tangent pts (i + 1)) / gap pts i

/-- Tools.cpp:249-252: `d[i]`. -/
def coefD (pts : List (Int × K)) (i : Nat) : K :=
  (tangent pts i + tangent pts (i + 1) - 2 * secant pts i) / gap pts i ^ 2

/-- Tools.cpp:259-262: a sample `x` after keyframe `i`. -/
def akimaAt (pts : List (Int × K)) (i : Nat) (x : K) : K :=
  ((x * coefD pts i + coefC pts i) * x + tangent pts i) * x + (pts.getD i (0, 0)).2

/-- Tools.cpp:257-265: the samples from keyframe `i` on, where `count` samples have been written before. -/
def akimaSamples (pts : List (Int × K)) : (i count : Nat) → List (Int × K) → List K
  | i, count, p :: q :: l =>
    let n := (q.1 - p.1).toNat
    (List.range n).map (fun d : Nat => akimaAt pts i (((count + d : Nat) - p.1 : Int) : K))
      ++ akimaSamples pts (i + 1) (count + n) (q :: l)
  | _, _, _ => []

/-- Tools.cpp:198-274 `akimaInterpolation`.  Fewer than three keyframes: `m[1]` is read past the end of `m`.  Two
neighbouring keyframes at the same sample: the code goes on with infinite slopes, which is not modelled (`fail`).
The vector has room for the samples up to the last keyframe; what is not written stays zero. -/
def akima (pts : List (Int × K)) : Except Err (List K) :=
  let last := pts.getLastD (0, 0)
  let samples := akimaSamples pts 0 0 pts
  let x : K := ((samples.length - last.1 : Int) : K)
  let n := pts.length
  if n < 3 then .error .ub
  else if (List.range (n - 1)).any (fun i => decide ((pts.getD (i + 1) (0, 0)).1 = (pts.getD i (0, 0)).1)) then .error .fail
  else if last.1 < -1 then .error .throw
  else if last.1 < samples.length then .error .ub
  else .ok (samples ++ [((x * coefD pts (n - 2) + coefC pts (n - 2)) * x + tangent pts (n - 1)) * x + last.2]
    ++ List.replicate (last.1 - samples.length).toNat 0)

/-! ### B-spline -/

/-- Tools.cpp:324, 327-333: the knots for `p` keyframes (`p = 2` is not used: Band.cpp:191). -/
def knots (p : Nat) : List K :=
  [0, 0] ++ (List.range (p - 1)).map (fun i : Nat => (i : K) / ((p - 2 : Nat) : K)) ++ [1, 1]

/-- Tools.cpp:346-349: the first knot after `t0`; there may be none, and the loop then reads past the end. -/
def knotIndex (t0 : K) (ts : List K) : Option Nat := ts.findIdx? (fun t => decide (t0 < t))

/-- Tools.cpp:356-362 and 374-380: `wt`. -/
def weight (ts : List K) (t0 : K) (k i j : Nat) : K :=
  let num := t0 - ts.getD (k - 3 + j) 0
  if num = 0 then 0 else num / (ts.getD (k + j - i) 0 - ts.getD (k - 3 + j) 0)

/-- Tools.cpp:354-365 and 372-383: the point of the curve, from three control points. -/
def deBoor (ts : List K) (t0 : K) (k : Nat) (a0 a1 a2 : K) : K :=
  let w11 := weight ts t0 k 1 1
  let w12 := weight ts t0 k 1 2
  let w22 := weight ts t0 k 2 2
  (1 - w22) * ((1 - w11) * a0 + w11 * a1) + w22 * ((1 - w12) * a1 + w12 * a2)

/-- Tools.cpp:350-365: position of the curve (`X1[2][2]`). -/
def splineX (pts : List (Int × K)) (t0 : K) (k : Nat) : K :=
  deBoor (knots pts.length) t0 k ((pts.getD (k - 3) (0, 0)).1 : K) ((pts.getD (k - 2) (0, 0)).1 : K)
    ((pts.getD (k - 1) (0, 0)).1 : K)

/-- Tools.cpp:368-384: amplitude of the curve (`X2[2][2]`). -/
def splineY (pts : List (Int × K)) (t0 : K) (k : Nat) : K :=
  deBoor (knots pts.length) t0 k (pts.getD (k - 3) (0, 0)).2 (pts.getD (k - 2) (0, 0)).2 (pts.getD (k - 1) (0, 0)).2

/-- `t0`, `k` and `X1[2][2]`. -/
structure SplineState (K : Type) where
  t0 : K
  k : Nat
  x : K

/-- Tools.cpp:344-366: moves on until the curve reaches sample `m`.  `rnd` rounds the sum, `dt` is the step. -/
def advance (rnd : K → K) (dt : K) (pts : List (Int × K)) (m : Nat) : Nat → SplineState K → Except Err (SplineState K)
  | 0, s => if s.x < m then .error .diverge else .ok s
  | fuel + 1, s =>
    if s.x < m then
      let t0 := rnd (s.t0 + dt)
      match knotIndex t0 (knots pts.length) with
      | none => .error .ub
      | some k =>
        if k < 3 ∨ pts.length < k then .error .ub
        else advance rnd dt pts m fuel ⟨t0, k, splineX pts t0 k⟩
    else .ok s

/-- Tools.cpp:343-385: the samples between the first and the last. -/
def bsplineLoop (rnd : K → K) (dt : K) (fuel : Nat) (pts : List (Int × K)) : List Nat → SplineState K → Except Err (List K)
  | [], _ => .ok []
  | m :: ms, s => do
    let s ← advance rnd dt pts m fuel s
    let r ← bsplineLoop rnd dt fuel pts ms s
    .ok (splineY pts s.t0 s.k :: r)

/-- Tools.cpp:318-390 `bsplineInterpolation`. -/
def bspline (rnd : K → K) (dt : K) (fuel : Nat) (pts : List (Int × K)) : Except Err (List K) :=
  let last := pts.getLastD (0, 0)
  if last.1 < -1 then .error .throw
  else if last.1 < 0 then .error .ub
  else if last.1 = 0 then .ok [last.2]
  else do
    let r ← bsplineLoop rnd dt fuel pts ((List.range (last.1.toNat - 1)).map (· + 1)) ⟨0, 0, 0⟩
    .ok ((pts.getD 0 (0, 0)).2 :: r ++ [last.2])

end Generic

/-! ### Bezier -/

noncomputable section

/-- An `int` product that overflows. -/
def overflows (x : Int) : Bool := decide (x < -2 ^ 31 ∨ 2 ^ 31 ≤ x)

/-- Tools.cpp:301-306: the parameter at which the curve reaches sample `j` of the segment, counted from 1. -/
def bezierT (dx1 dx2 j : Int) : Option ℝ :=
  if 1 - 2 * dx1 + dx2 ≠ 0 then
    let r : ℝ := (dx1 : ℝ) ^ 2 - 2 * j * dx1 + j * 1 + j * dx2 - 1 * dx2
    if r < 0 then none else fdiv (1 - dx1 + Real.sqrt r) ((1 - 2 * dx1 + dx2 : Int) : ℝ)
  else fdiv ((1 - j : Int) : ℝ) ((2 * (1 - dx1) : Int) : ℝ)

/-- Tools.cpp:307: amplitude of the curve at the parameter `t`. -/
def bezierY (f0 f1 f2 t : ℝ) : ℝ := (1 - t) ^ 2 * f0 + (1 - t) * 2 * t * f1 + t ^ 2 * f2

/-- Tools.cpp:294-308: the samples of a segment of three keyframes.  The products of line 302 are ones of `int`s. -/
def bezierSegment (p0 p1 p2 : Int × ℝ) : Except Err (List (Option ℝ)) :=
  let dx1 := p1.1 - p0.1 + 1
  let dx2 := p2.1 - p0.1 + 1
  let js := (List.range (dx2 - 1).toNat).map (fun i : Nat => (i : Int) + 1)
  if 1 - 2 * dx1 + dx2 ≠ 0 ∧ js.any (fun j => overflows (2 * j * dx1) || overflows (j * dx2)) then .error .ub
  else .ok (js.map (fun j => (bezierT dx1 dx2 j).map (bezierY p0.2 p1.2 p2.2)))

/-- Tools.cpp:276-316 `bezierInterpolation`: of an even number of keyframes the last one is dropped. -/
def bezier : List (Int × ℝ) → Except Err (List (Option ℝ))
  | p0 :: p1 :: p2 :: l => match bezierSegment p0 p1 p2 with
    | .error x => .error x
    | .ok s => match bezier (p2 :: l) with
      | .error x => .error x
      | .ok r => .ok (s ++ r)
  | p :: _ => .ok [some p.2]
  | [] => .error .ub

/-- Band.cpp:201-209: the three curve types, as the argument of `interpolateCurve`. -/
def splines (rnd : ℝ → ℝ) (fuel : Nat) (curveType : Nat) (pts : List (Int × ℝ)) : Except Err (List (Option ℝ)) :=
  if curveType = 3 then (akima pts).map (·.map some)
  else if curveType = 4 then bezier pts
  else (bspline rnd (rnd (rnd (1 / ((pts.getLastD (0, 0)).1 : ℝ)) / 10)) fuel pts).map (·.map some)

end

end Haptics.Splines
