import Verif.Eval.Splines

/-
`cubicInterpolation` and `interpolationCodec` of /repo/source/Tools/src/Tools.cpp.  The programs use neither.
Arithmetic is exact.
-/
namespace Haptics.Splines
open Haptics

section Generic
variable {K : Type} [Field K] [LinearOrder K]

/-- Tools.cpp:139-142: `x[i]`. -/
def timeAt (pts : List (Int × K)) (i : Nat) : K := ((pts.getD i (0, 0)).1 : K)

/-- Tools.cpp:139-145: `y[i]`, and `a[i]`. -/
def levelAt (pts : List (Int × K)) (i : Nat) : K := (pts.getD i (0, 0)).2

/-- Tools.cpp:150-152: `h[i]`. -/
def step (pts : List (Int × K)) (i : Nat) : K := timeAt pts (i + 1) - timeAt pts i

/-- Tools.cpp:155-158: `alpha[i]`. -/
def alpha (pts : List (Int × K)) (i : Nat) : K :=
  if i = 0 then 0
  else 3 * (levelAt pts (i + 1) - levelAt pts i) / step pts i - 3 * (levelAt pts i - levelAt pts (i - 1)) / step pts (i - 1)

/-- Tools.cpp:168: `l[i]`, for the `mu` before it. -/
def pivot (pts : List (Int × K)) (i : Nat) (mu : K) : K := 2 * (timeAt pts (i + 1) - timeAt pts (i - 1)) - step pts (i - 1) * mu

/-- Tools.cpp:163-171: `mu[i]` and `z[i]`, for `i` below `n`. -/
def sweep (pts : List (Int × K)) : Nat → K × K
  | 0 => (0, 0)
  | i + 1 =>
    let l := pivot pts (i + 1) (sweep pts i).1
    (step pts (i + 1) / l, (alpha pts (i + 1) - step pts i * (sweep pts i).2) / l)

/-- Tools.cpp:175 and 178: `c[n - d]`. -/
def backward (pts : List (Int × K)) (n : Nat) : Nat → K
  | 0 => 0
  | d + 1 => (sweep pts (n - (d + 1))).2 - (sweep pts (n - (d + 1))).1 * backward pts n d

/-- Tools.cpp:145 and 177-181: `a[j]`, `b[j]`, `c[j]` and `d[j]`. -/
def naturalCoefficients (pts : List (Int × K)) (j : Nat) : K × K × K × K :=
  let n := pts.length - 1
  let c := backward pts n (n - j)
  let c' := backward pts n (n - (j + 1))
  (levelAt pts j, (levelAt pts (j + 1) - levelAt pts j) / step pts j - step pts j * (c' + 2 * c) / 3, c, (c' - c) / 3 / step pts j)

/-- Tools.cpp:189: the polynomial of a segment. -/
def polynomial (s : K × K × K × K) (delta : K) : K := s.1 + s.2.1 * delta + s.2.2.1 * delta ^ 2 + s.2.2.2 * delta ^ 3

/-- Tools.cpp:183-194: the loops over the samples.  `delta` is computed before the inner loop.  `x[i + 1]` past the end is
undefined behaviour. -/
def naturalSamples (value : Nat → K → K) (last : Int) : (i t : Nat) → List (Int × K) → Except Err (List K)
  | i, t, p0 :: p1 :: l =>
    if (t : Int) < last then
      let n := (p1.1 + 1 - t).toNat
      match naturalSamples value last (i + 1) (t + n) (p1 :: l) with
      | .error x => .error x
      | .ok r => .ok (List.replicate n (value i (((t : Int) - p0.1 : Int) : K)) ++ r)
    else .ok []
  | _, t, _ => if (t : Int) < last then .error .ub else .ok []

/-- Tools.cpp:135-196 `cubicInterpolation`.  Without points the vectors cannot be made.  Divisions by zero, which give values that are
not finite, are not modelled (`fail`). -/
def cubicInterpolation (pts : List (Int × K)) : Except Err (List K) :=
  if pts = [] then .error .throw
  else if (List.range (pts.length - 1)).any (fun i => decide (step pts i = 0 ∨ (i ≠ 0 ∧ pivot pts i (sweep pts (i - 1)).1 = 0))) then .error .fail
  else naturalSamples (fun i => polynomial (naturalCoefficients pts i)) (pts.getLastD (0, 0)).1 0 0 pts

end Generic

/-- Tools.cpp:404-419: the value of a sample. -/
noncomputable def codecSegment (curveType : Nat) (t0 f0 t1 f1 t : ℝ) : Option ℝ :=
  if curveType = CurveType.Cubic then cubicSegment t0 f0 t1 f1 t
  else if curveType = CurveType.Linear then linearSegment t0 f0 t1 f1 t
  else some 0

/-- Tools.cpp:392-426 `interpolationCodec`; its loops are those of the other interpolations.  Without points, `back` is undefined. -/
noncomputable def interpolationCodec (pts : List (Int × ℝ)) (curveType : Nat) : Except Err (List (Option ℝ)) :=
  match pts.getLast? with
  | none => .error .ub
  | some p => interpolation2 (codecSegment curveType) p.1 0 pts

end Haptics.Splines
