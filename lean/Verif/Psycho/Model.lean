import Verif.Bits.Model

/-!
The peaks of a spectrum and the mask they make: `PsychohapticModel/src/PsychohapticModel.cpp`.

Spectra are lists of rational numbers.  A `peaks` structure, two vectors of the same length, is a list of locations
with their heights.  Reading outside a vector is `Err.ub`.
-/

namespace Haptics.Psycho
open Haptics

/-- `x[i]`. -/
def get (x : List Rat) (i : Nat) : Except Err Rat := match x[i]? with
  | some v => .ok v
  | none => .error .ub

/-- PsychohapticModel.cpp:166-172: the first index from `p` on whose value is not `v`; `rest` are the values from `p`
on. -/
def plateauEnd (v : Rat) : (rest : List Rat) → (p : Nat) → Nat
  | [], p => p
  | a :: l, p => if a ≠ v then p else plateauEnd v l (p + 1)

/-- PsychohapticModel.cpp:173-191: what becomes of a plateau from `i` to `p`: its peak, if it counts as one. -/
def plateauPeak (x : List Rat) (i p : Nat) (v : Rat) : Except Err (Option (Nat × Rat)) :=
  let peak := (i + p) / 2
  let peak := if peak ≥ x.length then x.length - 1 else peak
  if p ≥ x.length - 1 then .ok (some (peak, v))
  else do
    let w ← get x (p + 1)
    .ok (if w < v then some (peak, v) else none)

/-- PsychohapticModel.cpp:158-196: the loop of `findAllPeakLocations`, from `i` on (`i` is never 0). -/
def findLoop (x : List Rat) : (fuel i : Nat) → Except Err (List (Nat × Rat))
  | 0, i => if i < x.length - 1 then .error .diverge else .ok []
  | fuel + 1, i =>
    if i < x.length - 1 then do
      let a ← get x (i - 1)
      let v ← get x i
      if a < v then
        let w ← get x (i + 1)
        if w < v then
          let more ← findLoop x fuel (i + 1)
          .ok ((i, v) :: more)
        else if i + 1 < x.length ∧ w = v then
          let p := plateauEnd v (x.drop (i + 1)) (i + 1)
          match ← plateauPeak x i p v with
          | some peak =>
            let more ← findLoop x fuel (p + 1)
            .ok (peak :: more)
          | none => findLoop x fuel (i + 1)
        else findLoop x fuel (i + 1)
      else findLoop x fuel (i + 1)
    else .ok []

/-- PsychohapticModel.cpp:149-200 `findAllPeakLocations`, of a spectrum that is not empty. -/
def findAllPeakLocations (x : List Rat) : Except Err (List (Nat × Rat)) := findLoop x x.length 1

/-- PsychohapticModel.cpp:280-297 `filterPeakCriterion`. -/
def filterPeakCriterion (ps : List (Nat × Rat)) (m : Rat) : List (Nat × Rat) := ps.filter (fun p => decide (p.2 ≥ m))

/-- PsychohapticModel.cpp:215-221 and 237-243: the location of the first of `ps` that is higher than `h`. -/
def firstHigher (h : Rat) (ps : List (Nat × Rat)) : Option Nat := (ps.find? (fun p => decide (p.2 > h))).map (·.1)

/-- PsychohapticModel.cpp:222-235 and 244-257: the loops that look for a valley, over the indices `js`; `valley` is the one
so far and `m` its height.  The cases that set it to -1 are not reached: the loops do not run for them. -/
def valleyLoop (x : List Rat) : (js : List Nat) → (m : Rat) → (valley : Nat) → Except Err Nat
  | [], _, valley => .ok valley
  | j :: js, m, valley => do
    let v ← get x j
    if v ≤ m then valleyLoop x js v j else valleyLoop x js m valley

/-- PsychohapticModel.cpp:214-274: the prominence of the peak `p`; `before` are the peaks before it, the nearest
first, and `after` those after it. -/
def prominence (x : List Rat) (before : List (Nat × Rat)) (p : Nat × Rat) (after : List (Nat × Rat)) : Except Err Rat := do
  let jmin := (firstHigher p.2 before).getD 0
  let left ← valleyLoop x ((List.range (p.1 - jmin)).map (fun d => p.1 - 1 - d)) p.2 0
  let jmax := (firstHigher p.2 after).getD (x.length - 1)
  let right ← valleyLoop x ((List.range (jmax - p.1)).map (fun d => p.1 + 1 + d)) p.2 0
  let l ← get x left
  let r ← get x right
  .ok (p.2 - if l > r then l else r)

/-- PsychohapticModel.cpp:202-278 `peakProminence`: the loop over the peaks; `before` are those already seen. -/
def prominenceLoop (x : List Rat) : (before peaks : List (Nat × Rat)) → Except Err (List (Nat × Rat))
  | _, [] => .ok []
  | before, p :: after => do
    let h ← prominence x before p after
    let more ← prominenceLoop x (p :: before) after
    .ok ((p.1, h) :: more)

/-- PsychohapticModel.cpp:330-332: the heights of the peaks that remain. -/
def heights (x : List Rat) : List (Nat × Rat) → Except Err (List (Nat × Rat))
  | [] => .ok []
  | p :: ps => do
    let v ← get x p.1
    let more ← heights x ps
    .ok ((p.1, v) :: more)

/-- PsychohapticModel.cpp:299-334 `findPeaks`. -/
def findPeaks (x : List Rat) (minProminence minHeight : Rat) : Except Err (List (Nat × Rat)) :=
  if x = [] then .ok []
  else do
    let all ← findAllPeakLocations x
    if all = [] then .ok []
    else
      let high := filterPeakCriterion all minHeight
      if high = [] then .ok []
      else do
        let prominences ← prominenceLoop x [] high
        heights x (filterPeakCriterion prominences minProminence)

/-- PsychohapticModel.cpp:42-48: the frequencies of the spectrum, exactly. -/
def freqs (bl fs : Nat) : List Rat := (List.range bl).map (fun i : Nat => i * ((fs : Rat) / (2 * bl - 1)))

/-- PsychohapticModel.cpp:345-347, 350-355 and 359-368: the mask of the peak `p` at the frequency `g`; `none` if the
division by the square of its frequency is one by zero. -/
def maskAt (freqs : List Rat) (p : Nat × Rat) (g : Rat) : Except Err (Option Rat) := do
  let f ← get freqs p.1
  .ok (if f = 0 then none else some ((g - f) * (g - f) * (-30 / (f * f)) + (p.2 - 5 + 5 / 1400 * f)))

/-- PsychohapticModel.cpp:358-373: the mask at `g` of the peaks `ps` and of those before, `m`. -/
def maskLoop (freqs : List Rat) (g : Rat) : List (Nat × Rat) → (m : Rat) → Except Err (Option Rat)
  | [], m => .ok (some m)
  | p :: ps, m => do
    match ← maskAt freqs p g with
    | none => .ok none
    | some v => maskLoop freqs g ps (if v > m then v else m)

/-- PsychohapticModel.cpp:336-375 `peakMask`, at the frequency `g`: empty without peaks. -/
def peakMask (freqs : List Rat) (g : Rat) : List (Nat × Rat) → Except Err (Option Rat)
  | [] => .ok none
  | p :: ps => do
    match ← maskAt freqs p g with
    | none => .ok none
    | some v => maskLoop freqs g ps v

/-- PsychohapticModel.cpp:53-67: the first bin of each band and the end of the last one, `book_cumulative`.  Below a block
length of 8 there is one band at most, and the constructor writes the second one past the end; for a block of one bin it asks
for −1 bands, which throws.  `log2` is taken of a whole number of bins here. -/
def bookCumulative (bl : Nat) : Except Err (List Nat) :=
  let level := Nat.log2 (bl / 4)
  if bl = 1 then .error .throw
  else if level = 0 then .error .ub
  else .ok (0 :: (List.range (level + 1)).map (fun i : Nat => (bl >>> level) <<< i))

end Haptics.Psycho
