import Verif.Bits.Float

/-!
The wavelet transform: `FilterBank/src/Wavelet.cpp` and `FilterBank/include/Wavelet.h`.

Every function takes the rounding `rnd` that follows each operation on `double`s: `fl64` for the code.
Vectors are lists; what a loop writes into the first elements of a vector is put in front of its other
elements.  Reading or writing outside a vector is `Err.ub`.
-/

namespace Haptics.Wavelet.Transform
open Haptics

/-- Wavelet.h:44 `LP_0`; the `double` nearest to the decimal constant, as in all of the following. -/
def LP_0 : Rat := fl64 (852698679009404 / 10 ^ 15)
/-- Wavelet.h:45 `LP_1`. -/
def LP_1 : Rat := fl64 (377402855612654 / 10 ^ 15)
/-- Wavelet.h:46 `LP_2`. -/
def LP_2 : Rat := fl64 (-110624404418423 / 10 ^ 15)
/-- Wavelet.h:47 `LP_3`. -/
def LP_3 : Rat := fl64 (-23849465019380 / 10 ^ 15)
/-- Wavelet.h:48 `LP_4`. -/
def LP_4 : Rat := fl64 (37828455506995 / 10 ^ 15)
/-- Wavelet.h:51 `HP_0`. -/
def HP_0 : Rat := fl64 (-788485616405665 / 10 ^ 15)
/-- Wavelet.h:52 `HP_1`. -/
def HP_1 : Rat := fl64 (418092273222212 / 10 ^ 15)
/-- Wavelet.h:53 `HP_2`. -/
def HP_2 : Rat := fl64 (40689417609559 / 10 ^ 15)
/-- Wavelet.h:54 `HP_3`. -/
def HP_3 : Rat := fl64 (-64538882628938 / 10 ^ 15)

/-- Wavelet.h:73 `lp`. -/
def lp : List Rat := [LP_4, LP_3, LP_2, LP_1, LP_0, LP_1, LP_2, LP_3, LP_4]
/-- Wavelet.h:74 `hp`. -/
def hp : List Rat := [HP_3, HP_2, HP_1, HP_0, HP_1, HP_2, HP_3]
/-- Wavelet.h:75 `lpr`. -/
def lpr : List Rat := [HP_3, -HP_2, HP_1, -HP_0, HP_1, -HP_2, HP_3]
/-- Wavelet.h:76 `hpr`. -/
def hpr : List Rat := [-LP_4, LP_3, -LP_2, LP_1, -LP_0, LP_1, -LP_2, LP_3, -LP_4]

/-- Wavelet.cpp:141-145: the loop over the taps from `i` on. -/
def taps (rnd : Rat → Rat) (x : List Rat) : (i : Nat) → (h : List Rat) → (out : List Rat) → List Rat
  | _, [], out => out
  | i, c :: h, out =>
    taps rnd x (i + 1) h (out.mapIdx (fun j o =>
      if i ≤ j ∧ j < x.length + i then rnd (o + rnd (x.getD (j - i) 0 * c)) else o))

/-- Wavelet.cpp:129-146 `conv1D`. -/
def conv1D (rnd : Rat → Rat) (x : List Rat) : (h : List Rat) → List Rat
  | [] => []
  | c :: h => taps rnd x 1 h (x.map (fun v => rnd (v * c)) ++ List.replicate h.length 0)

/-- Wavelet.cpp:88-96 and 111-119: the symmetric extension by `lext` values on both sides, which needs
`lext + 1` values. -/
def extend (x : List Rat) (lext : Nat) : Except Err (List Rat) :=
  if x.length < lext + 1 then .error .ub
  else .ok (((x.drop 1).take lext).reverse ++ x ++ ((x.drop (x.length - lext - 1)).take lext).reverse)

/-- Wavelet.cpp:81-102 `symconv1D`: what is written to the beginning of `out`. -/
def symconv1D (rnd : Rat → Rat) (x h : List Rat) : Except Err (List Rat) := do
  let temp ← extend x (h.length / 2)
  let conv := conv1D rnd temp h
  .ok ((conv.drop (2 * (h.length / 2))).take (conv.length - 2 * (2 * (h.length / 2))))

/-- Wavelet.cpp:104-127 `symconv1DAdd`: what is written to the beginning of `out`. -/
def symconv1DAdd (rnd : Rat → Rat) (x h out : List Rat) : Except Err (List Rat) := do
  let temp ← extend x (h.length / 2)
  let conv := conv1D rnd temp h
  .ok ((out.take x.length).zipWith (fun o c => rnd (o + c)) (conv.drop (h.length - 1)))

/-- The values at even indices. -/
def evens : List Rat → List Rat
  | a :: _ :: l => a :: evens l
  | [a] => [a]
  | [] => []

/-- The values at odd indices. -/
def odds : List Rat → List Rat
  | _ :: b :: l => b :: odds l
  | _ => []

/-- Wavelet.cpp:44-60: one pass of the loop of `DWT`, at length `len`; `x` and `out` after it.  `h[j + 1]` is
outside `h` if `len` is odd. -/
def dwtStep (rnd : Rat → Rat) (len : Nat) (x out : List Rat) : Except Err (List Rat × List Rat) := do
  let h ← symconv1D rnd (x.take len) hp
  let l ← symconv1D rnd (x.take len) lp
  if len % 2 = 1 then .error .ub
  .ok (evens l ++ x.drop (len / 2), evens l ++ odds h ++ out.drop len)

/-- Wavelet.cpp:43-61: the loop of `DWT` from level `i` on, `n` more levels. -/
def dwtLoop (rnd : Rat → Rat) (size : Nat) : (n i : Nat) → (x out : List Rat) → Except Err (List Rat)
  | 0, _, _, out => .ok out
  | n + 1, i, x, out => do
    let r ← dwtStep rnd (size >>> i) x out
    dwtLoop rnd size n (i + 1) r.1 r.2

/-- Wavelet.cpp:39-62 `DWT`, `out` empty before. -/
def dwt (rnd : Rat → Rat) (levels : Nat) (x : List Rat) : Except Err (List Rat) :=
  dwtLoop rnd x.length levels 0 x (List.replicate x.length 0)

/-- Wavelet.cpp:72-73: `l[0], 0, l[1], 0, …`. -/
def spreadEven : List Rat → List Rat
  | [] => []
  | a :: l => a :: 0 :: spreadEven l

/-- Wavelet.cpp:72-74: `0, h[0], 0, h[1], …`. -/
def spreadOdd : List Rat → List Rat
  | [] => []
  | a :: l => 0 :: a :: spreadOdd l

/-- Wavelet.cpp:69-77: one pass of the loop of `inv_DWT`, at length `len`.  `h[j + 1]` is outside `h` if `len` is
odd. -/
def invStep (rnd : Rat → Rat) (len : Nat) (out : List Rat) : Except Err (List Rat) := do
  if len % 2 = 1 then .error .ub
  let l := spreadEven (out.take (len / 2))
  let h := spreadOdd ((out.drop (len / 2)).take (len / 2))
  let a ← symconv1D rnd h hpr
  let b ← symconv1DAdd rnd l lpr a
  .ok (b ++ out.drop len)

/-- Wavelet.cpp:68-78: the loop of `inv_DWT` from level `n - 1` down to 0. -/
def invLoop (rnd : Rat → Rat) (size : Nat) : (n : Nat) → (out : List Rat) → Except Err (List Rat)
  | 0, out => .ok out
  | n + 1, out => do
    let out ← invStep rnd (size >>> n) out
    invLoop rnd size n out

/-- Wavelet.cpp:64-79 `inv_DWT`, `out` of the size of the input. -/
def invDwt (rnd : Rat → Rat) (levels : Nat) (x : List Rat) : Except Err (List Rat) :=
  invLoop rnd x.length levels x

end Haptics.Wavelet.Transform
