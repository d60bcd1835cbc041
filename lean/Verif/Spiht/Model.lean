import Verif.Spiht.Arith
import Mathlib.Algebra.Order.Floor.Ring
import Mathlib.Data.Rat.Floor

/-
Set partitioning of wavelet blocks, Spiht/src/Spiht_Enc.cpp and Spiht/src/Spiht_Dec.cpp.

`int` is modelled by ℤ.  The maximum coefficient, a `double`, is modelled by ℚ: all operations on it – scaling by a
power of two, taking 1 from a number between 1 and 17 – are exact.  What is written to `std::cerr` is left
out.  Access outside a vector through `operator[]` is undefined behaviour.
-/
namespace Haptics.Spiht

/-- `LIP`, `LIS1` with `LIS2` (`true` for type B), and `LSP` (Spiht_Enc.cpp:84-94, Spiht_Dec.h:66-69). -/
structure Lists where
  lip : List Nat
  lis : List (Nat × Bool)
  lsp : List Nat

/-- Spiht_Enc.cpp:56 and Spiht_Dec.cpp:42: `(int)(log2(length) - 2)`, rounded towards zero. -/
def level (length : Nat) : Int := if length = 3 then 0 else (Nat.log2 length : Int) - 2

/-- Spiht_Enc.cpp:83 and Spiht_Dec.cpp:73. -/
def bandsize (length : Nat) : Nat := 2 * 2 ^ ((Nat.log2 length : Int) - level length).toNat

/-- Spiht_Enc.cpp:82-94 and Spiht_Dec.cpp:72-85 `initLists`. -/
def initLists (length : Nat) : Lists :=
  ⟨List.range (bandsize length),
   (List.range' (bandsize length / 2) (bandsize length - bandsize length / 2)).map (·, false), []⟩

/-- More turns than the loop over `LIS` can take (`lis_spec`). -/
def lisFuel (length : Nat) : Nat := 4 ^ length

/-! ### Encoder -/

/-- `std::vector::resize`. -/
def resize (l : List Int) (n : Nat) : List Int := l.take n ++ List.replicate (n - l.length) 0

/-- `v1 > v2 ? v1 : v2`, as it is written out in `initMaxDescendants`. -/
def larger (v1 v2 : Int) : Int := if v1 > v2 then v1 else v2

/-- `abs(signal[i])`; `initMaxDescendants` reads only inside the vectors. -/
def magnitude (signal : List Int) (i : Nat) : Int := (signal.getD i 0).natAbs

/-- Spiht_Enc.cpp:231-243, the first loop: turn `i`. -/
def firstStep (signal : List Int) (start : Nat) (md : List Int) (i : Nat) : List Int :=
  md.set (start / 2 + i) (larger (magnitude signal (start + 2 * i)) (magnitude signal (start + 2 * i + 1)))

/-- Spiht_Enc.cpp:251-272, the inner loop: turn `i`. -/
def levelStep (signal : List Int) (width : Nat) (m : List Int × List Int) (i : Nat) :
    List Int × List Int :=
  let p1 := width + 2 * i
  let p2 := width + 2 * i + 1
  let target := width / 2 + i
  let d1 := larger (m.1.getD p1 0) (m.1.getD p2 0)
  let d := if magnitude signal p1 > d1 then magnitude signal p1 else d1
  let d := if magnitude signal p2 > d then magnitude signal p2 else d
  (m.1.set target d, m.2.set target d1)

/-- Spiht_Enc.cpp:250-277, the outer loop. -/
def levels (signal : List Int) (width : Nat) (m : List Int × List Int) : List Int × List Int :=
  if width / 2 > 1 then
    levels signal (width / 2) ((List.range (width / 2)).foldl (levelStep signal width) m)
  else m
termination_by width

/-- Spiht_Enc.cpp:219-278 `initMaxDescendants`: `maxDescendants` and `maxDescendants1`, which still have
the values for the previous block. -/
def initMaxDescendants (signal : List Int) (m : List Int × List Int) : List Int × List Int :=
  let start := signal.length / 2
  let md := (List.range (start / 2)).foldl (firstStep signal start) (resize m.1 start)
  levels signal (start / 2) (md, resize m.2 (start / 2))

/-- Spiht_Enc.cpp:204-217 `maxDescendant`. -/
def maxDescendant (m : List Int × List Int) (j : Nat) (typeB : Bool) : Int :=
  if typeB then m.2.getD j 0 else m.1.getD j 0

/-- Spiht_Enc.cpp:103-114: the loop over `LIP`.  Output, what stays in `LIP`, what goes to `LSP`. -/
def encLip (x : List Int) (compare : Int) :
    List Nat → Except Err (List (Bool × Nat) × List Nat × List Nat)
  | [] => .ok ([], [], [])
  | i :: l =>
    match x[i]? with
    | none => .error .ub
    | some v => do
      let r ← encLip x compare l
      if (v.natAbs : Int) ≥ compare then
        .ok ((true, 2) :: (decide (v ≥ 0), 1) :: r.1, r.2.1, i :: r.2.2)
      else .ok ((false, 2) :: r.1, i :: r.2.1, r.2.2)

/-- Spiht_Enc.cpp:127-135 (and 136-144): one child. Output, and what goes to `LIP` and to `LSP`. -/
def encChild (x : List Int) (compare : Int) (index : Nat) :
    Except Err (List (Bool × Nat) × List Nat × List Nat) :=
  match x[index]? with
  | none => .error .ub
  | some v =>
    if (v.natAbs : Int) ≥ compare then .ok ([(true, 4), (decide (v ≥ 0), 1)], [], [index])
    else .ok ([(false, 4)], [index], [])

/-- Spiht_Enc.cpp:116-177: the loop over `LIS`.  `kept ++ todo` is the list, and `todo` begins at the
iterator; what is added at the end is visited in the same loop. -/
def encLis (x : List Int) (m : List Int × List Int) (compare : Int) :
    Nat → List (Nat × Bool) → List (Nat × Bool) → List Nat → List Nat →
      Except Err (List (Bool × Nat) × Lists)
  | 0, _, _, _, _ => .error .diverge
  | _ + 1, [], kept, lip, lsp => .ok ([], ⟨lip, kept, lsp⟩)
  | fuel + 1, (y, false) :: todo, kept, lip, lsp =>
    if maxDescendant m y false ≥ compare then do
      let a ← encChild x compare (2 * y)
      let b ← encChild x compare (2 * y + 1)
      let r ← encLis x m compare fuel (todo ++ if 4 * y + 3 < x.length then [(y, true)] else []) kept
        (lip ++ a.2.1 ++ b.2.1) (lsp ++ a.2.2 ++ b.2.2)
      .ok ((true, 3) :: (a.1 ++ b.1 ++ r.1), r.2)
    else do
      let r ← encLis x m compare fuel todo (kept ++ [(y, false)]) lip lsp
      .ok ((false, 3) :: r.1, r.2)
  | fuel + 1, (y, true) :: todo, kept, lip, lsp =>
    if maxDescendant m y true ≥ compare then do
      let r ← encLis x m compare fuel (todo ++ [(2 * y, false), (2 * y + 1, false)]) kept lip lsp
      .ok ((true, 5) :: r.1, r.2)
    else do
      let r ← encLis x m compare fuel todo (kept ++ [(y, true)]) lip lsp
      .ok ((false, 5) :: r.1, r.2)

/-- Spiht_Enc.cpp:184-196 `refinementPass` over the first entries of `LSP`, and 300-307 `bitget`. -/
def encRefine (x : List Int) (n : Nat) : List Nat → Except Err (List (Bool × Nat))
  | [] => .ok []
  | i :: l =>
    match x[i]? with
    | none => .error .ub
    | some v => do
      let r ← encRefine x n l
      .ok ((v.natAbs.testBit n, 6) :: r)

/-- Spiht_Enc.cpp:100-180, the body of the loop: one bit plane. -/
def encPass (x : List Int) (m : List Int × List Int) (n : Nat) (s : Lists) :
    Except Err (List (Bool × Nat) × Lists) := do
  let a ← encLip x (2 ^ n) s.lip
  let b ← encLis x m (2 ^ n) (lisFuel x.length) s.lis [] a.2.1 (s.lsp ++ a.2.2)
  let c ← encRefine x n (b.2.lsp.take s.lsp.length)
  .ok (a.1 ++ b.1 ++ c, b.2)

/-- Spiht_Enc.cpp:99-181: the bit planes from `n` down to 0. -/
def encPlanes (x : List Int) (m : List Int × List Int) : Nat → Lists → Except Err (List (Bool × Nat))
  | 0, s => do
    let r ← encPass x m 0 s
    .ok r.1
  | n + 1, s => do
    let r ← encPass x m (n + 1) s
    let more ← encPlanes x m n r.2
    .ok (r.1 ++ more)

/-- Spiht_Enc.cpp:291-298 `de2bi`; the values are not negative. -/
def de2bi (val : Nat) : Nat → List Bool
  | 0 => []
  | n + 1 => decide (val % 2 = 1) :: de2bi (val / 2) n

/-- Spiht_Enc.cpp:309-321 `getQuantMode`: mode, and number of bits behind the point. -/
def quantMode (wavmax : Rat) : Bool × Nat := if wavmax < 1 then (false, 7) else (true, 3)

/-- Spiht_Enc.cpp:280-289 `maximumWaveletCoefficient` and 323-330 `setBitwavmax`, for a maximum that is not
negative.  In both modes 7 bits are written after the mode (Spiht_Enc.h:51-53: 0 + 7 and 4 + 3). -/
def bitwavmax (qwavmax : Rat) : List Bool :=
  let m := quantMode qwavmax
  let integerpart : Rat := if m.1 then 1 else 0
  m.1 :: de2bi ⌊(qwavmax - integerpart) * 2 ^ m.2⌋.toNat 7

/-- Spiht_Enc.cpp:66-182 `encode`: the symbols with their contexts.  `m` are the members
`maxDescendants` and `maxDescendants1`. -/
def encodeSymbols (x : List Int) (bits : Nat) (wavmax : List Bool) (m : List Int × List Int) :
    Except Err (List (Bool × Nat)) := do
  let planes ← encPlanes x (initMaxDescendants x m) bits (initLists x.length)
  .ok ((de2bi bits 4 ++ wavmax).map (·, 0) ++ planes)

/-- The state of a `Spiht_Enc`: the statistics of its `arithEnc`, and the two vectors. -/
structure Encoder where
  counters : List Counter := resetCounters
  maxDescendants : List Int × List Int := ([], [])

/-- Spiht_Enc.cpp:38-64 `encodeEffect`. -/
def Encoder.encodeEffect (e : Encoder) (block : List Int) (bits : Nat) (scalar : Rat) :
    Except Err (List UInt8 × Encoder) :=
  if bits = 0 then .ok ([], e)
  else if block.all (· == 0) then .ok ([], e)
  else do
    let symbols ← encodeSymbols block bits (bitwavmax scalar) e.maxDescendants
    let r ← encode symbols e.counters
    .ok (convert2bytes r.1, ⟨resetCounters, initMaxDescendants block e.maxDescendants⟩)

/-! ### Decoder -/

/-- A part of `Spiht_Dec`, which has the arithmetic decoder `arithDec` as a member. -/
abbrev Dec := StateT Decoder (Except Err)

/-- Spiht_Dec.cpp:200 `getBit`. -/
def getBit (context : Nat) : Dec Bool := fun d => d.decode context

/-- `out[i] = v`. -/
def store (out : List Int) (i : Nat) (v : Int) : Dec (List Int) :=
  if i < out.length then pure (out.set i v) else throw .ub

/-- Spiht_Dec.cpp:202-207 `getBits`. -/
def getBits (context : Nat) : Nat → Dec (List Bool)
  | 0 => pure []
  | n + 1 => do
    let b ← getBit context
    let l ← getBits context n
    pure (b :: l)

/-- Spiht_Dec.cpp:209-215 `bi2de`. -/
def bi2de : List Bool → Nat
  | [] => 0
  | b :: l => b.toNat + 2 * bi2de l

/-- Spiht_Dec.cpp:87-91 `getMaxAllocBits`. -/
def getMaxAllocBits : Dec Nat := do
  let l ← getBits 0 4
  pure (bi2de l)

/-- Spiht_Dec.cpp:93-105 `getWavmax`. -/
def getWavmax : Dec Rat := do
  let mode ← getBit 0
  let l ← getBits 0 7
  pure (if mode = false then (bi2de l : Rat) / 2 ^ 7 else (bi2de l : Rat) / 2 ^ 3 + 1)

/-- Spiht_Dec.cpp:109-121: the loop over `LIP`. -/
def decLip (compare : Int) : List Nat → List Int → Dec (List Int × List Nat × List Nat)
  | [], out => pure (out, [], [])
  | i :: l, out => do
    let found ← getBit 2
    if found then
      let sign ← getBit 1
      let out ← store out i (if sign then compare else -compare)
      let r ← decLip compare l out
      pure (r.1, r.2.1, i :: r.2.2)
    else
      let r ← decLip compare l out
      pure (r.1, i :: r.2.1, r.2.2)

/-- Spiht_Dec.cpp:132-142 (and 144-154): one child. -/
def decChild (compare : Int) (index : Nat) (out : List Int) : Dec (List Int × List Nat × List Nat) := do
  let found ← getBit 4
  if found then
    let sign ← getBit 1
    let out ← store out index (if sign then compare else -compare)
    pure (out, [], [index])
  else
    pure (out, [index], [])

/-- Spiht_Dec.cpp:123-185: the loop over `LIS`. -/
def decLis (length : Nat) (compare : Int) :
    Nat → List (Nat × Bool) → List (Nat × Bool) → List Nat → List Nat → List Int →
      Dec (List Int × Lists)
  | 0, _, _, _, _, _ => throw .diverge
  | _ + 1, [], kept, lip, lsp, out => pure (out, ⟨lip, kept, lsp⟩)
  | fuel + 1, (y, false) :: todo, kept, lip, lsp, out => do
    let found ← getBit 3
    if found then
      let a ← decChild compare (2 * y) out
      let b ← decChild compare (2 * y + 1) a.1
      decLis length compare fuel (todo ++ if 4 * y + 3 < length then [(y, true)] else []) kept
        (lip ++ a.2.1 ++ b.2.1) (lsp ++ a.2.2 ++ b.2.2) b.1
    else
      decLis length compare fuel todo (kept ++ [(y, false)]) lip lsp out
  | fuel + 1, (y, true) :: todo, kept, lip, lsp, out => do
    let found ← getBit 5
    if found then
      decLis length compare fuel (todo ++ [(2 * y, false), (2 * y + 1, false)]) kept lip lsp out
    else
      decLis length compare fuel todo (kept ++ [(y, true)]) lip lsp out

/-- Spiht_Dec.cpp:188-198 `refinementPass` over the first entries of `LSP`, and 217 `sgn`. -/
def decRefine (compare : Int) : List Nat → List Int → Dec (List Int)
  | [], out => pure out
  | i :: l, out => do
    let bit ← getBit 6
    if bit then
      match out[i]? with
      | none => throw .ub
      | some v => decRefine compare l (out.set i (v + v.sign * compare))
    else decRefine compare l out

/-- Spiht_Dec.cpp:59-66, the body of the loop: one bit plane. -/
def decPass (length n : Nat) (s : Lists) (out : List Int) : Dec (List Int × Lists) := do
  let a ← decLip (2 ^ n) s.lip out
  let b ← decLis length (2 ^ n) (lisFuel length) s.lis [] a.2.1 (s.lsp ++ a.2.2) a.1
  let out ← decRefine (2 ^ n) (b.2.lsp.take s.lsp.length) b.1
  pure (out, b.2)

/-- Spiht_Dec.cpp:57-67: the bit planes from `n` down to 0. -/
def decPlanes (length : Nat) : Nat → Lists → List Int → Dec (List Int)
  | 0, s, out => do
    let r ← decPass length 0 s out
    pure r.1
  | n + 1, s, out => do
    let r ← decPass length (n + 1) s out
    decPlanes length n r.2 r.1

/-- Spiht_Dec.cpp:51-67: what `decode` does with the initialised arithmetic decoder. -/
def decodeSymbols (length : Nat) (out : List Int) : Dec (List Int × Rat × Nat) := do
  let out := resize out length
  let bits ← getMaxAllocBits
  let wavmax ← getWavmax
  let out ← decPlanes length bits (initLists length) out
  pure (out, wavmax, bits)

/-- Spiht_Dec.cpp:38-46 `decodeEffect` with 48-70 `decode`: the block, the maximum and the number of bit
planes.  The logarithm of 0 cannot be converted to `int`. -/
def Decoder.decodeEffect (d : Decoder) (bytes : List UInt8) (out : List Int) (length : Nat) :
    Except Err ((List Int × Rat × Nat) × Decoder) :=
  if length = 0 then .error .ub
  else match decodeSymbols length out (d.init (convert2bits bytes)) with
    | .error e => .error e
    | .ok (r, d) => .ok (r, { d with counters := resetCounters })

end Haptics.Spiht
