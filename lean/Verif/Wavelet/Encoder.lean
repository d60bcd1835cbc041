import Verif.Spiht.Model
import Verif.Bits.Float
import Mathlib.Data.Rat.Floor

/-!
The wavelet encoder: `Encoder/src/WaveletEncoder.cpp`.

Samples and coefficients are rational numbers, and the arithmetic is that of binary64; the largest coefficient
is computed without rounding, which makes no difference (`c43_maximum_binary64`).  The transform
(`FilterBank/src/Wavelet.cpp`), the psychohaptic model and the logarithm are parameters.  Energies and
ratios, which are `inf` or `nan` for silent bands, are extended numbers.
-/

namespace Haptics.Wavelet
open Haptics Haptics.Spiht

/-- Values of `double` with the exceptional ones. -/
inductive Ext where
  | nan
  | ninf
  | fin (q : Rat)
  | pinf
  deriving DecidableEq

namespace Ext

/-- `a / b` for `a` and `b` that are not negative.  The rounding of the quotient is left to `lg`, which is any
function. -/
def ratio (a b : Rat) : Ext :=
  if b = 0 then if a = 0 then nan else pinf
  else fin (a / b)

/-- `LOGFACTOR * log10(v)`; `lg` is the value for positive numbers. -/
def log (lg : Rat → Rat) : Ext → Ext
  | nan => nan
  | ninf => nan
  | fin q => if q = 0 then ninf else fin (lg q)
  | pinf => pinf

/-- `a - b`. -/
def sub : Ext → Ext → Ext
  | nan, _ => nan
  | _, nan => nan
  | fin a, fin b => fin (fl64 (a - b))
  | fin _, ninf => pinf
  | fin _, pinf => ninf
  | pinf, pinf => nan
  | pinf, _ => pinf
  | ninf, ninf => nan
  | ninf, _ => ninf

/-- `a < b`: false if one of them is not a number. -/
def lt : Ext → Ext → Bool
  | fin a, fin b => decide (a < b)
  | ninf, fin _ => true
  | ninf, pinf => true
  | fin _, pinf => true
  | _, _ => false

end Ext

/-- Spiht_Enc.h:50 `MAXBITS`. -/
abbrev MAXBITS : Nat := 15

/-- WaveletEncoder.cpp:39: `(int)log2((double)bl / 4)`, for `bl` from 4 on. -/
def dwtLevel (bl : Nat) : Nat := Nat.log2 (bl / 4)

/-- `n` values, each one twice the one before. -/
def doubling : (n : Nat) → (v : Nat) → List Nat
  | 0, _ => []
  | n + 1, v => v :: doubling n (2 * v)

/-- WaveletEncoder.cpp:41-52, `book`: the lengths of the bands. -/
def book (bl : Nat) : List Nat := bl / 2 ^ dwtLevel bl :: doubling (dwtLevel bl) (bl / 2 ^ dwtLevel bl)

/-- WaveletEncoder.cpp:45-52, `book_cumulative`: where the bands begin. -/
def bookCumulative (bl : Nat) : List Nat := 0 :: doubling (dwtLevel bl + 1) (bl / 2 ^ dwtLevel bl)

/-- WaveletEncoder.cpp:233-244 `findMax` (of a vector that is not empty). -/
def findMax (l : List Rat) : Rat := l.foldl (fun m v => if |v| > m then |v| else m) 0

/-- WaveletEncoder.cpp:221-231 `maxQuant`, with the modes of `getQuantMode`: `m.integerbits +
m.fractionbits` is 7 in both. -/
def maxQuant (x : Rat) (fractionbits : Nat) : Rat :=
  let max : Rat := (2 ^ 7 - 1) / 2 ^ fractionbits
  let q := if x ≥ max then max * (999 / 1000) else x
  ⌈|q| * 2 ^ fractionbits⌉ / 2 ^ fractionbits

/-- WaveletEncoder.cpp:165-178 `maximumWaveletCoefficient`, `qwavmax`. -/
def maximumCoefficient (dwt : List Rat) : Rat :=
  let wavmax := findMax dwt
  let m := quantMode wavmax
  let integerpart : Rat := if m.1 then 1 else 0
  maxQuant (wavmax - integerpart) m.2 + integerpart

/-- `maxQuant` as it is computed in binary64: 0.999 is not a `double`, and its product with `max` is rounded. -/
def maxQuant64 (x : Rat) (fractionbits : Nat) : Rat :=
  let max : Rat := fl64 ((2 ^ 7 - 1) / 2 ^ fractionbits)
  let q := if x ≥ max then fl64 (max * fl64 (999 / 1000)) else x
  fl64 (⌈fl64 (|q| * 2 ^ fractionbits)⌉ / 2 ^ fractionbits)

/-- WaveletEncoder.cpp:165-178 in binary64. -/
def maximumCoefficient64 (dwt : List Rat) : Rat :=
  let wavmax := findMax dwt
  let m := quantMode wavmax
  let integerpart : Rat := if m.1 then 1 else 0
  fl64 (maxQuant64 (fl64 (wavmax - integerpart)) m.2 + integerpart)

/-- WaveletEncoder.cpp:258-260 `sgn`. -/
def sgn (v : Rat) : Rat := if 0 < v then 1 else if v < 0 then -1 else 0

/-- WaveletEncoder.cpp:204-217, one value, in binary64.  A product with the sign is exact. -/
def quantise (max : Rat) (bits : Nat) (x : Rat) : Rat :=
  let delta := fl64 (max / 2 ^ bits)
  let maxQ := fl64 (delta * (2 ^ bits - 1))
  if max = 0 then 0
  else
    let q := fl64 (sgn x * delta * ⌊fl64 (fl64 (|x| / delta) + 1 / 2)⌋)
    if |q| > maxQ then sgn x * maxQ else q

/-- WaveletEncoder.cpp:202-219 `uniformQuant`: the values from `start` on, `length` many, replace those
in `out`.  `(1 << bits) - 1` overflows from 31 on. -/
def uniformQuant (dwt : List Rat) (start : Nat) (max : Rat) (bits length : Nat) (out : List Rat) :
    Except Err (List Rat) :=
  if bits ≥ 31 then .error .ub
  else if dwt.length < start + length then .error .ub
  else .ok (out.mapIdx (fun i v =>
    if start ≤ i ∧ i < start + length then quantise max bits (dwt.getD i 0) else v))

/-- WaveletEncoder.cpp:248-253, the loop of `findMinInd`: `i` is the index of the next value. -/
def findMinLoop (min : Ext) (index : Nat) : (i : Nat) → List Ext → Nat
  | _, [] => index
  | i, v :: l => if v.lt min then findMinLoop v i (i + 1) l else findMinLoop min index (i + 1) l

/-- WaveletEncoder.cpp:245-256 `findMinInd`. -/
def findMinInd : List Ext → Nat
  | [] => 0
  | v :: l => findMinLoop v 0 1 l

/-- WaveletEncoder.cpp:109-114 and 142-146, the noise of a band, in binary64; `pow(x, 2)` is taken to be the
rounded square. -/
def noiseOf (bl : Nat) (dwt quant : List Rat) (band : Nat) : Rat :=
  let start := (bookCumulative bl).getD band 0
  let stop := (bookCumulative bl).getD (band + 1) 0
  (List.range' start (stop - start)).foldl
    (fun noise i => fl64 (noise + fl64 (fl64 (dwt.getD i 0 - quant.getD i 0) ^ 2))) 0

/-- The variables `bitalloc`, `block_dwt_quant` and `noiseenergy` of `encodeBlock`. -/
structure Alloc where
  bits : List Nat
  quant : List Rat
  noise : List Rat

/-- What `PsychohapticModel::getSMR` tells about a block. -/
structure Model where
  bandenergy : List Rat
  smr : List Ext

/-- WaveletEncoder.cpp:192-200 `updateNoise` and 124-128: `MNR`. -/
def mnr (lg : Rat → Rat) (pm : Model) (s : Alloc) : List Ext :=
  (List.range s.bits.length).map (fun i =>
    if s.bits.getD i 0 ≥ MAXBITS then .pinf
    else ((Ext.ratio (pm.bandenergy.getD i 0) (s.noise.getD i 0)).log lg).sub (pm.smr.getD i .nan))

/-- WaveletEncoder.cpp:123-147, one step of the allocation.  In the first branch `bitbudget -
MAXBITS * dwtlevel` is positive, as `bitalloc_sum` is below the budget. -/
def allocStep (lg : Rat → Rat) (bl : Nat) (dwt : List Rat) (max : Rat) (pm : Model) (budget : Int) (s : Alloc) :
    Except Err Alloc := do
  let index := findMinInd (mnr lg pm s)
  let last := s.bits.length - 1
  let bits :=
    if (s.bits.sum : Int) - s.bits.getD last 0 ≥ MAXBITS * dwtLevel bl then
      s.bits.set last (budget - MAXBITS * dwtLevel bl).toNat
    else s.bits.modify index (· + 1)
  let quant ← uniformQuant dwt ((bookCumulative bl).getD index 0) max (bits.getD index 0)
    ((book bl).getD index 0) s.quant
  .ok { bits := bits, quant := quant, noise := s.noise.set index (noiseOf bl dwt quant index) }

/-- WaveletEncoder.cpp:121-147, the loop; every step allocates at least one bit, so `fuel` is the number of bits that
are left. -/
def allocLoop (lg : Rat → Rat) (bl : Nat) (dwt : List Rat) (max : Rat) (pm : Model) (budget : Int) :
    (fuel : Nat) → Alloc → Except Err Alloc
  | 0, s => if (s.bits.sum : Int) < budget then .error .diverge else .ok s
  | fuel + 1, s =>
    if (s.bits.sum : Int) < budget then do
      let s ← allocStep lg bl dwt max pm budget s
      allocLoop lg bl dwt max pm budget fuel s
    else .ok s

/-- WaveletEncoder.cpp:92-147: the bits given to each band, and the quantised coefficients. -/
def allocate (lg : Rat → Rat) (bl : Nat) (dwt : List Rat) (pm : Model) (budget : Int) : Except Err Alloc :=
  let bands := (book bl).length
  let zeros := List.replicate bl (0 : Rat)
  let budget : Int := if budget > bands * MAXBITS then bands * MAXBITS else budget
  allocLoop lg bl dwt (maximumCoefficient dwt) pm budget budget.toNat
    { bits := List.replicate bands 0, quant := zeros,
      noise := (List.range bands).map (noiseOf bl dwt zeros) }

/-- `round`: to the nearest integer, halves away from zero. -/
def round (x : Rat) : Int := if x ≥ 0 then ⌊x + 1 / 2⌋ else ⌈x - 1 / 2⌉

/-- WaveletEncoder.cpp:150-160: the coefficients as integers, in binary64.  `1 << bitmax` overflows from 31 on. -/
def integers (max : Rat) (bitmax : Nat) (quant : List Rat) : Except Err (List Int) :=
  if bitmax ≥ 31 then .error .ub
  else .ok (quant.map (fun q => if max ≠ 0 then round (fl64 (q * fl64 (2 ^ bitmax / max))) else 0))

/-- WaveletEncoder.cpp:86-163 `encodeBlock`, on the transformed block. -/
def encodeBlock (lg : Rat → Rat) (bl : Nat) (dwt : List Rat) (pm : Model) (budget : Int) (e : Spiht.Encoder) :
    Except Err (List UInt8 × Spiht.Encoder) := do
  let s ← allocate lg bl dwt pm budget
  let bitmax := s.bits.foldl Nat.max 0
  let block ← integers (maximumCoefficient dwt) bitmax s.quant
  e.encodeEffect block bitmax (maximumCoefficient dwt)

/-- WaveletEncoder.cpp:67-71 and 80-81: the blocks of the signal, the last one filled up with zeros.
`numBlocks` many remain, the next one begins at `start`. -/
def splitLoop (bl : Nat) (sig : List Rat) : (numBlocks : Nat) → (start : Nat) → List (List Rat)
  | 0, _ => []
  | n + 1, start =>
    let stop := min (start + bl) sig.length
    ((sig.drop start).take (stop - start) ++ List.replicate (bl - (stop - start)) 0)
      :: splitLoop bl sig n (start + bl)

/-- WaveletEncoder.cpp:57: the number of blocks. -/
def numBlocks (bl : Nat) (n : Nat) : Nat := (n + bl - 1) / bl

/-- WaveletEncoder.cpp:61: the block length in ticks, with the division of `int`. -/
def blockTicks (bl timescale fs : Nat) : Nat := bl * timescale / fs

/-- A band as `encodeSignal` makes it: frequency limits, block length, and position and payload of the
effects. -/
structure WaveletBand where
  upper : Nat
  blockLength : Nat
  effects : List (Nat × List UInt8)

/-- WaveletEncoder.cpp:65-82: the loop over the blocks. -/
def encodeLoop (lg : Rat → Rat) (transform : List Rat → List Rat) (pm : List Rat → Model) (bl ticks : Nat)
    (budget : Int) : List (List Rat) → (position : Nat) → Spiht.Encoder → Except Err (List (Nat × List UInt8))
  | [], _, _ => .ok []
  | block :: l, position, e => do
    let r ← encodeBlock lg bl (transform block) (pm block) budget e
    let more ← encodeLoop lg transform pm bl ticks budget l (position + ticks) r.2
    .ok ((position, r.1) :: more)

/-- WaveletEncoder.cpp:55-84 `encodeSignal`.  `addEffect` keeps the order, as the positions do not
decrease (C26). -/
def encodeSignal (lg : Rat → Rat) (transform : List Rat → List Rat) (pm : List Rat → Model) (bl fs timescale : Nat)
    (budget : Int) (sig : List Rat) (e : Spiht.Encoder) : Except Err WaveletBand := do
  if fs = 0 then .error .ub
  let effects ← encodeLoop lg transform pm bl (blockTicks bl timescale fs) budget
    (splitLoop bl sig (numBlocks bl sig.length) 0) 0 e
  .ok { upper := fs, blockLength := blockTicks bl timescale fs, effects := effects }

end Haptics.Wavelet
