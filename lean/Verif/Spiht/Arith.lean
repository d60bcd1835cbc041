import Verif.Bits.Model

/-
The adaptive binary arithmetic coder, Spiht/src/ArithEnc.cpp and Spiht/src/ArithDec.cpp.

`int` is modelled by ℤ without overflow: the ranges stay within 0..1024 (`Normal`), and the counters count
the symbols of one block.  The two probability computations are done in `double` by the program; the exact
quotient is used here.  The results are the same (`c21_probability`, `c21_product`).
-/
namespace Haptics.Spiht

/-- ArithEnc.h:45-48. -/
abbrev RANGE_MAX : Int := 1024
@[inherit_doc RANGE_MAX] abbrev HALF : Int := 512
@[inherit_doc RANGE_MAX] abbrev FIRST_QTR : Int := 256
@[inherit_doc RANGE_MAX] abbrev THIRD_QTR : Int := 768
/-- ArithEnc.h:49-52. -/
abbrev CONTEXT_SIZE : Nat := 7
@[inherit_doc CONTEXT_SIZE] abbrev RESET_HALF : Nat := 8
@[inherit_doc CONTEXT_SIZE] abbrev RESET_TOTAL : Nat := 16
@[inherit_doc CONTEXT_SIZE] abbrev RESIZE_TOTAL : Nat := 32

/-- One entry of `counter` and `counter_total` (ArithEnc.h:69-72): how many zeros among how many symbols. -/
structure Counter where
  zeros : Nat
  total : Nat
deriving DecidableEq, Repr

/-- ArithEnc.cpp:152-157 and ArithDec.cpp:131-136 `resetCounter`; also the initial values. -/
def resetCounters : List Counter := List.replicate CONTEXT_SIZE ⟨RESET_TOTAL / 2, RESET_TOTAL⟩

/-- ArithEnc.cpp:161-169 and ArithDec.cpp:140-148, the loop body of `rescaleCounter`. -/
def Counter.rescale (c : Counter) : Counter :=
  let zeros := RESIZE_TOTAL * c.zeros / c.total
  let zeros := if zeros = 0 then 1 else zeros
  ⟨if zeros = RESIZE_TOTAL then RESIZE_TOTAL - 1 else zeros, RESIZE_TOTAL⟩

/-- ArithEnc.cpp:113-116 and ArithDec.cpp:123-126. -/
def Counter.count (c : Counter) (symbol : Bool) : Counter :=
  ⟨if symbol then c.zeros else c.zeros + 1, c.total + 1⟩

/-- ArithEnc.cpp:59-60 and ArithDec.cpp:63-64: `round(zeros / total * RANGE_MAX)`, halves up. -/
def Counter.probability (c : Counter) : Int :=
  ((2 * 1024 * c.zeros + c.total) / (2 * c.total) : Nat)

/-- ArithEnc.cpp:61-68 and ArithDec.cpp:65-72: the part of the range that stands for the symbol 0. -/
def rangeAdd (rangeDiff p : Int) : Int :=
  let a := (rangeDiff * p).tdiv RANGE_MAX
  if a = 0 then 1 else if a = rangeDiff then rangeDiff - 1 else a

/-! ### Encoder -/

/-- ArithEnc.cpp:77-110, the `while (true)` loop: output, new range and number of bits to follow.  `none`
when it takes more turns than the fuel allows; 11 are enough (`renormEnc_spec`). -/
def renormEnc : Nat → Int → Int → Nat → Option (List Bool × Int × Int × Nat)
  | 0, _, _, _ => none
  | fuel + 1, lower, upper, follow =>
    if upper ≤ HALF then
      (renormEnc fuel (lower * 2) (upper * 2) 0).map
        (fun r => (false :: (List.replicate follow true ++ r.1), r.2))
    else if lower ≥ HALF then
      (renormEnc fuel ((lower - HALF) * 2) ((upper - HALF) * 2) 0).map
        (fun r => (true :: (List.replicate follow false ++ r.1), r.2))
    else if lower ≥ FIRST_QTR ∧ upper ≤ THIRD_QTR then
      renormEnc fuel ((lower - FIRST_QTR) * 2) ((upper - FIRST_QTR) * 2) (follow + 1)
    else some ([], lower, upper, follow)

/-- ArithEnc.cpp:54-110: one symbol. -/
def encodeSymbol (lower upper : Int) (follow : Nat) (c : Counter) (symbol : Bool) :
    Option (List Bool × Int × Int × Nat) :=
  let add := rangeAdd (upper - lower) c.probability
  if symbol = false then renormEnc 11 lower (lower + add) follow
  else renormEnc 11 (lower + add) upper follow

/-- ArithEnc.cpp:138-149, the second branch of `remainder`. -/
def remainderLoop : Nat → Int → Int → Int → Except Err (List Bool)
  | 0, _, _, _ => .error .diverge
  | fuel + 1, val, lower, upper =>
    if lower > 0 then
      if val < upper then
        match remainderLoop fuel (val / 2) (lower - val) (upper - val) with
        | .error e => .error e
        | .ok l => .ok (true :: l)
      else
        match remainderLoop fuel (val / 2) lower upper with
        | .error e => .error e
        | .ok l => .ok (false :: l)
    else .ok []

/-- ArithEnc.cpp:131-150 `remainder`. -/
def remainder (follow : Nat) (lower upper : Int) : Except Err (List Bool) :=
  if follow > 0 then .ok [true] else remainderLoop 12 HALF lower upper

/-- ArithEnc.cpp:51-120: the symbols, each with its context, and what is added at the end.  An unknown
context throws (`at`). -/
def encodeLoop : List (Bool × Nat) → List Counter → Int → Int → Nat →
    Except Err (List Bool × List Counter)
  | [], counters, lower, upper, follow =>
    match remainder follow lower upper with
    | .error e => .error e
    | .ok l => .ok (l, counters)
  | (symbol, context) :: rest, counters, lower, upper, follow =>
    match counters[context]? with
    | none => .error .throw
    | some c =>
      match encodeSymbol lower upper follow c symbol with
      | none => .error .diverge
      | some (out, lower, upper, follow) =>
        match encodeLoop rest (counters.modify context (Counter.count · symbol)) lower upper follow with
        | .error e => .error e
        | .ok (more, counters) => .ok (out ++ more, counters)

/-- ArithEnc.cpp:123-127: zeros at the end are cut off.  Without a one the index passes the start, and
`at` throws before the second half of the condition is looked at. -/
def cutZeros (l : List Bool) : Except Err (List Bool) :=
  if l.all (· == false) then .error .throw
  else .ok (l.reverse.dropWhile (· == false)).reverse

/-- ArithEnc.cpp:38-129 `encode`: output bits, and the counters after it. -/
def encode (l : List (Bool × Nat)) (counters : List Counter) : Except Err (List Bool × List Counter) :=
  match encodeLoop l counters 0 RANGE_MAX 0 with
  | .error e => .error e
  | .ok (out, counters) =>
    match cutZeros out with
    | .error e => .error e
    | .ok out => .ok (out, counters.map Counter.rescale)

/-! ### Bytes -/

/-- ArithEnc.cpp:177-188: up to eight bits, the first one lowest. -/
def byteOf : List Bool → Nat
  | [] => 0
  | b :: l => b.toNat + 2 * byteOf l

/-- ArithEnc.cpp:173-189 `convert2bytes`. -/
def convert2bytes (l : List Bool) : List UInt8 :=
  match l with
  | [] => []
  | b :: l' => UInt8.ofNat (byteOf ((b :: l').take 8)) :: convert2bytes (l'.drop 7)
termination_by l.length
decreasing_by simp; omega

/-- ArithDec.cpp:155-163: the eight bits of a byte, the lowest first. -/
def bitsOf (v : UInt8) : List Bool := (List.range 8).map (fun j => v.toNat.testBit j)

/-- ArithDec.cpp:152-164 `convert2bits`. -/
def convert2bits (l : List UInt8) : List Bool := l.flatMap bitsOf

/-! ### Decoder -/

/-- ArithDec.h:60-73, without the input already consumed and without `range_diff`, which is always the
difference of the other two. -/
structure Decoder where
  counters : List Counter := resetCounters
  rest : List Bool := []
  lower : Int := 0
  upper : Int := RANGE_MAX
  leading : Int := 0

/-- ArithDec.cpp:44-54: up to `n` more digits, the next one has the weight `2 ^ (n - 1)`. -/
def leadingDigits : Nat → List Bool → Int × List Bool
  | 0, l => (0, l)
  | _ + 1, [] => (0, [])
  | n + 1, b :: l =>
    let r := leadingDigits n l
    ((if b then 2 ^ n else 0) + r.1, r.2)

/-- ArithDec.cpp:38-59 `initDecoding`. -/
def Decoder.init (d : Decoder) (input : List Bool) : Decoder :=
  let r := leadingDigits 10 input
  { d with rest := r.2, leading := r.1, lower := 0, upper := RANGE_MAX }

/-- ArithDec.cpp:91-96 and the like: the next digit, 0 after the end. -/
def nextDigit (rest : List Bool) : Int := if rest.headD false then 1 else 0

/-- ArithDec.cpp:86-118, the `while (true)` loop. -/
def renormDec : Nat → Decoder → Option Decoder
  | 0, _ => none
  | fuel + 1, d =>
    if d.upper ≤ HALF then
      renormDec fuel { d with
        lower := d.lower * 2, upper := d.upper * 2
        leading := d.leading * 2 + nextDigit d.rest, rest := d.rest.tail }
    else if d.lower ≥ HALF then
      renormDec fuel { d with
        lower := (d.lower - HALF) * 2, upper := (d.upper - HALF) * 2
        leading := (d.leading - HALF) * 2 + nextDigit d.rest, rest := d.rest.tail }
    else if d.lower ≥ FIRST_QTR ∧ d.upper ≤ THIRD_QTR then
      renormDec fuel { d with
        lower := (d.lower - FIRST_QTR) * 2, upper := (d.upper - FIRST_QTR) * 2
        leading := (d.leading - FIRST_QTR) * 2 + nextDigit d.rest, rest := d.rest.tail }
    else some d

/-- ArithDec.cpp:61-129 `decode`. -/
def Decoder.decode (d : Decoder) (context : Nat) : Except Err (Bool × Decoder) :=
  match d.counters[context]? with
  | none => .error .throw
  | some c =>
    let compare := rangeAdd (d.upper - d.lower) c.probability
    let symbol := ! (d.leading - d.lower < compare : Bool)
    let d1 := if symbol then { d with lower := d.lower + compare }
      else { d with upper := d.lower + compare }
    match renormDec 11 d1 with
    | none => .error .diverge
    | some d2 => .ok (symbol, { d2 with
        counters := d2.counters.modify context (Counter.count · symbol) })

end Haptics.Spiht
