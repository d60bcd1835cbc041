/-
Bit-level primitives shared by the binary file format and the MIHS stream.
Models /repo/source/IOHaptics/include/IOBinaryPrimitives.h and
/repo/source/IOHaptics/src/IOBinaryPrimitives.cpp.
-/

namespace Haptics

/-- Ways in which a C++ call can fail to deliver a value.
* `ub`      – undefined behaviour (out-of-range `operator[]`, invalid iterator, division by zero, ...)
* `throw`   – an exception leaves the function
* `diverge` – the call does not terminate
* `fail`    – the function returns `false` / an error code -/
inductive Err where
  | ub | throw | diverge | fail
deriving DecidableEq, Repr

/-- `std::vector<bool>`: most significant bit of each field first. -/
abbrev Bits := List Bool

/-- IOBinaryPrimitives.h:104-109 `writeNBits<T,bitCount>`: pushes `(value >> (bitCount-i-1)) & 1`
for `i = 0 .. bitCount-1`. `>>` on a negative value is the arithmetic shift, i.e. floor division.
Requires `bitCount` not larger than the width of the promoted `T` (true of all instantiations). -/
def writeNBits (n : Nat) (v : Int) : Bits :=
  (List.range n).map fun i => decide (v / 2 ^ (n - i - 1) % 2 = 1)

/-- Value of a most-significant-bit-first bit string.  This is what the loops
`value |= 1U << (bitCount-i-1)` (IOBinaryPrimitives.h:78-87), `std::stoul(s, nullptr, 2)` (l.177) and
`std::bitset<n>(s).to_ulong()` (l.152, l.204) compute. -/
def bitsVal (l : Bits) : Nat := l.foldl (fun acc b => 2 * acc + b.toNat) 0

/-- The loop of IOBinaryPrimitives.h:78-83 verbatim: OR of the powers of two of the set bits. -/
def orBits (n : Nat) (l : Bits) : Nat :=
  (List.range n).foldl (fun acc i => if l.getD i false then acc ||| (1 <<< (n - i - 1)) else acc) 0

/-- The 8 bits of a byte, most significant first (IOBinaryPrimitives.h:71-75, 214-218). -/
def byteBits (b : UInt8) : Bits := writeNBits 8 b.toNat

/-- State of the file reader: `unusedBits` and what is left of the `std::istream`. -/
structure FileSt where
  unused : Bits
  rest : List UInt8
deriving DecidableEq, Repr

/-- `std::vector<char> bytes(n); file.read(bytes.data(), n)`: a short read leaves the zero bytes the
vector was initialised with (IOBinaryPrimitives.h:69-70). -/
def takeZ (n : Nat) (l : List UInt8) : List UInt8 := l.take n ++ List.replicate (n - l.length) 0

/-- IOBinaryPrimitives.h:61-89 `readNBits<T,bitCount>(file, unusedBits)`, for a `T` that can hold
`bitCount` unsigned bits. -/
def readNBitsF (n : Nat) (s : FileSt) : Nat × FileSt :=
  let nbBits := n - s.unused.length
  let nbBytes := if nbBits % 8 = 0 then nbBits / 8 else nbBits / 8 + 1
  let bitset := if n > s.unused.length
    then s.unused ++ (takeZ nbBytes s.rest).flatMap byteBits else s.unused
  let rest := if n > s.unused.length then s.rest.drop nbBytes else s.rest
  (orBits n bitset, { unused := bitset.drop n, rest := rest })

/-- IOBinaryPrimitives.h:121-126 `fillBitset`. -/
def fillBitset (b : Bits) : Bits := b ++ List.replicate ((8 - b.length % 8) % 8) false

/-- One step of IOBinaryPrimitives.h:131-136: the byte made of the 8 bits at `i`, bits past the end
being 0. -/
def packByte (b : Bits) (i : Nat) : UInt8 :=
  (List.range 8).foldl
    (fun acc j => if b.getD (i + j) false then acc ||| ((1 : UInt8) <<< (UInt8.ofNat (7 - j))) else acc) 0

/-- IOBinaryPrimitives.h:128-139 `writeBitset`: one byte per group of 8 bits. -/
def writeBitset (b : Bits) : List UInt8 :=
  (List.range ((b.length + 7) / 8)).map fun k => packByte b (8 * k)

/-- IOBinaryPrimitives.h:211-220 `readNBytes(file, n, bitstream)`: the appended bits and the rest of the
file. -/
def readNBytes (n : Nat) (file : List UInt8) : Bits × List UInt8 :=
  ((takeZ n file).flatMap byteBits, file.drop n)

/-- Two's complement reading of an unsigned `n`-bit value (conversion to `intN_t`). -/
def toSigned (n : Nat) (v : Nat) : Int := if v < 2 ^ (n - 1) then v else (v : Int) - 2 ^ n

/-! ### Readers over a bit vector and a cursor

`readUInt`, `readInt`, ... take `bitstream` and `int &idx`; they only ever move the cursor forward, so
the model keeps the remaining bits.  `operator[]` beyond the end is undefined behaviour. -/

/-- A reader over the remaining bits. -/
def Rd (α : Type) : Type := Bits → Except Err (α × Bits)

instance : Monad Rd where
  pure a := fun s => .ok (a, s)
  bind p f := fun s => match p s with
    | .ok (a, s') => f a s'
    | .error e => .error e

def Rd.error {α : Type} (e : Err) : Rd α := fun _ => .error e

/-- The next `n` bits; undefined behaviour if there are fewer. -/
def rdBits (n : Nat) : Rd Bits := fun s =>
  if n ≤ s.length then .ok (s.take n, s.drop n) else .error .ub

/-- Unsigned value of the next `n` bits. -/
def rdU (n : Nat) : Rd Nat := fun s => match rdBits n s with
  | .ok (b, s') => .ok (bitsVal b, s')
  | .error e => .error e

/-- IOBinaryPrimitives.h:167-179 `readUInt`: `static_cast<int>(std::stoul(...))`; a 32-bit value with
its top bit set comes back negative.  `std::stoul("")` throws. -/
def readUInt (n : Nat) : Rd Int := fun s =>
  if n = 0 then .error .throw else
  match rdBits n s with
  | .ok (b, s') => .ok (if n ≤ 31 then (bitsVal b : Int) else toSigned 32 (bitsVal b % 2 ^ 32), s')
  | .error e => .error e

/-- IOBinaryPrimitives.h:181-191 `readInt`: if the first bit is set the whole (local copy of the)
bitstream is flipped and `-(readUInt + 1)` returned.  Simplification: the early return for an empty
bitstream is merged with the out-of-range case. -/
def readInt (n : Nat) : Rd Int := fun s =>
  match s with
  | [] => .error .ub
  | true :: _ => match readUInt n (s.map not) with
    | .ok (v, s') => .ok (-(v + 1), s'.map not)
    | .error e => .error e
  | false :: _ => readUInt n s

/-- Read `k` items in sequence. -/
def rdList {α : Type} (p : Rd α) : Nat → Rd (List α)
  | 0 => pure []
  | k + 1 => do
    let a ← p
    let l ← rdList p k
    pure (a :: l)

/-- IOBinaryPrimitives.h:193-209 `readString(bitstream, idx, length)`: `length` bytes. -/
def rdStr (len : Nat) : Rd (List UInt8) := rdList (do let v ← rdU 8; pure (UInt8.ofNat v)) len

/-- A byte string as bits (IOBinaryPrimitives.cpp:57-61). -/
def strBits (t : List UInt8) : Bits := t.flatMap byteBits

/-! ### Readers of the binary file format

By `Props.c02_*` the file reader is a cursor over the file's bits continued by zeros; the readers of the
file format are written on that flat view. -/

/-- `readNBits<T,n>` on the flat view of the file: bits past the end are 0. -/
def frdU (n : Nat) : Rd Nat := fun s =>
  .ok (bitsVal (s.take n ++ List.replicate (n - s.length) false), s.drop n)

/-- `readNBits<int8_t,8>`: the value wraps to a signed byte. -/
def frdI8 : Rd Int := do let v ← frdU 8; pure (toSigned 8 v)

/-- IOBinaryPrimitives.cpp:54-62 `writeString`: the length byte saturates at 255, *all* bytes follow. -/
def writeString (t : List UInt8) : Bits :=
  writeNBits 8 (if t.length > 255 then 255 else (t.length : Int)) ++ strBits t

/-- IOBinaryPrimitives.cpp:64-76 `readString`. -/
def readStringF : Rd (List UInt8) := do
  let size ← frdU 8
  rdList (do let v ← frdU 8; pure (UInt8.ofNat v)) size

/-- IOBinaryPrimitives.h / Types `Vector`: three signed bytes. -/
structure Vector3 where
  X : Int
  Y : Int
  Z : Int
deriving DecidableEq, Repr

/-- IOBinaryPrimitives.cpp:47-52 `writeVector`. -/
def writeVector (v : Vector3) : Bits := writeNBits 8 v.X ++ writeNBits 8 v.Y ++ writeNBits 8 v.Z

/-- IOBinaryPrimitives.cpp:39-45 `readVector`. -/
def readVectorF : Rd Vector3 := do
  let x ← frdI8
  let y ← frdI8
  let z ← frdI8
  pure ⟨x, y, z⟩

end Haptics
