import Verif.Spiht.Model

/-
Specification for C22–C24 and C66.
-/
namespace Haptics.Spiht

/-- A block of wavelet coefficients: its length is a power of two and at least 8. -/
def IsBlock (x : List Int) : Prop := ∃ k, 3 ≤ k ∧ x.length = 2 ^ k

/-- All magnitudes fit `bits` bit planes, the planes being numbered from 0 to `bits`. -/
def Fits (x : List Int) (bits : Nat) : Prop := ∀ v ∈ x, v.natAbs < 2 ^ (bits + 1)

/-- The maxima the header can express: multiples of 1/128 below 1, multiples of 1/8 from 1 on. -/
def Representable (wavmax : Rat) : Prop :=
  (∃ k : Nat, k < 128 ∧ wavmax = k / 128) ∨ (∃ k : Nat, k < 128 ∧ wavmax = 1 + k / 8)

/-- One encoder for several blocks, as a `WaveletEncoder` has it. -/
def encodeBlocks (e : Encoder) : List (List Int × Nat × Rat) → Except Err (List (List UInt8))
  | [] => .ok []
  | (x, bits, scalar) :: l => do
    let r ← e.encodeEffect x bits scalar
    let more ← encodeBlocks r.2 l
    .ok (r.1 :: more)

/-- One decoder for several blocks of the same length, as a `WaveletDecoder` has it. -/
def decodeBlocks (d : Decoder) (length : Nat) : List (List UInt8) → Except Err (List (List Int × Rat × Nat))
  | [] => .ok []
  | bytes :: l => do
    let r ← d.decodeEffect bytes (List.replicate length 0) length
    let more ← decodeBlocks r.2 length l
    .ok (r.1 :: more)

end Haptics.Spiht
