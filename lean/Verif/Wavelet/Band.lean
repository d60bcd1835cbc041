import Verif.Wavelet.Decoder

/-!
The decoder of a whole wavelet band, `WaveletDecoder::decodeBand` (`WaveletDecoder/src/WaveletDecoder.cpp`).  The programs
use `transformBand` instead.
-/

namespace Haptics.Wavelet
open Haptics Haptics.Spiht

/-- WaveletDecoder.cpp:91-95 with the `scalar` of line 53: the coefficients of a block in binary64. -/
def rawCoefficients (r : List Int × Rat × Nat) : List Rat :=
  r.1.map (fun d : Int => fl64 (d * r.2.1))

/-- WaveletDecoder.cpp:56: `std::copy` into the signal; behind its end that is undefined. -/
def placeBlock (sig block : List Rat) (position : Nat) : Except Err (List Rat) :=
  if position + block.length ≤ sig.length then .ok (sig.take position ++ block ++ sig.drop (position + block.length))
  else .error .ub

/-- WaveletDecoder.cpp:47-57: the loop over the effects. -/
def decodeLoop (inverse : Nat → List Rat → List Rat) (bl : Nat) :
    List (Nat × List UInt8) → Spiht.Decoder → List Rat → Except Err (List Rat)
  | [], _, sig => .ok sig
  | (position, stream) :: l, d, sig => do
    let r ← d.decodeEffect stream (List.replicate bl 0) bl
    let sig ← placeBlock sig (inverse (dwtLevel bl) (rawCoefficients r.1)) position
    decodeLoop inverse bl l r.2 sig

/-- WaveletDecoder.cpp:38-59 `decodeBand`, for a wavelet band with a block length.  The product is an `int`. -/
def decodeBand (inverse : Nat → List Rat → List Rat) (band : WaveletBand) (timescale : Nat) (d : Spiht.Decoder) :
    Except Err (List Rat) :=
  if timescale = 0 ∨ 2 ^ 31 ≤ band.blockLength * band.upper then .error .ub
  else
    let bl := band.blockLength * band.upper / timescale
    decodeLoop inverse bl band.effects d (List.replicate (band.effects.length * bl) 0)

end Haptics.Wavelet
