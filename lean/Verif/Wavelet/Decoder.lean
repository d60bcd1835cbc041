import Verif.Wavelet.Encoder
import Verif.Bits.Float

/-!
The wavelet decoder: `WaveletDecoder/src/WaveletDecoder.cpp`, as the synthesizer uses it
(`Synthesizer/src/Helper.cpp:90`).  The inverse transform is a parameter; block lengths and positions
are computed in binary64.
-/

namespace Haptics.Wavelet
open Haptics Haptics.Spiht

/-- WaveletDecoder.cpp:67-68: the length of a block in samples.  `MS_2_S_WAVELET` is the `double` 0.001. -/
def decodedLength (blockLength upper : Nat) : Nat :=
  ⌊fl64 (fl64 (blockLength * fl64 (1 / 1000)) * upper)⌋.toNat

/-- WaveletDecoder.cpp:80-81: the position of block `b`. -/
def decodedPosition (b bl timescale upper : Nat) : Nat :=
  ⌊fl64 (fl64 (fl64 (b * bl) * timescale) / upper)⌋.toNat

/-- WaveletDecoder.cpp:78 and 94-95: the coefficients of a block, from what `decodeEffect` returns, in binary64. -/
def coefficients (r : List Int × Rat × Nat) : List Rat :=
  r.1.map (fun d : Int => fl64 (d * fl64 (r.2.1 / 2 ^ r.2.2)))

/-- WaveletDecoder.cpp:71-86: the loop of `transformBand`; `b` is the index of the next effect.  The result
has the position and the samples of every effect. -/
def transformLoop (inverse : Nat → List Rat → List Rat) (bl timescale upper : Nat) :
    List (Nat × List UInt8) → (b : Nat) → Spiht.Decoder → Except Err (List (Nat × List Rat))
  | [], _, _ => .ok []
  | (_, stream) :: l, b, d => do
    let r ← d.decodeEffect stream (List.replicate bl 0) bl
    let more ← transformLoop inverse bl timescale upper l (b + 1) r.2
    .ok ((decodedPosition b bl timescale upper, inverse (dwtLevel bl) (coefficients r.1)) :: more)

/-- WaveletDecoder.cpp:61-87 `transformBand`, for a wavelet band. -/
def transformBand (inverse : Nat → List Rat → List Rat) (band : WaveletBand) (timescale : Nat) (d : Spiht.Decoder) :
    Except Err (List (Nat × List Rat)) :=
  transformLoop inverse (decodedLength band.blockLength band.upper) timescale band.upper band.effects 0 d

end Haptics.Wavelet
