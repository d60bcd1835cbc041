import Verif.Wavelet.Decoder

/-! One wavelet decoder for all bands of an experience, as the synthesizer has it (`Synthesizer/src/Helper.cpp`). -/

namespace Haptics.Wavelet
open Haptics Haptics.Spiht

/-- WaveletDecoder.cpp:71-86: the loop of `transformBand`, with the state the member `spihtDec` is left in. -/
def sharedLoop (inverse : Nat → List Rat → List Rat) (bl timescale upper : Nat) :
    List (Nat × List UInt8) → (b : Nat) → Spiht.Decoder → Except Err (List (Nat × List Rat) × Spiht.Decoder)
  | [], _, d => .ok ([], d)
  | (_, stream) :: l, b, d => do
    let r ← d.decodeEffect stream (List.replicate bl 0) bl
    let more ← sharedLoop inverse bl timescale upper l (b + 1) r.2
    .ok ((decodedPosition b bl timescale upper, inverse (dwtLevel bl) (coefficients r.1)) :: more.1, more.2)

/-- Helper.cpp:83-95: the wavelet bands of all perceptions and channels, one after the other, by one `waveletDecoder`. -/
def transformBands (inverse : Nat → List Rat → List Rat) (timescale : Nat) :
    List WaveletBand → Spiht.Decoder → Except Err (List (List (Nat × List Rat)))
  | [], _ => .ok []
  | band :: l, d => do
    let r ← sharedLoop inverse (decodedLength band.blockLength band.upper) timescale band.upper band.effects 0 d
    let more ← transformBands inverse timescale l r.2
    .ok (r.1 :: more)

/-- WaveletEncoder.cpp:65-82: the loop over the blocks, with the state the member `spihtEnc` is left in. -/
def encodedLoop (lg : Rat → Rat) (transform : List Rat → List Rat) (pm : List Rat → Model) (bl ticks : Nat)
    (budget : Int) : List (List Rat) → (position : Nat) → Spiht.Encoder →
      Except Err (List (Nat × List UInt8) × Spiht.Encoder)
  | [], _, e => .ok ([], e)
  | block :: l, position, e => do
    let r ← encodeBlock lg bl (transform block) (pm block) budget e
    let more ← encodedLoop lg transform pm bl ticks budget l (position + ticks) r.2
    .ok ((position, r.1) :: more.1, more.2)

/-- PcmEncoder.cpp:71-139: the channels of a recording, one after the other, by one `waveletEnc`.  The signals are those that are
left for the wavelet band (lines 117-128). -/
def encodeChannels (lg : Rat → Rat) (transform : List Rat → List Rat) (pm : List Rat → Model) (bl fs timescale : Nat)
    (budget : Int) : List (List Rat) → Spiht.Encoder → Except Err (List WaveletBand)
  | [], _ => .ok []
  | sig :: l, e => do
    if fs = 0 then .error .ub
    let r ← encodedLoop lg transform pm bl (blockTicks bl timescale fs) budget
      (splitLoop bl sig (numBlocks bl sig.length) 0) 0 e
    let more ← encodeChannels lg transform pm bl fs timescale budget l r.2
    .ok ({ upper := fs, blockLength := blockTicks bl timescale fs, effects := r.1 } :: more)

end Haptics.Wavelet
