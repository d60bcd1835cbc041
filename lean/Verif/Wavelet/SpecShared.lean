import Verif.Wavelet.Shared
import Verif.Eval.Model

/-! What C121 says: blocks do not depend on what has been coded before. -/

namespace Haptics.Wavelet
open Haptics Haptics.Spiht

/-- The samples of a block, by a decoder that has not been used before. -/
def blockAlone (inverse : Nat → List Rat → List Rat) (bl : Nat) (stream : List UInt8) : Except Err (List Rat) :=
  match ({} : Spiht.Decoder).decodeEffect stream (List.replicate bl 0) bl with
  | .error x => .error x
  | .ok r => .ok (inverse (dwtLevel bl) (coefficients r.1))

/-- The samples of the blocks of a band, each one decoded alone. -/
def bandAlone (inverse : Nat → List Rat → List Rat) (band : WaveletBand) : Except Err (List (List Rat)) :=
  mapE (fun p => blockAlone inverse (decodedLength band.blockLength band.upper) p.2) band.effects

/-- The same effects, all of them later by `ticks`. -/
def later (ticks : Nat) (effects : List (Nat × List UInt8)) : List (Nat × List UInt8) :=
  effects.map (fun p => (ticks + p.1, p.2))

/-- Two bands of the same recording, the second one beginning `ticks` after the first one. -/
def joined (ticks : Nat) (a b : WaveletBand) : WaveletBand :=
  { a with effects := a.effects ++ later ticks b.effects }

end Haptics.Wavelet
