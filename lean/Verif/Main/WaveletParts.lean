import Verif.Main.Synth
import Verif.Wavelet.Decoder

/-! The wavelet decoder of the synthesizer on the bands of an experience. -/

namespace Haptics.SynthMain
open Haptics

/-- What `transformBand` looks at: WaveletDecoder.cpp:66-74.  Negative limits and block lengths are left out (taken for 0). -/
def waveletBand (b : Band) : Wavelet.WaveletBand :=
  { upper := b.upperFrequencyLimit.toNat, blockLength := b.blockLengthOrDefault.toNat
    effects := b.effects.map (fun e => (e.position.toNat, e.waveletBitstream)) }

/-- WaveletDecoder.cpp:79-85: a new effect with a position and samples.  The samples, a field of their own in the code
(Effect.h `waveletSamples`), are kept as amplitudes of keyframes here. -/
def sampledEffect (p : ℕ × List ℚ) : Effect :=
  { position := p.1, keyframes := p.2.map (fun r => { amplitudeModulation := some r }) }

/-- Helper.cpp:83-95: the decoder of the synthesizer.  `inverse` is the inverse transform and `d` the state of the SPIHT decoder;
here every band is decoded from the same state, which makes no difference (C121). -/
noncomputable def decoderParts (inverse : ℕ → List ℚ → List ℚ) (d : Spiht.Decoder)
    (other : Nat → List (Int × ℝ) → Except Err (List (Option ℝ))) : Parts where
  transform ts b := match Wavelet.transformBand inverse (waveletBand b) ts d with
    | .error x => .error x
    | .ok l => .ok { b with effects := l.map sampledEffect }
  samples e := e.keyframes.map (fun k => ((k.amplitudeModulation.getD 0 : ℚ) : ℝ))
  other := other

end Haptics.SynthMain
