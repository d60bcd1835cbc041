import Verif.Encoder.Pcm

/-! What is expected of the encoding of a signal. -/

namespace Haptics.Pcm
open Haptics

/-- `r` is what `e` leaves of `s`, sample by sample. -/
def Minus (s e r : List ℚ) : Prop :=
  r.length = s.length ∧ ∀ (i : Nat) (x : ℚ), s[i]? = some x → ∃ y, e[i]? = some y ∧ r[i]? = some (fl64 (x - y))

/-- How the points of a curve are to be connected: by straight lines for forces (9) and stiffness (11), smoothly for
vibrations (6) and textures (10), and as the player likes for all else. -/
def connection : Nat → Nat
  | 9 => 2
  | 11 => 2
  | 6 => 1
  | 10 => 1
  | _ => 0

/-- `b` is the curve through the points of signal `s`. -/
def CurveOf (cfg : Config) (ts modality rate : Nat) (s : List ℚ) (b : Band) : Prop :=
  ∃ b0, convertToCurveBand (localExtrema s true) rate
      (if 0 < cfg.curveFrequencyLimit then cfg.curveFrequencyLimit else rate) ts = .ok (some b0) ∧
    b = { b0 with curveType := some (connection modality) }

/-- The bands that are added for a signal. -/
inductive Bands (parts : Parts) (cfg : Config) (ts modality rate : Nat) (signal : List ℚ) : List Band → Prop
  /-- With neither curves nor wavelets, none. -/
  | none : cfg.vectorialEnabled = false → cfg.waveletEnabled = false → Bands parts cfg ts modality rate signal []
  /-- With curves alone, the curve of the signal, … -/
  | curve (b : Band) : cfg.vectorialEnabled = true → cfg.waveletEnabled = false → cfg.curveFrequencyLimit = 0 →
      CurveOf cfg ts modality rate signal b → Bands parts cfg ts modality rate signal [b]
  /-- … or of its low frequencies, when there is a limit. -/
  | low (b : Band) : cfg.vectorialEnabled = true → cfg.waveletEnabled = false → 0 < cfg.curveFrequencyLimit →
      CurveOf cfg ts modality rate (parts.lowPass signal cfg.curveFrequencyLimit) b →
      Bands parts cfg ts modality rate signal [b]
  /-- Without limit, wavelets of the signal. -/
  | wavelet (w : Option Band) : cfg.waveletEnabled = true → cfg.curveFrequencyLimit = 0 →
      parts.wavelet signal = .ok w → Bands parts cfg ts modality rate signal w.toList
  /-- With wavelets alone and a limit, wavelets of what the low-pass filter leaves. -/
  | high (r : List ℚ) (w : Option Band) : cfg.vectorialEnabled = false → cfg.waveletEnabled = true →
      0 < cfg.curveFrequencyLimit → Minus signal (parts.lowPass signal cfg.curveFrequencyLimit) r →
      parts.wavelet r = .ok w → Bands parts cfg ts modality rate signal w.toList
  /-- With both, the curve of the low frequencies and wavelets of what that curve leaves. -/
  | both (b : Band) (e r : List ℚ) (w : Option Band) : cfg.vectorialEnabled = true → cfg.waveletEnabled = true →
      0 < cfg.curveFrequencyLimit → CurveOf cfg ts modality rate (parts.lowPass signal cfg.curveFrequencyLimit) b →
      parts.evaluate b signal.length = .ok e → Minus signal e r → parts.wavelet r = .ok w →
      Bands parts cfg ts modality rate signal (b :: w.toList)

end Haptics.Pcm
