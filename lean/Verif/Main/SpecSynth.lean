import Verif.Main.Synth

/-! What the synthesizer is to play for each channel. -/

namespace Haptics.SynthMain
open Haptics

/-- Wavelet bands are transformed, others are as they were. -/
inductive Decoded (parts : Parts) (ts : Nat) (b : Band) : Band → Prop
  | wavelet (b' : Band) : b.bandType = BandType.WaveletWave → parts.transform ts b = .ok b' → Decoded parts ts b b'
  | other : b.bandType ≠ BandType.WaveletWave → Decoded parts ts b b

/-- `s` is the signal of channel `pc.2` of perception `pc.1`: `n` samples of its decoded bands, times the gain of the
channel and the power of ten of the perception. -/
def Played (parts : Parts) (ts n : Nat) (fs pad : Int) (pc : Perception × Channel) (s : List (Option ℝ)) : Prop :=
  ∃ (bands : List Band) (r : List (Option ℝ)), List.Forall₂ (Decoded parts ts) pc.2.bands bands ∧
    ({ pc.2 with bands := bands } : Channel).evaluateChannel parts.samples parts.other n fs pad ts = .ok r ∧
    s = r.map (Option.map (fun x => x * ((pc.2.gain : ℝ) * (10 : ℝ) ^ (pc.1.perceptionUnitExponent.getD 0))))

end Haptics.SynthMain
