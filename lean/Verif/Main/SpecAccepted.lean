import Verif.Json.SpecFile
import Verif.Json.Write
import Verif.Json.Load
import Verif.Encoder.SpecInject
import Verif.Encoder.Pcm
import Verif.Encoder.SpecAhap
import Verif.Wavelet.Encoder

/-! What C92 says: a file that was written can be loaded. -/

namespace Haptics
open Haptics.Json

/-- The experience made of a file that holds one signal: the given timescale and one perception
(Encoder/src/main.cpp:159-166, 238-272). -/
def imported (ts : Nat) (p : Perception) : Experience := { timescale := some ts, perceptions := [p] }

/-- Written to a `.hjif` file at time `now`, the experience can be loaded again, as far as the program itself checks it (the JSON
schemas are not part of it). -/
def Reloads (now : Str) (e : Experience) : Prop :=
  ∃ j, writeTree now e = .ok j ∧ ∃ e', loadTree (fun _ => true) j = .ok e'

/-- Written to a `.hjif` file at time `now`, the experience is refused on loading. -/
def Refused (now : Str) (e : Experience) : Prop :=
  ∃ j, writeTree now e = .ok j ∧ ∀ schema, loadTree schema j = .error .fail

/-- The band that is handed over by the wavelet encoder: WaveletEncoder.cpp:58-61 and 77-78 for its parameters, on the
effects and the rest as computed by `Wavelet.encodeSignal`. -/
def waveletBand (cutoff : ℚ) (w : Wavelet.WaveletBand) : Band :=
  { bandType := BandType.WaveletWave, lowerFrequencyLimit := truncQ cutoff, upperFrequencyLimit := w.upper,
    blockLength := some w.blockLength,
    effects := w.effects.map (fun e => { position := e.1, waveletBitstream := e.2 }) }

/-- The wavelet encoder of a WAV file is used with blocks of `bl` samples; its other settings do not matter here. -/
def WaveletParts (parts : Pcm.Parts) (bl fs ts : Nat) (cutoff : ℚ) : Prop :=
  ∀ s w, parts.wavelet s = .ok w → ∃ lg transform pm budget e band,
    Wavelet.encodeSignal lg transform pm bl fs ts budget s e = .ok band ∧ w = some (waveletBand cutoff band)

/-- A recording whose values are in range: the samples between -1 and 1, what the low-pass filter makes of them between -2
and 2, sample rate, limit of the curves and times in ticks below 2^31. -/
structure Recorded (parts : Pcm.Parts) (cfg : Pcm.Config) (ts bl : Nat) (w : Wav.Parser) : Prop where
  samples : ∀ s ∈ w.buffer, ∀ x ∈ s, |x| ≤ 1
  filtered : ∀ s ∈ w.buffer, ∀ x ∈ parts.lowPass s cfg.curveFrequencyLimit, |x| ≤ 2
  limit : 0 ≤ cfg.curveFrequencyLimit ∧ cfg.curveFrequencyLimit < 2 ^ 31
  rate : 0 < w.sampleRate ∧ w.sampleRate < 2 ^ 31
  time : ∀ s ∈ w.buffer, s.length * ts < 2 ^ 31 * w.sampleRate.toNat
  block : bl * ts < 2 ^ 31 * w.sampleRate.toNat

/-- No block was encoded to zero bytes only (which could not be written: C25). -/
def NoZeroBlock (p : Perception) : Prop :=
  ∀ c ∈ p.channels, ∀ b ∈ c.bands, ∀ f ∈ b.effects, f.waveletBitstream = [] ∨ ∃ v ∈ f.waveletBitstream, v ≠ 0

namespace Accepted

/-- How many continuous events of an AHAP file play at a tick. -/
def sounding (ts : Nat) (items : List Ahap.Item) (t : Int) : Nat :=
  (Ahap.continuous items).countP (fun x => decide (Ahap.eventTick ts x.1 ≤ t ∧
    t ≤ Ahap.eventTick ts x.1 + Ahap.eventTick ts x.2.1))

end Accepted

end Haptics
