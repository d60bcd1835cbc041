import Verif.Eval.SpecNear
import Verif.Main.Synth
import Verif.Bits.Float

/-! What it means that a stream sounds like the experience it was made of (C102).  Nothing here refers to the functions that
write and read streams. -/

namespace Haptics
open Haptics.SynthMain

/-- An effect of keyframes within the ranges of the format: amplitudes of [-1,1]; a phase of a sine, or none. -/
structure Effect.Playable (bandType : Nat) (e : Effect) : Prop where
  basis : e.effectType = EffectType.Basis
  amplitudes : ∀ k ∈ e.keyframes, ∀ a ∈ k.amplitudeModulation, |a| ≤ 1
  phase : bandType = BandType.VectorialWave →
    e.phaseOrDefault = 0 ∨ (e.baseSignalOrDefault = 0 ∧ 0 ≤ e.phaseOrDefault ∧ e.phaseOrDefault ≤ MAX_PHASE)

/-- Such an effect, or a reference to one of the library. -/
def Effect.PlayableFrom (library : List Effect) (bandType : Nat) (e : Effect) : Prop :=
  e.Playable bandType ∨
    (e.effectType = EffectType.Reference ∧ e.id ≠ -1 ∧ ∃ r, library.find? (·.id == e.id) = some r ∧ r.Playable bandType)

/-- A band of keyframes that is not an Akima or B-spline curve, or a wavelet band without references. -/
structure Band.Playable (library : List Effect) (b : Band) : Prop where
  bandType : b.bandType = BandType.Transient ∨ b.bandType = BandType.Curve ∨ b.bandType = BandType.VectorialWave ∨
    b.bandType = BandType.WaveletWave
  curveType : b.bandType = BandType.Curve → b.curveTypeOrDefault ≠ 3 ∧ b.curveTypeOrDefault ≠ 5
  effects : b.bandType ≠ BandType.WaveletWave → ∀ e ∈ b.effects, e.PlayableFrom library b.bandType
  blocks : b.bandType = BandType.WaveletWave → ∀ e ∈ b.effects, e.effectType = EffectType.Basis

/-- A channel with a gain within the range of the format, and with a number of samples if it has a sampling frequency. -/
structure Channel.Playable (library : List Effect) (c : Channel) : Prop where
  gain : |c.gain| ≤ MAX_FLOAT
  sampling : ∀ f ∈ c.frequencySampling, 0 < f ∧ c.sampleCount.isSome
  bands : ∀ b ∈ c.bands, b.Playable library

structure Experience.Playable (h : Experience) : Prop where
  timescale : h.timescale.isSome
  channels : ∀ p ∈ h.perceptions, ∀ c ∈ p.channels, c.Playable p.effectLibrary

/-- The keyframes of an effect follow each other, and their positions in samples can be computed. -/
structure Effect.InStep (fs : Int) (e : Effect) : Prop where
  frequency : 0 ≤ fs
  order : (e.keyframes.map (fun k => k.relativePosition.getD 0)).Pairwise (· ≤ ·)
  range : ∀ k ∈ e.keyframes, ∀ p ∈ k.relativePosition, 0 ≤ p ∧ p * fs < 2 ^ 31

/-- The keyframes of the Bézier curves of an experience follow each other. -/
def Experience.InStep (fs : Int) (h : Experience) : Prop :=
  ∀ p ∈ h.perceptions, ∀ c ∈ p.channels, ∀ b ∈ c.bands, b.bandType = BandType.Curve → b.curveTypeOrDefault = 4 →
    ∀ e ∈ b.effects ++ p.effectLibrary, e.InStep fs

noncomputable section

/-- How far a sample of a channel may be off: 1/125 for every sound that is heard, times the gain, and what the gain loses
itself, in the unit of the perception. -/
def loss (p : Perception) (c : Channel) (voices : ℕ) : ℝ :=
  (10 : ℝ) ^ (p.perceptionUnitExponent.getD 0) * (|(c.gain : ℝ)| * (voices / 125) + 3 / 50)

/-- The signals `s'` sound like the signals `s` of the experience. -/
def SoundsLike (h : Experience) (fs pad : Int) (s s' : List (List (Option ℝ))) : Prop :=
  s.length = (channelsOf h.linearize.perceptions).length ∧ s'.length = s.length ∧
  ∀ (i : ℕ) (p : Perception) (c : Channel) (x x' : List (Option ℝ)), (channelsOf h.linearize.perceptions)[i]? = some (p, c) →
    s[i]? = some x → s'[i]? = some x' → Signals (fun j => loss p c (c.voices fs pad (h.timescale.getD 0) j)) x x'

end

/-! ### Wavelet bands -/

/-- The experience has a wavelet band. -/
def Experience.HasWavelets (h : Experience) : Prop :=
  ∃ p ∈ h.perceptions, ∃ c ∈ p.channels, ∃ b ∈ c.bands, b.bandType = BandType.WaveletWave

/-- Two wavelet bands of the same blocks: as many, of the same length, at the same positions and with the same bytes. -/
structure Band.SameBlocks (b b' : Band) : Prop where
  wavelet : b.bandType = BandType.WaveletWave ∧ b'.bandType = BandType.WaveletWave
  limits : b'.lowerFrequencyLimit = b.lowerFrequencyLimit ∧ b'.upperFrequencyLimit = b.upperFrequencyLimit
  blockLength : b'.blockLengthOrDefault = b.blockLengthOrDefault
  blocks : List.Forall₂ (fun e e' : Effect => e'.position = e.position ∧ e'.waveletBitstream = e.waveletBitstream) b.effects b'.effects

/-- Two decoded wavelet bands with the same samples at the same positions. -/
structure Band.SameSamples (samples samples' : Effect → List ℝ) (b b' : Band) : Prop where
  wavelet : b.bandType = BandType.WaveletWave ∧ b'.bandType = BandType.WaveletWave
  rate : b'.upperFrequencyLimit = b.upperFrequencyLimit
  samples : List.Forall₂ (fun e e' : Effect => e'.position = e.position ∧ samples' e' = samples e) b.effects b'.effects

/-- The decoders of two synthesizers make the same samples of the same blocks. -/
def SynthMain.Parts.DecodeAlike (parts parts' : Parts) : Prop :=
  ∀ (ts : ℕ) (b b' : Band), b.SameBlocks b' → Alike (Band.SameSamples parts.samples parts'.samples) (parts.transform ts b) (parts'.transform ts b')

/-! ### Relations between the parts of two experiences -/

/-- The same keyframes but for small differences, or the same blocks. -/
def Band.Matches (δ η : ℚ) (b b' : Band) : Prop := b.NearTo δ η b' ∨ b.SameBlocks b'

/-- The same channel but for its effects, and a gain that differs by at most `γ`. -/
structure Channel.NearTo (δ η γ : ℚ) (c c' : Channel) : Prop where
  bands : List.Forall₂ (Band.Matches δ η) c.bands c'.bands
  sampling : c'.frequencySampling = c.frequencySampling
  count : c.frequencySampling.isSome → c'.sampleCount = c.sampleCount
  gain : |c.gain - c'.gain| ≤ γ

structure Perception.NearTo (δ η γ : ℚ) (p p' : Perception) : Prop where
  exponent : p'.perceptionUnitExponent.getD 0 = p.perceptionUnitExponent.getD 0
  channels : List.Forall₂ (Channel.NearTo δ η γ) p.channels p'.channels

end Haptics
