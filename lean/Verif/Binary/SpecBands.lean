import Verif.Stream.SpecMeta

/-
What the bands of a binary file can represent, and what a reader is entitled to find.  Nothing here refers
to the writers or readers.
-/
namespace Haptics

/-- A keyframe whose values fit; vectorial keyframes have a position. -/
structure Keyframe.FileFits (bandType : Nat) (k : Keyframe) : Prop extends k.Fits where
  vectorial : bandType = BandType.VectorialWave → k.relativePosition.isSome

/-- Amplitudes are quantised on 8 bits over [-1,1].  In a vectorial band absent amplitudes and frequencies
stay absent; a transient has amplitude, position and frequency, a curve point amplitude and position,
values that are absent being 0. -/
def Keyframe.stored (bandType : Nat) (k : Keyframe) : Keyframe :=
  let quant := quantF 8 (-MAX_AMPLITUDE) MAX_AMPLITUDE
  if bandType = BandType.Transient then
    { relativePosition := some (k.relativePosition.getD 0)
      amplitudeModulation := some (quant (k.amplitudeModulation.getD 0))
      frequencyModulation := some (k.frequencyModulation.getD 0) }
  else if bandType = BandType.Curve then
    { relativePosition := some (k.relativePosition.getD 0)
      amplitudeModulation := some (quant (k.amplitudeModulation.getD 0)) }
  else { k with amplitudeModulation := k.amplitudeModulation.map quant }

/-- An effect that fits a band of the given type: composite effects are empty, and a wavelet effect has a
bit stream of fewer than 2^16 bytes. -/
structure Effect.FileFits (bandType : Nat) (e : Effect) : Prop where
  type : e.effectType = EffectType.Basis ∨ e.effectType = EffectType.Reference ∨
    (e.effectType = EffectType.Composite ∧ e.timeline = [])
  id : e.effectType = EffectType.Reference → U 16 e.id
  position : U 25 e.position
  baseSignal : ∀ v ∈ e.baseSignal, v < 16
  keyframeCount : e.keyframes.length < 65536
  keyframes : ∀ k ∈ e.keyframes, k.FileFits bandType
  wavelet : e.waveletBitstream.length < 65536

/-- What a file keeps of an effect, its position apart: of a reference the identifier; of a basis effect
the bit stream in a wavelet band, and otherwise the keyframes and, in a vectorial band, the phase (quantised
on 16 bits over [0, MAX_PHASE], default 0) and the base signal (default 0). -/
def Effect.stored (bandType : Nat) (e : Effect) : Effect :=
  if e.effectType = EffectType.Reference then { id := e.id, effectType := e.effectType }
  else if e.effectType = EffectType.Composite then { effectType := e.effectType }
  else if bandType = BandType.WaveletWave then
    { effectType := e.effectType, waveletBitstream := e.waveletBitstream }
  else
    { effectType := e.effectType
      phase := if bandType = BandType.VectorialWave then some (quantF 16 0 MAX_PHASE (e.phase.getD 0))
        else none
      baseSignal := if bandType = BandType.VectorialWave then some (e.baseSignal.getD 0) else none
      keyframes := e.keyframes.map (Keyframe.stored bandType) }

/-- The effects of a band, read back: each one where it was. -/
def Band.storedEffects (b : Band) : List Effect :=
  b.effects.map (fun e => { e.stored b.bandType with position := e.position })

/-- A band whose header fits; for the block length see `Band.BlockIs`. -/
structure Band.FileHeaderFits (b : Band) : Prop where
  bandType : b.bandType < 8
  curveType : b.bandType = BandType.Curve → b.curveTypeOrDefault < 16
  low : U 16 b.lowerFrequencyLimit
  up : U 16 b.upperFrequencyLimit
  effects : b.effects.length < 65536

/-- The block of a wavelet band consists of `2^k` samples: at `upperFrequencyLimit` samples per second and
`timescale` ticks per second it lasts a whole number of ticks. -/
structure Band.BlockIs (b : Band) (timescale k : Nat) : Prop where
  four_le : 4 ≤ k
  le_thirty : k ≤ 30
  up : 0 < b.upperFrequencyLimit
  block : ∃ ticks, b.blockLength = some ticks ∧ ticks < 2 ^ 31 ∧
    ticks * b.upperFrequencyLimit = 2 ^ k * timescale
  range : 2 ^ k * timescale < 2 ^ 32
  timescale : 0 < timescale

/-- What a file keeps of a band's header; the effects are read later. -/
def Band.storedHeader (b : Band) : Band :=
  { bandType := b.bandType
    curveType := if b.bandType = BandType.Curve then some b.curveTypeOrDefault else none
    blockLength := if b.bandType = BandType.WaveletWave then b.blockLength else some 0
    lowerFrequencyLimit := b.lowerFrequencyLimit
    upperFrequencyLimit := b.upperFrequencyLimit
    effects := List.replicate b.effects.length {} }

/-- In double precision `u * (1 / u) = 1`. -/
def ReciprocalExact (u : ℚ) : Prop := fl64 (fl64 (1 / u) * u) = 1

instance (u : ℚ) : Decidable (ReciprocalExact u) := inferInstanceAs (Decidable (_ = _))

end Haptics
