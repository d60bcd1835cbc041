import Verif.Stream.SpecMeta

/-
What data packets can represent, and what a receiver is entitled to find.  Nothing here refers to the
packet writers or readers.
-/
namespace Haptics

/-- A keyframe of a band of the given type: a transient has amplitude, position and frequency, a curve
point amplitude and position, a vectorial keyframe a position. -/
structure Keyframe.DataFits (bandType : Nat) (k : Keyframe) : Prop where
  position : ∃ p, k.relativePosition = some p ∧ U 16 p
  frequency : ∀ v ∈ k.frequencyModulation, U 16 v
  transient : bandType = BandType.Transient →
    k.amplitudeModulation.isSome ∧ k.frequencyModulation.isSome
  curve : bandType = BandType.Curve → k.amplitudeModulation.isSome

/-- Amplitudes are quantised on 8 bits over [-1,1]; curve points have no frequency. -/
def Keyframe.receivedIn (bandType : Nat) (k : Keyframe) : Keyframe :=
  { k with
    amplitudeModulation := k.amplitudeModulation.map (quantF 8 (-MAX_AMPLITUDE) MAX_AMPLITUDE)
    frequencyModulation := if bandType = BandType.Curve then none else k.frequencyModulation }

/-- The types of band whose effects are made of keyframes. -/
def KeyframeBand (bandType : Nat) : Prop :=
  bandType = BandType.Transient ∨ bandType = BandType.Curve ∨ bandType = BandType.VectorialWave

/-- An effect whose values fit the fields of a data packet of a band of the given type. -/
structure Effect.Sendable (bandType : Nat) (e : Effect) : Prop where
  id : U 16 e.id
  type : e.effectType = EffectType.Basis ∨ e.effectType = EffectType.Reference
  semantic : ∀ s ∈ e.semantic, (semanticCode s).isSome
  baseSignal : ∀ v ∈ e.baseSignal, v < 16
  keyframeCount : e.keyframes.length < 65536
  keyframes : ∀ k ∈ e.keyframes, k.DataFits bandType

/-- An effect that can be sent in a data packet of the given time: its position relative to that time
fits 25 bits. -/
structure Effect.DataFits (bandType : Nat) (time : Int) (e : Effect) : Prop
    extends e.Sendable bandType where
  position : -2 ^ 24 ≤ e.position - time ∧ e.position - time < 2 ^ 24

/-- What is received of an effect: of a reference only identifier and position; of a basis effect also
the semantic, the keyframes and, in a vectorial band, the phase (quantised on 16 bits over
[0, MAX_PHASE], default 0) and the base signal (default 0). -/
def Effect.receivedIn (bandType : Nat) (e : Effect) : Effect :=
  if e.effectType = EffectType.Basis then
    { id := e.id, position := e.position, semantic := e.semantic, effectType := e.effectType
      phase := if bandType = BandType.VectorialWave then some (quantF 16 0 MAX_PHASE (e.phase.getD 0))
        else none
      baseSignal := if bandType = BandType.VectorialWave then some (e.baseSignal.getD 0) else none
      keyframes := e.keyframes.map (Keyframe.receivedIn bandType) }
  else { id := e.id, position := e.position, effectType := e.effectType }

end Haptics
