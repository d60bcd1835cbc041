import Verif.Eval.Model
import Mathlib.Data.List.Forall2

/-! What it means that two experiences sound alike (C102): nothing here refers to streams. -/

namespace Haptics

noncomputable section

/-- Both are numbers that differ by at most `ε`, or neither is a number. -/
def Near (ε : ℝ) : Option ℝ → Option ℝ → Prop
  | some x, some y => |x - y| ≤ ε
  | none, none => True
  | _, _ => False

/-- Both fail in the same way, or both succeed with related results. -/
def Alike {α β : Type} (R : α → β → Prop) : Except Err α → Except Err β → Prop
  | .ok a, .ok b => R a b
  | .error x, .error y => x = y
  | _, _ => False

/-- Two signals of the same number of samples; sample `j` differs by at most `ε j`. -/
def Signals (ε : ℕ → ℝ) (s s' : List (Option ℝ)) : Prop :=
  s'.length = s.length ∧ ∀ j < s.length, Near (ε j) (s.getD j none) (s'.getD j none)

/-- How many sounds an effect contributes at a time: of a transient effect the strokes that have not faded away, of a
vectorial effect one from its position to its last keyframe. -/
def Effect.voices (bandType : Nat) (timescale : Nat) (e : Effect) (time : ℝ) : ℕ :=
  open Classical in
  if bandType = BandType.Transient then
    (e.keyframes.filter (fun k => decide (∃ p : Int, k.relativePosition = some p ∧ (e.position : ℝ) + p ≤ time ∧
      time ≤ e.position + p + 22 / 1000 * timescale))).length
  else if (e.position : ℝ) ≤ time ∧ ∃ k ∈ e.keyframes, ∃ p : Int, k.relativePosition = some p ∧ time ≤ e.position + p then 1
  else 0

/-- How many sounds a band contributes to sample `j`: all its curves, or the sounds of its effects at the time of the
sample. -/
def Band.voices (fs pad : Int) (timescale : Nat) (b : Band) (j : ℕ) : ℕ :=
  if b.bandType = BandType.Curve then b.effects.length
  else (b.effects.map (fun e => e.voices b.bandType timescale (timescale * ((j : ℝ) / fs - pad * 0.001)))).sum

/-- The sounds of all bands. -/
def Channel.voices (fs pad : Int) (timescale : Nat) (c : Channel) (j : ℕ) : ℕ :=
  (c.bands.map (fun b => b.voices fs pad timescale j)).sum

end

/-- The same keyframe but for an amplitude that differs by at most `δ`. -/
structure Keyframe.NearTo (δ : ℚ) (bandType : Nat) (k k' : Keyframe) : Prop where
  position : k'.relativePosition = k.relativePosition
  frequency : bandType ≠ BandType.Curve → k'.frequencyModulation = k.frequencyModulation
  amplitude : Option.Rel (fun a a' : ℚ => |a - a'| ≤ δ ∧ |a| ≤ 1 ∧ |a'| ≤ 1) k.amplitudeModulation k'.amplitudeModulation

/-- The same effect but for amplitudes that differ by at most `δ` and, for a sine, a phase that differs by at most `η`. -/
structure Effect.NearTo (δ η : ℚ) (bandType : Nat) (e e' : Effect) : Prop where
  position : e'.position = e.position
  keyframes : List.Forall₂ (Keyframe.NearTo δ bandType) e.keyframes e'.keyframes
  signal : bandType = BandType.VectorialWave → e'.baseSignalOrDefault = e.baseSignalOrDefault ∧
    (e'.phaseOrDefault = e.phaseOrDefault ∨ (e.baseSignalOrDefault = 0 ∧ |e.phaseOrDefault - e'.phaseOrDefault| ≤ η))

/-- The same band, but for its effects. -/
structure Band.NearTo (δ η : ℚ) (b b' : Band) : Prop where
  bandType : b'.bandType = b.bandType
  keyframeBand : b.bandType = BandType.Transient ∨ b.bandType = BandType.Curve ∨ b.bandType = BandType.VectorialWave
  curveType : b.bandType = BandType.Curve → b'.curveTypeOrDefault = b.curveTypeOrDefault
  low : b'.lowerFrequencyLimit = b.lowerFrequencyLimit
  high : b'.upperFrequencyLimit = b.upperFrequencyLimit
  effects : List.Forall₂ (Effect.NearTo δ η b.bandType) b.effects b'.effects

end Haptics
