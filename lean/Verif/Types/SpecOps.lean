import Verif.Types.Ops

/-
What the operations of the data model are meant to do (C26–C31), without reference to how they do it.
-/
namespace Haptics

/-- Effects in time order. -/
def TimeOrdered (l : List Effect) : Prop := l.Pairwise (fun a b => a.position ≤ b.position)

/-- Keyframes in time order; keyframes without position are left out of consideration. -/
def KfOrdered (l : List Keyframe) : Prop := (l.filterMap (·.relativePosition)).Pairwise (· ≤ ·)

/-- Two closed time intervals have an instant in common. -/
def Meet (a b c d : ℚ) : Prop := ∃ t : ℚ, (a ≤ t ∧ t ≤ b) ∧ (c ≤ t ∧ t ≤ d)

/-- What linearising has to make of an effect `e`, given the library. -/
inductive Resolved (library : List Effect) (e : Effect) : Effect → Prop
  /-- an effect that is not a reference is kept -/
  | other : e.effectType ≠ EffectType.Reference → Resolved library e e
  /-- a reference without library entry is kept -/
  | dangling : e.effectType = EffectType.Reference → (∀ r ∈ library, r.id ≠ e.id) → Resolved library e e
  /-- a reference with a library entry becomes a copy of the (first) entry at the position of the
  reference -/
  | found (pre : List Effect) (r : Effect) (post : List Effect) :
      e.effectType = EffectType.Reference → library = pre ++ r :: post → (∀ x ∈ pre, x.id ≠ e.id) →
      r.id = e.id → Resolved library e { r with id := -1, position := e.position }

/-- Corresponding channels, bands and effects of two perceptions. -/
def EffectsRelated (R : Effect → Effect → Prop) (a b : List Channel) : Prop :=
  List.Forall₂ (fun c c' : Channel => { c with bands := [] } = { c' with bands := [] } ∧
    List.Forall₂ (fun d d' : Band => { d with effects := [] } = { d' with effects := [] } ∧
      List.Forall₂ R d.effects d'.effects) c.bands c'.bands) a b

/-- What is rendered of an effect: not its identifier, nor its semantic label. -/
def Effect.signal (e : Effect) : Int × Nat × Option ℚ × Option Nat × List Keyframe :=
  (e.position, e.effectType, e.phase, e.baseSignal, e.keyframes)

/-- Two bands render the same signal: same parameters; the same effects for wavelets, the same effect
signals otherwise. -/
def Band.SameSignal (a b : Band) : Prop :=
  { a with effects := [] } = { b with effects := [] } ∧
  (if a.bandType = BandType.WaveletWave then a.effects = b.effects
   else a.effects.map Effect.signal = b.effects.map Effect.signal)

/-- Two channels render the same signal. -/
def Channel.SameSignal (a b : Channel) : Prop :=
  { a with bands := [] } = { b with bands := [] } ∧ List.Forall₂ Band.SameSignal a.bands b.bands

/-- A library whose identifiers are below its size, as `refactorEffects` itself numbers them. -/
def LibraryNumbered (library : List Effect) : Prop := ∀ e ∈ library, e.id < library.length

/-- Every reference of the channels can be resolved. -/
def ReferencesResolve (library : List Effect) (cs : List Channel) : Prop :=
  ∀ e ∈ effectsOf cs, e.effectType = EffectType.Reference → ∃ r ∈ library, r.id = e.id

/-- No effect of a wavelet band looks like an effect of another band. -/
def WaveletsApart (cs : List Channel) : Prop :=
  ∀ c ∈ cs, ∀ b ∈ c.bands, b.bandType ≠ BandType.WaveletWave → ∀ e ∈ b.effects,
  ∀ c' ∈ cs, ∀ b' ∈ c'.bands, b'.bandType = BandType.WaveletWave → ∀ e' ∈ b'.effects,
    e.isEquivalent e' = false

end Haptics
