import Verif.Types.Model

/-
What it means to remove empty components.  Nothing here refers to the code that does it.
-/
namespace Haptics

/-- An effect with nothing to play, in a band of the given type: a basis effect without keyframes
(the effects of wavelet bands have none). -/
def Effect.Void (bandType : Nat) (e : Effect) : Prop :=
  bandType ≠ BandType.WaveletWave ∧ e.effectType = EffectType.Basis ∧ e.keyframes = []

instance (bandType : Nat) (e : Effect) : Decidable (e.Void bandType) :=
  decidable_of_iff (bandType ≠ BandType.WaveletWave ∧ e.effectType = EffectType.Basis ∧
    e.keyframes.isEmpty = true) (by simp [Effect.Void])

/-- The band without its void effects. -/
def Band.prune (b : Band) : Band :=
  { b with effects := b.effects.filter (fun e => ¬ e.Void b.bandType) }

/-- The channel without what is void: void effects, and bands of which nothing is left. -/
def Channel.prune (c : Channel) : Channel :=
  { c with bands := (c.bands.map Band.prune).filter (fun b => !b.effects.isEmpty) }

/-- The perception without what is void. -/
def Perception.prune (p : Perception) : Perception :=
  { p with channels := (p.channels.map Channel.prune).filter (fun c => !c.bands.isEmpty) }

/-- The experience without what is void. -/
def Experience.prune (h : Experience) : Experience :=
  { h with perceptions := (h.perceptions.map Perception.prune).filter (fun p => !p.channels.isEmpty) }

/-- No component is followed immediately by one that needs tidying, if it will be removed itself. -/
structure Band.Spaced (b : Band) : Prop where
  effects : b.effects.IsChain (fun x y => x.Void b.bandType → ¬ y.Void b.bandType)

structure Channel.Spaced (c : Channel) : Prop where
  bands : ∀ b ∈ c.bands, b.Spaced
  next : c.bands.IsChain (fun x y => x.prune.effects = [] → y.prune = y ∧ y.effects ≠ [])

structure Perception.Spaced (p : Perception) : Prop where
  channels : ∀ c ∈ p.channels, c.Spaced
  next : p.channels.IsChain (fun x y => x.prune.bands = [] → y.prune = y ∧ y.bands ≠ [])

structure Experience.Spaced (h : Experience) : Prop where
  perceptions : ∀ p ∈ h.perceptions, p.Spaced
  next : h.perceptions.IsChain (fun x y => x.prune.channels = [] → y.prune = y ∧ y.channels ≠ [])

end Haptics
