import Verif.Stream.SpecStream
import Verif.Stream.Reader

/-
C35, C36: what a receiver has when it has received the description of an experience, and what it means that
channels are attached to the perceptions they name.
-/
namespace Haptics

/-- `x` is `b` as received, with whatever effects have come in so far. -/
def KnowsBand (b x : Band) : Prop := { x with effects := [] } = b.receivedHeader

/-- `d` is `c` as received, with its bands. -/
def KnowsChannel (c d : Channel) : Prop :=
  { d with bands := [] } = c.receivedHeader ∧ List.Forall₂ KnowsBand c.bands d.bands

/-- `q` is `p` as received, with its library and channels. -/
def KnowsPerception (p q : Perception) : Prop :=
  { q with channels := [] } = { p.receivedHeader with effectLibrary := p.effectLibrary.map Effect.received } ∧
  List.Forall₂ KnowsChannel p.channels q.channels

/-- The receiver knows all of `h` but possibly effects of bands, avatars and timing. -/
structure KnowsAll (h : Experience) (r : Reader) : Prop where
  version : r.haptic.version = h.version
  profile : r.haptic.profile = h.profile
  level : r.haptic.level = h.level
  date : r.haptic.date = h.date
  description : r.haptic.description = h.description
  perceptions : List.Forall₂ KnowsPerception h.perceptions r.haptic.perceptions
  /-- band `n` of the experience is known under the identifier `n` at its place in its channel -/
  bands : ∀ n : Nat, (searchBandInHaptic r.bandStreams n)
    = (h.perceptions.flatMap (fun p => p.channels.flatMap (fun c => List.range c.bands.length)))[n]?

/-- What makes it safe to send the description of an experience more than once: there are no avatars
(`c36_avatars_negation`), every perception names itself as its avatar (`c36_avatarId_negation`) and has a
semantic scheme (`c36_scheme_negation`). -/
structure Experience.Resendable (h : Experience) : Prop where
  avatars : h.avatars = []
  avatarId : ∀ p ∈ h.perceptions, p.avatarId = p.id
  scheme : ∀ p ∈ h.perceptions, p.effectSemanticScheme.isSome

/-- Channels `xs`, each with the identifier of its perception, attached to perceptions. -/
def attach (xs : List (Int × Channel)) (p : Perception) : Perception :=
  { p with channels := p.channels ++ (xs.filter (fun x => x.1 = p.id)).map (fun x => x.2.receivedHeader) }

end Haptics
