import Verif.Stream.SpecResend
import Verif.Stream.SpecFrames

/-
C103, C106: what a receiver can get that joins a stream late or loses units.  Nothing here refers to packets or the functions that write and
read units.
-/
namespace Haptics

/-- What happens of an effect at the times `live`: its keyframes then.  It keeps its identifier and its position. -/
def Effect.during (live : Int → Bool) (e : Effect) : Effect :=
  if e.effectType = EffectType.Basis then { e with keyframes := e.keyframes.filter (fun k => live (e.timeOf k)) }
  else e

/-- What happens in a band at the times `live` (the blocks that start then, if it is a wavelet band). -/
def Band.during (live : Int → Bool) (b : Band) : Band :=
  { b with
    effects :=
      if b.bandType = BandType.WaveletWave then b.effects.filter (fun e => live e.position)
      else (b.effects.filter (fun e => e.eventTimes.any live)).map (Effect.during live) }

def Channel.during (live : Int → Bool) (c : Channel) : Channel := { c with bands := c.bands.map (Band.during live) }

def Perception.during (live : Int → Bool) (p : Perception) : Perception :=
  { p with channels := p.channels.map (Channel.during live) }

/-- An experience at the times `live`: everything but what happens at other times. -/
def Experience.during (live : Int → Bool) (h : Experience) : Experience :=
  { h with perceptions := h.perceptions.map (Perception.during live) }

/-- An experience from time `t` on: everything but what happens before `t`. -/
def Experience.since (t : Int) (h : Experience) : Experience := h.during (fun x => decide (t ≤ x))

/-- An experience without its sync points. -/
def Experience.unsynced (h : Experience) : Experience := { h with syncs := [] }

/-- The experience as received, with given sync points. -/
def Experience.receivedWith (syncs : List Sync) (h : Experience) : Experience := { h.receivedStream with syncs := syncs }

/-- A sync point at the time `t` as received. -/
def Experience.syncAt (h : Experience) (t : Nat) : Sync :=
  { timestamp := t, timescale := some (h.timescale.getD 1000) }

/-- With packet duration `d`, there is something to send at time `t`: a block of a wavelet band starts then, or a band has
an event in the packet that starts then. -/
def Experience.SendsAt (d : Nat) (t : Int) (h : Experience) : Prop :=
  ∃ b ∈ h.allBands, if b.bandType = BandType.WaveletWave then ∃ e ∈ b.effects, e.position = t
    else (d : Int) ∣ t ∧ ∃ e ∈ b.effects, ∃ x ∈ e.eventTimes, t ≤ x ∧ x < t + d

/-- All sync points but the first are in order, and each is at a time at which there is something to send, but not the
first such time. -/
def Experience.SyncsTimely (d : Nat) (h : Experience) : Prop :=
  (h.syncs.drop 1).Pairwise (fun a b => a.timestamp < b.timestamp) ∧
  ∀ p ∈ h.syncs.drop 1, h.SendsAt d p.timestamp ∧ ∃ t, t < p.timestamp ∧ h.SendsAt d t

/-- No reference starts together with a packet, except at time 0. -/
def Experience.OffGrid (d : Nat) (h : Experience) : Prop :=
  ∀ b ∈ h.allBands, ∀ e ∈ b.effects, e.effectType = EffectType.Reference → ∀ m : Int, 0 < m → e.position ≠ m * d

/-- There are no wavelet bands. -/
def Experience.Keyframed (h : Experience) : Prop := ∀ b ∈ h.allBands, b.bandType ≠ BandType.WaveletWave

end Haptics
