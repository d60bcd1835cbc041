import Verif.Main.SpecImported
import Verif.Encoder.IvsTyped

/-! What C95 says: an IVS file that is encoded to a stream is received with all its effects. -/

namespace Haptics.Ivs
open Haptics

/-- The effects that a timeline plays, in ticks: one for each launch event of a known basis effect (C73), repeated as
the repeat events say (C40, C75). -/
def Plays (sort : List Repeat → List Repeat) (f : File) (ts : Nat) (t : Timeline) (played : List Effect) : Prop :=
  ∃ es, launched f.basisEffects ts t.launchEvents = .ok es ∧
    List.Forall₂ (InTicks ts) (expandRepeats (sort t.repeatEvents) es) played

/-- What was received is what the timeline plays: each effect at its time, as the encoder makes it, with the amplitudes
rounded to what the stream has (`receivedIn`: C18).  There is nothing else. -/
structure Received (ts : Nat) (played : List Effect) (r : Experience) : Prop where
  timescale : r.timescale = some ts
  effects : ((r.effectsIn BandType.VectorialWave).map Effect.anonymous).Perm
    (played.map (fun e => (e.receivedIn BandType.VectorialWave).anonymous))
  others : ∀ b ∈ r.allBands, b.bandType = BandType.VectorialWave

/-- Files that survive, of the basis effects that are launched: none is longer than 65535 ticks, and the periodic ones
have a period. -/
structure Brief (f : File) (ts : Nat) (t : Timeline) : Prop where
  title : t.name.length + 3 + f.lastModified.length < 256
  short : ∀ l ∈ t.launchEvents, ∀ b ∈ f.basisEffects, b.name = l.effect → ∀ d, toTicks (getDuration b l) ts = .ok d →
    d < 65536
  period : ∀ l ∈ t.launchEvents, ∀ b ∈ f.basisEffects, b.name = l.effect → b.type = "periodic" → 1 ≤ getPeriod b l

/-- The same, of what is made: at most 256 bands, less than 65536 effects, all of them in the first 2^24 ticks. -/
structure Roomy (q : Perception) : Prop where
  bands : ∀ c ∈ q.channels, c.bands.length ≤ 256
  effects : ∀ c ∈ q.channels, (c.bands.flatMap (·.effects)).length < 65536
  early : ∀ c ∈ q.channels, ∀ b ∈ c.bands, ∀ e ∈ b.effects, 0 ≤ e.position ∧ e.position < 2 ^ 24 - 2 ^ 16

end Haptics.Ivs
