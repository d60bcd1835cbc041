import Verif.Stream.SpecStream

/-
What it takes for the packets of a stream to be short enough for the length fields of the format, in terms of
the experience alone.
-/
namespace Haptics

/-- How many events (keyframes, or starts of references) the effects have in the time window [lo, hi). -/
def eventsIn (lo hi : Int) (effects : List Effect) : Nat :=
  ((effects.flatMap Effect.eventTimes).filter (fun t => decide (lo ≤ t ∧ t < hi))).length

mutual
/-- The number of effects and keyframes of an effect with its timeline. -/
def Effect.weight : Effect → Nat
  | ⟨_, _, _, _, keyframes, _, _, timeline, _⟩ => 1 + keyframes.length + weightAll timeline

def weightAll : List Effect → Nat
  | [] => 0
  | e :: l => e.weight + weightAll l
end

/-- All blocks of wavelet bands. -/
def Experience.waveletBlocks (h : Experience) : List Effect :=
  (h.allBands.filter (fun b => b.bandType = BandType.WaveletWave)).flatMap (·.effects)

/-- An experience of moderate size: per channel at most 30000 vertices, per perception at most 9000 effects and
keyframes in the library, per band at most 7000 events in the time of a packet, at most 4 million events in
all, and at most 9 million bytes of wavelet blocks, where every block counts 24 bytes more than it has. -/
structure Experience.Modest (d : Nat) (h : Experience) : Prop where
  vertices : ∀ p ∈ h.perceptions, ∀ c ∈ p.channels, c.vertices.length ≤ 30000
  libraries : ∀ p ∈ h.perceptions, weightAll p.effectLibrary ≤ 9000
  dense : ∀ b ∈ h.allBands, ∀ t, eventsIn t (t + d) b.effects ≤ 7000
  events : ((h.allBands.flatMap (·.effects)).flatMap Effect.eventTimes).length ≤ 4000000
  blocks : (h.waveletBlocks.map (fun e => e.waveletBitstream.length + 24)).sum ≤ 9000000

end Haptics
