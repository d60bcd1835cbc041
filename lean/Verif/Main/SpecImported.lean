import Verif.Encoder.SpecAhap
import Verif.Stream.SpecStream
import Verif.Main.SpecAccepted

/-! What C94 says: an AHAP file that is encoded to a stream is received with all its events. -/

namespace Haptics

/-- The effects of all bands of a type, in order. -/
def Experience.effectsIn (h : Experience) (bandType : Nat) : List Effect :=
  (h.allBands.filter (fun b => b.bandType = bandType)).flatMap (·.effects)

/-- An effect without its identifier. -/
def Effect.anonymous (e : Effect) : Effect := { e with id := -1 }

namespace Ahap

/-- What was received is the file: each transient is a keyframe at the tick of the transient, in the order of the file;
each continuous event is an effect of its own.  Both are as the encoder makes them (`IsTransient`, `IsContinuous`: C77
and C78), with the amplitudes rounded to what the stream has (`receivedIn`: C18).  There is nothing else. -/
structure Received (ts : Nat) (items : List Item) (r : Experience) : Prop where
  timescale : r.timescale = some ts
  transients : List.Forall₂ (fun x k => ∃ k0, k = Keyframe.receivedIn BandType.Transient k0 ∧
      IsTransient (intensityPoints ts items) (sharpnessPoints ts items) ts x.1 x.2 k0)
    (transients items) ((r.effectsIn BandType.Transient).flatMap (·.keyframes))
  start : ∀ e ∈ r.effectsIn BandType.Transient, e.position = 0
  continuous : ∃ C, List.Forall₂ (fun x e => IsContinuous (intensityPoints ts items) (sharpnessPoints ts items) ts
      x.1 x.2.1 x.2.2 e) (continuous items) C ∧
    ((r.effectsIn BandType.VectorialWave).map Effect.anonymous).Perm
      (C.map (fun e => (e.receivedIn BandType.VectorialWave).anonymous))
  others : ∀ b ∈ r.allBands, b.bandType = BandType.Transient ∨ b.bandType = BandType.VectorialWave

/-- Files that survive: curves and events are in the order of time; transients are in the first 65535 ticks, continuous
events no longer than that, at most 255 of them at once, all within 2^24 ticks; the sharpness curves are not negative. -/
structure Streamable (ts : Nat) (items : List Item) : Prop where
  intensity : Rising (intensityPoints ts items)
  sharpness : Rising (sharpnessPoints ts items)
  positive : ∀ p ∈ sharpnessPoints ts items, 0 ≤ p.2
  order : (transients items).Pairwise (fun x y => x.1 ≤ y.1)
  early : ∀ x ∈ transients items, eventTick ts x.1 < 65536
  transientCount : (transients items).length < 65536
  continuousOrder : (continuous items).Pairwise (fun x y => x.1 ≤ y.1)
  short : ∀ x ∈ continuous items, eventTick ts x.2.1 < 65535
  last : ∀ x ∈ continuous items, eventTick ts x.1 + eventTick ts x.2.1 < 2 ^ 24
  continuousCount : (continuous items).length < 65536
  together : ∀ t, Accepted.sounding ts items t ≤ 255

/-- Files that are not too large for packets of `d` ticks: at most 7000 transients in the time of a packet; and at most
four million keyframes, counting for each continuous event its ends and all control points. -/
structure Modest (ts d : Nat) (items : List Item) : Prop where
  packet : d ≤ 7000
  dense : ∀ t : Int, (transients items).countP (fun x => t ≤ eventTick ts x.1 ∧ eventTick ts x.1 < t + d) ≤ 7000
  events : (transients items).length + (continuous items).length *
    (2 + (intensityPoints ts items).length + (sharpnessPoints ts items).length) ≤ 4000000

end Ahap
end Haptics
