import Verif.Stream.SpecTidy
import Verif.Stream.SpecData
import Verif.Stream.SpecWavelet
import Verif.Stream.PropsPacketize

/-
C57: what it means that an experience is received through a stream.  Nothing here refers to units, packets
or the functions that write and read them (`assignAll` and `nextEffectId` are the subject of C20).
-/
namespace Haptics

/-! ### Identifiers -/

/-- Go through a list from left to right, handing a state on. -/
def mapAccum {α β σ : Type} (f : σ → α → β × σ) : σ → List α → List β × σ
  | s, [] => ([], s)
  | s, x :: l => ((f s x).1 :: (mapAccum f (f s x).2 l).1, (mapAccum f (f s x).2 l).2)

/-- A block of a wavelet band always gets a new identifier. -/
def renumber (ids : List Int) (e : Effect) : Effect × List Int :=
  ({ e with id := nextEffectId ids }, ids ++ [nextEffectId ids])

/-- The effects of a band with identifiers: effects without identifier get new ones, blocks of wavelet bands
get new ones in any case; `ids` are those in use. -/
def identified (bandType : Nat) (ids : List Int) (es : List Effect) : List Effect × List Int :=
  if bandType = BandType.WaveletWave then mapAccum renumber ids es else assignAll ids es

def Band.assignIds (ids : List Int) (b : Band) : Band × List Int :=
  ({ b with effects := (identified b.bandType ids b.effects).1 }, (identified b.bandType ids b.effects).2)

def Channel.assignIds (ids : List Int) (c : Channel) : Channel × List Int :=
  ({ c with bands := (mapAccum Band.assignIds ids c.bands).1 }, (mapAccum Band.assignIds ids c.bands).2)

def Perception.assignIds (ids : List Int) (p : Perception) : Perception × List Int :=
  ({ p with channels := (mapAccum Channel.assignIds ids p.channels).1 },
    (mapAccum Channel.assignIds ids p.channels).2)

/-- The experience in which every effect has an identifier. -/
def Experience.assignIds (h : Experience) : Experience :=
  { h with perceptions := (mapAccum Perception.assignIds (getEffectsId h) h.perceptions).1 }

/-! ### What is received -/

/-- An effect of a band of the given type. -/
def Effect.receivedBy (bandType : Nat) (e : Effect) : Effect :=
  if bandType = BandType.WaveletWave then e.receivedWavelet e.id else e.receivedIn bandType

/-- A band with its effects. -/
def Band.receivedStream (b : Band) : Band :=
  { b.receivedHeader with effects := b.effects.map (Effect.receivedBy b.bandType) }

/-- A channel with its bands. -/
def Channel.receivedStream (c : Channel) : Channel :=
  { c.receivedHeader with bands := c.bands.map Band.receivedStream }

/-- A perception with its channels and its library. -/
def Perception.receivedStream (p : Perception) : Perception :=
  { p.receivedHeader with
    channels := p.channels.map Channel.receivedStream
    effectLibrary := p.effectLibrary.map Effect.received }

/-- The whole experience.  There is one sync point, at the start, with the time scale. -/
def Experience.receivedStream (h : Experience) : Experience :=
  { version := h.version, profile := h.profile, level := h.level, date := h.date
    description := h.description
    perceptions := h.perceptions.map Perception.receivedStream
    avatars := h.avatars.map Avatar.received
    timescale := some (h.timescale.getD 1000)
    syncs := [{ timestamp := 0, timescale := some (h.timescale.getD 1000) }] }

/-! ### What can be streamed -/

/-- The effects of a band can be streamed with packet duration `d`. -/
structure Band.EffectsFit (d : Nat) (b : Band) : Prop where
  bandType : KeyframeBand b.bandType
  sequential : Sequential b.effects
  distinct : DistinctIds b.effects
  sendable : ∀ e ∈ b.effects, e.Sendable b.bandType
  /-- all events lie within 2^24 ticks -/
  events : ∀ e ∈ b.effects, ∀ t ∈ e.eventTimes, 0 ≤ t ∧ t < 2 ^ 24
  count : b.effects.length < 65536
  /-- the last effect is not a reference that starts together with a packet, see
  `c19_reference_negation` -/
  last : ∀ e ∈ b.effects.getLast?, e.effectType = EffectType.Reference →
    ∀ m : Int, 0 < m → e.position ≠ m * d

/-- The blocks of a wavelet band can be streamed with packet duration `d` in an experience with timescale `ts`:
there is one block in every packet, the blocks follow each other without gaps, and the sample rate of the band (its
upper limit) is the timescale. -/
structure Band.BlocksFit (ts d : Nat) (b : Band) : Prop where
  bandType : b.bandType = BandType.WaveletWave
  blockLength : b.blockLength = some (d : Int)
  rate : b.upperFrequencyLimit = ts
  positive : 0 < ts
  basis : ∀ e ∈ b.effects, e.effectType = EffectType.Basis
  blocks : ∃ semantic, (∀ s ∈ semantic, (semanticCode s).isSome) ∧ WaveletBlocks d semantic b.effects
  ids : ∀ e ∈ b.effects, U 16 e.id
  distinct : (b.effects.map (·.id)).Nodup
  /-- all blocks start within 2^24 ticks -/
  events : ∀ e ∈ b.effects, e.position < 2 ^ 24

structure Channel.StreamFits (ts d : Nat) (c : Channel) : Prop where
  header : c.HeaderFits
  bands : ∀ b ∈ c.bands, b.HeaderFits ∧ (b.EffectsFit d ∨ b.BlocksFit ts d)

structure Perception.StreamFits (ts d : Nat) (p : Perception) : Prop where
  header : p.HeaderFits
  /-- not VibrotactileTexture, Stiffness or Friction -/
  modality : p.perceptionModality ≠ 10 ∧ p.perceptionModality ≠ 11 ∧ p.perceptionModality ≠ 12
  libraryCount : p.effectLibrary.length < 65536
  library : ∀ e ∈ p.effectLibrary, e.LibFits
  channels : ∀ c ∈ p.channels, c.StreamFits ts d

/-- The identifiers of the channels of all perceptions. -/
def Experience.channelIds (h : Experience) : List Int :=
  h.perceptions.flatMap (fun p => p.channels.map (·.id))

/-- All bands. -/
def Experience.allBands (h : Experience) : List Band :=
  h.perceptions.flatMap (fun p => p.channels.flatMap (·.bands))

structure Experience.StreamFits (d : Nat) (h : Experience) : Prop where
  header : h.HeaderFits
  timescale : h.timescale.getD 1000 < 2 ^ 32
  /-- no sync points after the start -/
  syncs : h.syncs.length ≤ 1
  perceptions : ∀ p ∈ h.perceptions, p.StreamFits (h.timescale.getD 1000) d
  perceptionIds : (h.perceptions.map (·.id)).Nodup
  /-- channel identifiers are unique in the whole experience, see `c35_negation` -/
  channelIds : h.channelIds.Nodup
  bandCount : h.allBands.length ≤ 256

/-- No effect of a wavelet band has a negative identifier (-1 stands for none). -/
def Experience.Identified (h : Experience) : Prop :=
  ∀ b ∈ h.allBands, b.bandType = BandType.WaveletWave → ∀ e ∈ b.effects, -1 ≤ e.id

/-- Packets of less than 2^17 bytes, less than 2^28 bytes in all. -/
structure SmallPackets (packets : List Bits) : Prop where
  each : ∀ p ∈ packets, p.length < 2 ^ 20
  total : packets.flatten.length < 2 ^ 30

end Haptics
