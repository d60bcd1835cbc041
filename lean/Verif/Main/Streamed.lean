import Verif.Main.SpecImported
import Verif.Main.PropsAccepted
import Verif.Stream.FreshIds
import Verif.Stream.PropsSizes

/-! Streaming an experience with one channel, as the importers make it. -/

namespace Haptics.Imported
open Haptics Haptics.Accepted
open Haptics.EncoderMain (blank)

/-! ### Bands whose effects have no identifiers -/

theorem withIds_anonymous (es : List Effect) (n : Nat) :
    (withIds n es).map Effect.anonymous = es.map Effect.anonymous := by
  induction es generalizing n with
  | nil => rfl
  | cons e es ih => simp only [withIds, List.map_cons, ih]; rfl

/-- A band as an encoder makes it, ready to be streamed. -/
structure Fresh (b : Band) : Prop where
  header : b.HeaderFits
  bandType : KeyframeBand b.bandType
  sequential : Sequential b.effects
  effects : ∀ e ∈ b.effects, e.id = -1 ∧ e.effectType = EffectType.Basis ∧
    ({ e with id := 0 } : Effect).Sendable b.bandType
  events : ∀ e ∈ b.effects, ∀ t ∈ e.eventTimes, 0 ≤ t ∧ t < 2 ^ 24
  filled : b.effects ≠ []

theorem withIds_map {α : Type} (f : Effect → α) (hf : ∀ (e : Effect) (i : Int), f { e with id := i } = f e) (es : List Effect)
    (n : Nat) : (withIds n es).map f = es.map f := by
  induction es generalizing n with
  | nil => rfl
  | cons e es ih => simp only [withIds, List.map_cons, ih, hf]

theorem withIds_sequential {es : List Effect} (h : Sequential es) (n : Nat) : Sequential (withIds n es) := by
  refine ⟨?_, ?_, fun e he => ?_, fun e he => ?_, fun e he => ?_⟩
  · have e1 := withIds_map Effect.eventTimes (fun _ _ => rfl) es n
    rw [List.flatMap_def, e1, ← List.flatMap_def]
    exact h.times
  · have e1 := withIds_map (fun e => e.position) (fun _ _ => rfl) es n
    have := h.ordered
    unfold TimeOrdered at this ⊢
    rw [← List.pairwise_map (f := fun e : Effect => e.position) (R := (· ≤ ·))] at this ⊢
    rw [e1]
    exact this
  · obtain ⟨x, hx, i, -, -, rfl⟩ := withIds_mem he
    exact h.types x hx
  · obtain ⟨x, hx, i, -, -, rfl⟩ := withIds_mem he
    exact h.keyframes x hx
  · obtain ⟨x, hx, i, -, -, rfl⟩ := withIds_mem he
    exact h.positioned x hx

theorem fresh_fit {b : Band} (h : Fresh b) (d m : Nat) (hm : m + b.effects.length ≤ 65536)
    (hl : b.effects.length < 65536) : ({ b with effects := withIds m b.effects } : Band).EffectsFit d := by
  refine ⟨h.bandType, withIds_sequential h.sequential m, withIds_distinct _ _, fun e he => ?_, fun e he => ?_, ?_,
    fun e he ht => ?_⟩
  · obtain ⟨x, hx, i, i1, i2, rfl⟩ := withIds_mem he
    obtain ⟨-, -, s⟩ := h.effects x hx
    exact ⟨⟨by show 0 ≤ (i : Int); omega, by show (i : Int) < 2 ^ 16; omega⟩, s.type, s.semantic, s.baseSignal,
      s.keyframeCount, s.keyframes⟩
  · obtain ⟨x, hx, i, i1, i2, rfl⟩ := withIds_mem he
    exact h.events x hx
  · rw [show ({ b with effects := withIds m b.effects } : Band).effects = withIds m b.effects from rfl, withIds_length]
    exact hl
  · obtain ⟨x, hx, i, i1, i2, rfl⟩ := withIds_mem (List.mem_of_getLast? he)
    have h1 : x.effectType = EffectType.Reference := ht
    rw [(h.effects x hx).2.1] at h1
    cases h1

/-- A wavelet band as an encoder makes it, ready to be streamed in packets of `d` ticks. -/
structure FreshBlocks (ts d : Nat) (b : Band) : Prop where
  header : b.HeaderFits
  bandType : b.bandType = BandType.WaveletWave
  blockLength : b.blockLength = some (d : Int)
  rate : b.upperFrequencyLimit = ts
  positive : 0 < ts
  effects : ∀ e ∈ b.effects, e.id = -1 ∧ e.effectType = EffectType.Basis ∧ e.keyframes = []
  blocks : WaveletBlocks d none b.effects
  events : ∀ e ∈ b.effects, e.position < 2 ^ 24

theorem blocks_fit {ts d : Nat} {b : Band} (h : FreshBlocks ts d b) (m : Nat) (hm : m + b.effects.length ≤ 65536) :
    ({ b with effects := withIds m b.effects } : Band).BlocksFit ts d := by
  refine ⟨h.bandType, h.blockLength, h.rate, h.positive, fun e he => ?_, ⟨none, fun s hs => (by cases hs), ?_⟩,
    fun e he => ?_, ?_, fun e he => ?_⟩
  · obtain ⟨x, hx, i, i1, i2, rfl⟩ := withIds_mem he
    exact (h.effects x hx).2.1
  · have hp := withIds_map (fun e => e.position) (fun _ _ => rfl) b.effects m
    refine ⟨fun j e hj => ?_, fun e he => ?_, fun e he => ?_⟩
    · have h1 : ((withIds m b.effects).map (fun e => e.position))[j]? = some e.position := by
        rw [List.getElem?_map, show (withIds m b.effects)[j]? = some e from hj]
        rfl
      rw [hp, List.getElem?_map] at h1
      obtain ⟨x, hx, hxe⟩ := Option.map_eq_some_iff.mp h1
      rw [← hxe]
      exact h.blocks.position j x hx
    · obtain ⟨x, hx, i, i1, i2, rfl⟩ := withIds_mem he
      exact h.blocks.semantic x hx
    · obtain ⟨x, hx, i, i1, i2, rfl⟩ := withIds_mem he
      exact h.blocks.size x hx
  · obtain ⟨x, hx, i, i1, i2, rfl⟩ := withIds_mem he
    exact ⟨by show 0 ≤ (i : Int); omega, by show (i : Int) < 2 ^ 16; omega⟩
  · have hd : ∀ (es : List Effect) (n : Nat), ((withIds n es).map (·.id)).Nodup := by
      intro es
      induction es with
      | nil => intro n; exact List.nodup_nil
      | cons e es ih =>
        intro n
        rw [withIds, List.map_cons]
        refine List.nodup_cons.mpr ⟨fun hc => ?_, ih (n + 1)⟩
        obtain ⟨x, hx, he⟩ := List.mem_map.mp hc
        obtain ⟨y, -, i, i1, -, rfl⟩ := withIds_mem hx
        have : (i : Int) = n := he
        omega
    exact hd b.effects m
  · obtain ⟨x, hx, i, i1, i2, rfl⟩ := withIds_mem he
    exact h.events x hx

/-- Channels whose bands are ready to be streamed, and that are not too large. -/
structure FreshChannels (ts d : Nat) (cs : List Channel) : Prop where
  headers : ∀ c ∈ cs, c.HeaderFits
  distinct : (cs.map (·.id)).Nodup
  vertices : ∀ c ∈ cs, c.vertices.length ≤ 30000
  bands : ∀ c ∈ cs, ∀ b ∈ c.bands, Fresh b ∨ FreshBlocks ts d b
  total : ((cs.flatMap (·.bands)).flatMap (·.effects)).length ≤ 65536
  each : ∀ c ∈ cs, ∀ b ∈ c.bands, b.effects.length < 65536
  count : (cs.flatMap (·.bands)).length ≤ 256
  dense : ∀ c ∈ cs, ∀ b ∈ c.bands, ∀ t, eventsIn t (t + d) b.effects ≤ 7000
  events : (((cs.flatMap (·.bands)).flatMap (·.effects)).flatMap Effect.eventTimes).length ≤ 4000000
  bytes : ((((cs.flatMap (·.bands)).filter (fun b => b.bandType = BandType.WaveletWave)).flatMap (·.effects)).map
    (fun e => e.waveletBitstream.length + 24)).sum ≤ 9000000

/-- An experience with the given channels. -/
def channelsOf (ts : Nat) (cs : List Channel) : Experience := imported ts { blank with channels := cs }

theorem channelsOf_bands (ts : Nat) (cs : List Channel) : (channelsOf ts cs).allBands = cs.flatMap (·.bands) := by
  simp [channelsOf, imported, Experience.allBands]

theorem FreshChannels.id {ts d : Nat} {cs : List Channel} (h : FreshChannels ts d cs) :
    ∀ c ∈ cs, ∀ b ∈ c.bands, ∀ e ∈ b.effects, e.id = -1 := by
  intro c hc b hb e he
  rcases h.bands c hc b hb with hf | hf
  · exact (hf.effects e he).1
  · exact (hf.effects e he).1

/-- The identifiers that are given. -/
def Numbered (N : Nat) (b b' : Band) : Prop :=
  ∃ m, m + b.effects.length ≤ N ∧ b' = { b with effects := withIds m b.effects }

theorem Numbered.map {α : Type} (f : Effect → α) (hf : ∀ (e : Effect) (i : Int), f { e with id := i } = f e) {N : Nat}
    {b b' : Band} (h : Numbered N b b') : b'.effects.map f = b.effects.map f := by
  obtain ⟨m, -, rfl⟩ := h
  exact withIds_map f hf b.effects m

theorem forall₂_flatMap {α β γ δ : Type} {R : α → β → Prop} {S : γ → δ → Prop} {f : α → List γ} {g : β → List δ}
    {l : List α} {l' : List β} (h : List.Forall₂ R l l') (hs : ∀ a b, R a b → List.Forall₂ S (f a) (g b)) :
    List.Forall₂ S (l.flatMap f) (l'.flatMap g) := by
  induction h with
  | nil => exact .nil
  | cons h _ ih => exact List.rel_append (hs _ _ h) ih

theorem assignIds_channels (ts : Nat) (cs : List Channel) (h : ∀ c ∈ cs, ∀ b ∈ c.bands, ∀ e ∈ b.effects, e.id = -1) :
    (channelsOf ts cs).assignIds = channelsOf ts (mapAccum Channel.assignIds (firstIds 0) cs).1 := by
  have h0 : getEffectsId (channelsOf ts cs) = firstIds 0 := by
    unfold getEffectsId
    refine List.filter_eq_nil_iff.mpr (fun i hi => ?_)
    simp only [channelsOf, imported, List.flatMap_cons, List.flatMap_nil, List.append_nil,
      List.mem_flatMap, List.mem_map] at hi
    obtain ⟨c, hc, b, hb, e, he, rfl⟩ := hi
    simp [h c hc b hb e he]
  unfold Experience.assignIds
  rw [h0]
  rfl

/-- Streaming channels of bands whose effects have no identifiers. -/
theorem streamed_channels (ts d : Nat) (h : Experience) (cs : List Channel) (hts : ts < 2 ^ 32) (hd : 0 < d)
    (hd2 : d < 2 ^ 24) (hs : h.Spaced) (hp : h.prune = channelsOf ts cs) (hc : FreshChannels ts d cs) :
    ∃ file r, writeStream h d = .ok file ∧ readStream file = .ok (true, some r) ∧ r.timescale = some ts ∧
      ∃ p, r.perceptions = [p] ∧ List.Forall₂ (fun c c' => c' = { c.receivedHeader with bands := c'.bands } ∧
        List.Forall₂ (fun b b' => b' = { b.receivedHeader with effects := b'.effects } ∧
          ∃ m, b'.effects = (withIds m b.effects).map (Effect.receivedBy b.bandType)) c.bands c'.bands)
        cs p.channels := by
  have ha := assignIds_channels ts cs hc.id
  have hfr := mapAccum_fresh_channels cs hc.id 0
  generalize (mapAccum Channel.assignIds (firstIds 0) cs).1 = xs at ha hfr
  change List.Forall₂ (fun c c' : Channel => c' = { c with bands := c'.bands } ∧
    List.Forall₂ (Numbered (0 + ((cs.flatMap (·.bands)).flatMap (·.effects)).length)) c.bands c'.bands) cs xs at hfr
  have hN : 0 + ((cs.flatMap (·.bands)).flatMap (·.effects)).length ≤ 65536 := by have := hc.total; omega
  generalize 0 + ((cs.flatMap (·.bands)).flatMap (·.effects)).length = N at hfr hN
  have hbands : List.Forall₂ (Numbered N) (cs.flatMap (·.bands)) (xs.flatMap (·.bands)) :=
    forall₂_flatMap hfr (fun _ _ h => h.2)
  have hids : xs.map (·.id) = cs.map (·.id) := by
    rw [eq_comm, ← List.forall₂_eq_eq_eq, List.forall₂_map_left_iff, List.forall₂_map_right_iff]
    exact hfr.imp (fun c c' h' => by rw [h'.1])
  have hfit : (channelsOf ts xs).StreamFits d := by
    refine ⟨?_, hts, by show 0 ≤ 1; decide, fun p hp => ?_, List.nodup_singleton _, ?_, ?_⟩
    · exact ⟨by show 0 < 256; decide, by show 4 < 256; decide, by show 1 < 256; decide, by show 0 < 256; decide,
        by show 0 < 256; decide, by show 0 < 256; decide, fun a ha => (by cases ha)⟩
    · rw [List.mem_singleton.mp hp]
      refine ⟨⟨⟨by show (0 : Int) ≤ 0; decide, by show (0 : Int) < 2 ^ 8; decide⟩, fun v hv => (by cases hv),
        by show 0 < 256; decide, by show 0 < 256; decide,
        ⟨by show (0 : Int) ≤ 0; decide, by show (0 : Int) < 2 ^ 8; decide⟩, fun v hv => (by cases hv),
        fun v hv => (by cases hv), fun v hv => (by cases hv), by show 0 < 256; decide, fun v hv => (by cases hv)⟩,
        ⟨by show 0 ≠ 10; decide, by show 0 ≠ 11; decide, by show 0 ≠ 12; decide⟩, by show 0 < 65536; decide,
        fun v hv => (by cases hv), fun c' hc' => ?_⟩
      obtain ⟨c, hcm, hcc, hbb⟩ := forall₂_right hfr c' hc'
      have hh := hc.headers c hcm
      refine ⟨?_, fun b' hb' => ?_⟩
      · rw [hcc]
        exact ⟨hh.1, hh.2, hh.3, hh.4, hh.5, hh.6, hh.7, hh.8, hh.9, hh.10, hh.11, hh.12, hh.13, hh.14, hh.15⟩
      · obtain ⟨b, hb, m, m1, rfl⟩ := forall₂_right hbb b' hb'
        rcases hc.bands c hcm b hb with hf | hf
        · exact ⟨⟨hf.header.1, hf.header.2, hf.header.3, hf.header.4, hf.header.5, hf.header.6⟩,
            .inl (fresh_fit hf d m (by omega) (hc.each c hcm b hb))⟩
        · exact ⟨⟨hf.header.1, hf.header.2, hf.header.3, hf.header.4, hf.header.5, hf.header.6⟩,
            .inr (blocks_fit hf m (by omega))⟩
    · show (List.flatMap (fun p : Perception => p.channels.map (·.id)) [_]).Nodup
      rw [List.flatMap_cons, List.flatMap_nil, List.append_nil]
      show (xs.map (·.id)).Nodup
      rw [hids]
      exact hc.distinct
    · rw [channelsOf_bands, ← hbands.length_eq]
      exact hc.count
  have htimes : ∀ {b b' : Band}, Numbered N b b' →
      b'.effects.flatMap Effect.eventTimes = b.effects.flatMap Effect.eventTimes := fun h' => by
    rw [List.flatMap_def, List.flatMap_def, h'.map Effect.eventTimes (fun _ _ => rfl)]
  have hmod : (channelsOf ts xs).Modest d := by
    refine ⟨fun p hp c' hc' => ?_, fun p hp => ?_, fun b hb' t => ?_, ?_, ?_⟩
    · rw [List.mem_singleton.mp hp] at hc'
      obtain ⟨c, hcm, hcc, -⟩ := forall₂_right hfr c' hc'
      rw [hcc]
      exact hc.vertices c hcm
    · rw [List.mem_singleton.mp hp]
      exact Nat.zero_le _
    · rw [channelsOf_bands] at hb'
      obtain ⟨x, hx, hxm⟩ := forall₂_right hbands b hb'
      obtain ⟨c, hcm, hxc⟩ := List.mem_flatMap.mp hx
      have := hc.dense c hcm x hxc t
      unfold eventsIn at this ⊢
      rw [htimes hxm]
      exact this
    · rw [channelsOf_bands]
      refine le_trans (le_of_eq ?_) hc.events
      congr 1
      generalize cs.flatMap (·.bands) = l at hbands ⊢
      generalize xs.flatMap (·.bands) = l' at hbands ⊢
      have h2 : l'.map (fun b => b.effects.flatMap Effect.eventTimes) =
          l.map (fun b => b.effects.flatMap Effect.eventTimes) := by
        rw [eq_comm, ← List.forall₂_eq_eq_eq, List.forall₂_map_left_iff, List.forall₂_map_right_iff]
        exact hbands.imp (fun b b' h' => (htimes h').symm)
      rw [List.flatMap_assoc, List.flatMap_assoc, List.flatMap_def, h2, ← List.flatMap_def]
    · unfold Experience.waveletBlocks
      rw [channelsOf_bands]
      refine le_trans (le_of_eq ?_) hc.bytes
      have h2 : ∀ (l l' : List Band), List.Forall₂ (Numbered N) l l' →
          ((l'.filter (fun b => b.bandType = BandType.WaveletWave)).flatMap (·.effects)).map
            (fun e => e.waveletBitstream.length + 24) =
          ((l.filter (fun b => b.bandType = BandType.WaveletWave)).flatMap (·.effects)).map
            (fun e => e.waveletBitstream.length + 24) := by
        intro l l' hl
        induction hl with
        | nil => rfl
        | @cons b b' _ _ h' _ ih =>
          have ht : b'.bandType = b.bandType := by obtain ⟨m, -, rfl⟩ := h'; rfl
          rw [List.filter_cons, List.filter_cons, ht]
          split
          · rw [List.flatMap_cons, List.flatMap_cons, List.map_append, List.map_append, ih,
              h'.map (fun e => e.waveletBitstream.length + 24) (fun _ _ => rfl)]
          · exact ih
      rw [h2 _ _ hbands]
  have hid : h.prune.Identified := by
    rw [hp]
    intro b hb' _ e he'
    rw [channelsOf_bands] at hb'
    obtain ⟨c, hcm, hbc⟩ := List.mem_flatMap.mp hb'
    rw [hc.id c hcm b hbc e he']
  obtain ⟨file, f1, f2⟩ := c57_streamed_partial h d hd hd2 hs (by rw [hp, ha]; exact hfit) hid (by rw [hp, ha]; exact hmod)
  rw [hp, ha] at f2
  refine ⟨file, _, f1, f2, rfl, _, rfl, ?_⟩
  show List.Forall₂ _ cs (xs.map Channel.receivedStream)
  rw [List.forall₂_map_right_iff]
  refine hfr.imp (fun c c' h' => ?_)
  obtain ⟨h1, h2⟩ := h'
  refine ⟨?_, ?_⟩
  · rw [h1]
    rfl
  · show List.Forall₂ _ c.bands (c'.bands.map Band.receivedStream)
    rw [List.forall₂_map_right_iff]
    refine h2.imp (fun b b' h' => ?_)
    obtain ⟨m, -, rfl⟩ := h'
    exact ⟨rfl, m, rfl⟩

/-- A channel with a description and bands, and nothing else. -/
def textChannel (text : Str) (bands : List Band) : Channel := { id := 0, description := text, bands := bands }

/-- An experience with one such channel. -/
def oneChannel (ts : Nat) (text : Str) (bands : List Band) : Experience :=
  imported ts { blank with channels := [textChannel text bands] }

theorem header_fits (text : Str) (ht : text.length < 256) (bands : List Band) : (textChannel text bands).HeaderFits := by
  refine ⟨⟨by show (0 : Int) ≤ 0; decide, by show (0 : Int) < 2 ^ 16; decide⟩, fun v hv => (by cases hv), ?_,
    fun v hv => (by cases hv), by show 0 < 2 ^ 32; decide, fun v hv => (by cases hv), by show 0 < 256; decide,
    fun v hv => (by cases hv), by show 0 < 256; decide, fun v hv => (by cases hv), fun v hv => (by cases hv),
    fun v hv => (by cases hv), fun v hv => (by cases hv), by show 0 < 65536; decide, fun v hv => (by cases hv)⟩
  exact ht

/-- Streaming one channel of bands whose effects have no identifiers. -/
theorem streamed (ts d : Nat) (text : Str) (htext : text.length < 256) (h : Experience) (bands : List Band) (hts : ts < 2 ^ 32) (hd : 0 < d) (hd2 : d < 2 ^ 24)
    (hs : h.Spaced) (hp : h.prune = oneChannel ts text bands) (hb : ∀ b ∈ bands, Fresh b)
    (hn : (bands.flatMap (·.effects)).length ≤ 65536) (he : ∀ b ∈ bands, b.effects.length < 65536)
    (hc : bands.length ≤ 256) (hdense : ∀ b ∈ bands, ∀ t, eventsIn t (t + d) b.effects ≤ 7000)
    (hev : ((bands.flatMap (·.effects)).flatMap Effect.eventTimes).length ≤ 4000000) :
    ∃ file r, writeStream h d = .ok file ∧ readStream file = .ok (true, some r) ∧ r.timescale = some ts ∧
      List.Forall₂ (fun b b' => b'.bandType = b.bandType ∧
        ∃ m, b'.effects = (withIds m b.effects).map (Effect.receivedIn b.bandType)) bands r.allBands := by
  have hone : [textChannel text bands].flatMap (·.bands) = bands := by simp [textChannel]
  have hfc : FreshChannels ts d [textChannel text bands] := by
    refine ⟨fun c hc => ?_, List.nodup_singleton _, fun c hc => ?_, fun c hc b hb' => ?_, ?_, fun c hc b hb' => ?_, ?_,
      fun c hc b hb' => ?_, ?_, ?_⟩
    · rw [List.mem_singleton.mp hc]
      exact header_fits text htext bands
    · rw [List.mem_singleton.mp hc]
      exact Nat.zero_le _
    · rw [List.mem_singleton.mp hc] at hb'
      exact .inl (hb b hb')
    · rw [hone]; exact hn
    · rw [List.mem_singleton.mp hc] at hb'
      exact he b hb'
    · rw [hone]; exact hc
    · rw [List.mem_singleton.mp hc] at hb'
      exact hdense b hb'
    · rw [hone]; exact hev
    · rw [hone, List.filter_eq_nil_iff.mpr]
      · exact Nat.zero_le _
      · intro b hb'
        simpa using keyframeBand_ne (hb b hb').bandType
  obtain ⟨file, r, f1, f2, f3, p, f4, f5⟩ := streamed_channels ts d h _ hts hd hd2 hs hp hfc
  refine ⟨file, r, f1, f2, f3, ?_⟩
  have hall : r.allBands = p.channels.flatMap (·.bands) := by simp [Experience.allBands, f4]
  rw [hall]
  obtain ⟨ch, hch⟩ : ∃ ch, p.channels = [ch] := by
    have := f5.length_eq
    exact List.length_eq_one_iff.mp this.symm
  rw [hch] at f5 ⊢
  have f6 := (List.forall₂_cons.mp f5).1.2
  simp only [List.flatMap_cons, List.flatMap_nil, List.append_nil]
  rw [List.forall₂_iff_get] at f6 ⊢
  refine ⟨f6.1, fun i h1 h2 => ?_⟩
  obtain ⟨g1, m, g2⟩ := f6.2 i h1 h2
  have hby : Effect.receivedBy (bands.get ⟨i, h1⟩).bandType = Effect.receivedIn (bands.get ⟨i, h1⟩).bandType := by
    funext e
    unfold Effect.receivedBy
    rw [if_neg (keyframeBand_ne (hb _ (List.get_mem _ _)).bandType)]
  exact ⟨by rw [g1]; rfl, m, by rw [g2]; exact congrArg (fun f => List.map f _) hby⟩

/-! ### Effects that are ready to be streamed -/

theorem rising_length {xs : List Int} (hp : xs.Pairwise (· < ·)) {a L : Int} (h : ∀ x ∈ xs, a ≤ x ∧ x ≤ L)
    (ha : a ≤ L + 1) : (xs.length : Int) ≤ L + 1 - a := by
  induction xs generalizing a with
  | nil => simp; omega
  | cons x xs ih =>
    obtain ⟨p1, p2⟩ := List.pairwise_cons.mp hp
    have hx := h x List.mem_cons_self
    have := ih p2 (a := x + 1) (fun y hy => ⟨p1 y hy, (h y (List.mem_cons_of_mem _ hy)).2⟩) (by omega)
    simp only [List.length_cons]
    push_cast
    omega

/-- What streaming needs of an effect. -/
structure FreshEffect (bandType : Nat) (e : Effect) : Prop where
  id : e.id = -1
  basis : e.effectType = EffectType.Basis
  sendable : ({ e with id := 0 } : Effect).Sendable bandType
  times : e.eventTimes.Pairwise (· ≤ ·)
  filled : e.keyframes ≠ []
  positioned : ∀ k ∈ e.keyframes, k.relativePosition.isSome
  bounds : ∀ t ∈ e.eventTimes, e.position ≤ t ∧ t ≤ e.position + e.length ∧ 0 ≤ t ∧ t < 2 ^ 24

theorem fresh_band {b : Band} (hh : b.HeaderFits) (ht : KeyframeBand b.bandType) (hs : b.Sequential)
    (he : ∀ e ∈ b.effects, FreshEffect b.bandType e) (hf : b.effects ≠ []) (hl : ∀ e ∈ b.effects, 0 ≤ e.length) :
    Fresh b := by
  refine ⟨hh, ht, ⟨?_, sequential_ordered hl hs, fun e h => .inl (he e h).basis, fun e h _ => (he e h).filled,
    fun e h => (he e h).positioned⟩, fun e h => ⟨(he e h).id, (he e h).basis, (he e h).sendable⟩,
    fun e h t ht => ⟨((he e h).bounds t ht).2.2.1, ((he e h).bounds t ht).2.2.2⟩, hf⟩
  rw [List.pairwise_flatMap]
  refine ⟨fun e h => (he e h).times, hs.imp_of_mem (fun {a c} ha hc hac x hx y hy => ?_)⟩
  have h1 := ((he a ha).bounds x hx).2.1
  have h2 := ((he c hc).bounds y hy).1
  omega

/-- In a band of such effects no two events are at one time. -/
theorem fresh_dense {b : Band} (hs : b.Sequential) (he : ∀ e ∈ b.effects, FreshEffect b.bandType e)
    (hl : ∀ e ∈ b.effects, e.eventTimes.Pairwise (· < ·)) (d : Nat) (t : Int) : eventsIn t (t + d) b.effects ≤ d := by
  have hp : (b.effects.flatMap Effect.eventTimes).Pairwise (· < ·) := by
    rw [List.pairwise_flatMap]
    refine ⟨hl, hs.imp_of_mem (fun {a c} ha hc hac x hx y hy => ?_)⟩
    have h1 := ((he a ha).bounds x hx).2.1
    have h2 := ((he c hc).bounds y hy).1
    omega
  have h := rising_length (hp.sublist List.filter_sublist) (a := t) (L := t + d - 1)
    (xs := (b.effects.flatMap Effect.eventTimes).filter (fun x => decide (t ≤ x ∧ x < t + d))) (fun x hx => by
      have := of_decide_eq_true (List.mem_filter.mp hx).2
      omega) (by omega)
  unfold eventsIn
  omega

/-! ### What is void -/

theorem prune_same {b : Band} (h : ∀ e ∈ b.effects, e.keyframes ≠ []) : b.prune = b := by
  unfold Band.prune
  rw [List.filter_eq_self.mpr]
  intro e he
  simp only [decide_eq_true_eq]
  exact fun hv => h e he hv.2.2

/-- No band is void. -/
theorem bands_prune {bands : List Band} (hr : ∀ b ∈ bands, b.effects ≠ [] ∧ ∀ e ∈ b.effects, e.keyframes ≠ []) (text : Str) :
    (textChannel text bands).prune = textChannel text bands := by
  have h1 : bands.map Band.prune = bands := by
    conv_rhs => rw [← List.map_id bands]
    exact List.map_congr_left (fun b hb => prune_same (hr b hb).2)
  have h2 : bands.filter (fun b => !b.effects.isEmpty) = bands := List.filter_eq_self.mpr (fun b hb => by
    simp [(hr b hb).1])
  unfold Channel.prune textChannel
  simp only [h1, h2]

theorem bands_spaced (ts : Nat) (text : Str) {bands : List Band}
    (hr : ∀ b ∈ bands, b.effects ≠ [] ∧ ∀ e ∈ b.effects, e.keyframes ≠ []) : (oneChannel ts text bands).Spaced := by
  refine ⟨fun p hp => ?_, List.isChain_singleton _⟩
  rw [List.mem_singleton.mp hp]
  refine ⟨fun c hc => ?_, List.isChain_singleton _⟩
  rw [List.mem_singleton.mp hc]
  refine ⟨fun b hb => ⟨?_⟩, ?_⟩
  · rw [List.isChain_iff_getElem]
    intro i hi hv
    exact absurd hv.2.2 ((hr b hb).2 _ (List.getElem_mem _))
  · show bands.IsChain _
    rw [List.isChain_iff_getElem]
    intro i hi _
    have := hr _ (List.getElem_mem hi)
    exact ⟨prune_same this.2, this.1⟩

/-! ### What is received -/

theorem effects_received {bands bs : List Band} (h : List.Forall₂ (fun b b' : Band => b'.bandType = b.bandType ∧
      ∃ m, b'.effects = (withIds m b.effects).map (Effect.receivedIn b.bandType)) bands bs) (t : Nat) :
    ((bs.filter (fun b => b.bandType = t)).flatMap (·.effects)).map Effect.anonymous =
      ((bands.filter (fun b => b.bandType = t)).flatMap (·.effects)).map
        (fun e => (e.receivedIn t).anonymous) := by
  have key : ∀ (t n : Nat) (es : List Effect), ((withIds n es).map (Effect.receivedIn t)).map Effect.anonymous =
      es.map (fun e => (e.receivedIn t).anonymous) := by
    intro t n es
    rw [List.map_map]
    exact withIds_map (Effect.anonymous ∘ Effect.receivedIn t) (fun e i => by
      simp only [Function.comp, Effect.receivedIn]
      split <;> rfl) es n
  induction h with
  | nil => rfl
  | @cons b b' _ _ h _ ih =>
    obtain ⟨h1, m, h2⟩ := h
    by_cases ht : b.bandType = t
    · rw [List.filter_cons_of_pos (by simp [h1, ht]), List.filter_cons_of_pos (by simp [ht]), List.flatMap_cons,
        List.flatMap_cons, List.map_append, List.map_append, ih, h2, key, ht]
    · rw [List.filter_cons_of_neg (by simp [h1, ht]), List.filter_cons_of_neg (by simp [ht]), ih]

theorem oneChannel_prune (ts : Nat) (text : Str) (bands bands' : List Band) (h : (textChannel text bands).prune = textChannel text bands')
    (hne : bands' ≠ []) : (oneChannel ts text bands).prune = oneChannel ts text bands' := by
  unfold oneChannel imported Experience.prune Perception.prune
  simp only [List.map_cons, List.map_nil, h]
  rw [List.filter_cons_of_pos (by simp; exact hne)]
  simp
  exact hne

theorem oneChannel_void (ts : Nat) (text : Str) (bands : List Band) (h : (textChannel text bands).prune = textChannel text []) :
    (oneChannel ts text bands).prune = { timescale := some ts } := by
  unfold oneChannel imported Experience.prune Perception.prune
  simp only [List.map_cons, List.map_nil, h]
  rw [List.filter_cons_of_neg (by simp [textChannel])]
  simp

/-- A file that holds nothing. -/
theorem streamed_void (ts d : Nat) (h : Experience) (hts : ts < 2 ^ 32) (hd : 0 < d) (hd2 : d < 2 ^ 24) (hs : h.Spaced)
    (hv : h.prune = { timescale := some ts }) :
    ∃ file r, writeStream h d = .ok file ∧ readStream file = .ok (true, some r) ∧ r.timescale = some ts ∧ r.allBands = [] := by
  have hfit : ({ timescale := some ts } : Experience).assignIds.StreamFits d := by
    refine ⟨⟨by show 0 < 256; decide, by show 4 < 256; decide, by show 1 < 256; decide, by show 0 < 256; decide,
      by show 0 < 256; decide, by show 0 < 256; decide, fun a ha => (by cases ha)⟩, hts, by show 0 ≤ 1; decide,
      fun p hp => (by cases hp), List.nodup_nil, List.nodup_nil, by show 0 ≤ 256; decide⟩
  obtain ⟨file, f1, f2⟩ := c57_streamed_partial h d hd hd2 hs (by rw [hv]; exact hfit) (by
    rw [hv]
    exact fun b hb => (by cases hb)) (by
    rw [hv]
    exact ⟨fun p hp => (by cases hp), fun p hp => (by cases hp), fun b hb => (by cases hb), by show 0 ≤ 4000000; decide,
      by show 0 ≤ 9000000; decide⟩)
  refine ⟨file, _, f1, f2, ?_, ?_⟩
  · rw [hv]; rfl
  · rw [hv]; rfl

end Haptics.Imported
