import Verif.Stream.SyncLemmas
import Verif.Stream.JoinLemmas

/-
Lemmas for C103 and C106: the units of a stream, and what is read from some unit on.
-/
namespace Haptics

theorem Experience.InitFits.synced {g : Experience} (h : g.unsynced.InitFits) : g.InitFits := by
  have hh := h.header
  exact ⟨⟨hh.version, hh.profile, hh.level, hh.date, hh.description, hh.avatarCount, hh.avatars⟩, h.perceptions,
    h.libraries, h.channels, h.bands, ⟨h.clear.perceptions, h.clear.channels⟩, h.count⟩

theorem content_before {pd : Nat} {frames : List Frame} {c : Nat} (h : InTime pd frames c) :
    ∀ x ∈ frames.flatMap Frame.content, x.1 + pd ≤ clockAfter pd frames c := by
  induction frames generalizing c with
  | nil => simp
  | cons f fs ih =>
    intro x hx
    rw [List.flatMap_cons, List.mem_append] at hx
    rcases hx with hx | hx
    · have := le_clockAfter pd fs (f.next pd c)
      cases f with
      | data t bodies =>
        obtain ⟨b, -, rfl⟩ := List.mem_map.mp hx
        obtain ⟨⟨rfl, -⟩, -⟩ := h
        exact this
      | silence n => cases hx
      | sync t => cases hx
    · exact ih h.2 x hx

theorem content_after {pd : Nat} {frames : List Frame} {c : Nat} (h : InTime pd frames c) :
    ∀ x ∈ frames.flatMap Frame.content, c ≤ x.1 := by
  induction frames generalizing c with
  | nil => simp
  | cons f fs ih =>
    intro x hx
    rw [List.flatMap_cons, List.mem_append] at hx
    rcases hx with hx | hx
    · cases f with
      | data t bodies =>
        obtain ⟨b, -, rfl⟩ := List.mem_map.mp hx
        obtain ⟨⟨rfl, -⟩, -⟩ := h
        exact le_refl _
      | silence n => cases hx
      | sync t => cases hx
    · refine le_trans ?_ (ih h.2 x hx)
      cases f <;> simp only [Frame.next] <;> omega

theorem Band.since_start {ts d : Nat} {b : Band} (h : b.EffectsFit d ∨ b.BlocksFit ts d) :
    b.during (fun x => decide (0 ≤ x)) = b := by
  rcases h with h | h
  · have hne := keyframeBand_ne h.bandType
    unfold Band.during
    rw [if_neg hne]
    have h1 : b.effects.filter (fun e => e.eventTimes.any (fun x => decide ((0 : Int) ≤ x))) = b.effects := by
      rw [List.filter_eq_self]
      intro e he
      have hev := h.events e he
      have hn : e.eventTimes ≠ [] := by
        unfold Effect.eventTimes
        split
        · rename_i hb
          rw [Ne, List.map_eq_nil_iff]
          exact h.sequential.keyframes e he hb
        · simp
      obtain ⟨x, hx⟩ := List.exists_mem_of_ne_nil _ hn
      exact List.any_eq_true.mpr ⟨x, hx, decide_eq_true (hev x hx).1⟩
    have h2 : b.effects.map (Effect.during (fun x => decide (0 ≤ x))) = b.effects := by
      conv_rhs => rw [← List.map_id b.effects]
      refine List.map_congr_left fun e he => ?_
      unfold Effect.during
      split
      · rename_i hb
        have : e.keyframes.filter (fun k => decide ((0 : Int) ≤ e.timeOf k)) = e.keyframes := by
          rw [List.filter_eq_self]
          intro k hk
          refine decide_eq_true (h.events e he _ ?_).1
          unfold Effect.eventTimes
          rw [if_pos hb]
          exact List.mem_map_of_mem hk
        rw [this]
        show _ = e
        cases e
        rfl
      · rfl
    rw [h1, h2]
  · unfold Band.during
    rw [if_pos h.bandType]
    have : b.effects.filter (fun e => decide ((0 : Int) ≤ e.position)) = b.effects := by
      rw [List.filter_eq_self]
      intro e he
      obtain ⟨sem, -, hb⟩ := h.blocks
      obtain ⟨j, hj⟩ := List.mem_iff_getElem?.mp he
      rw [hb.position j e hj]
      exact decide_eq_true (by positivity)
    rw [this]

theorem since_start {d : Nat} {g : Experience} (hf : g.StreamFits d) : g.since 0 = g := by
  unfold Experience.since Experience.during
  have : g.perceptions.map (Perception.during (fun x => decide (0 ≤ x))) = g.perceptions := by
    conv_rhs => rw [← List.map_id g.perceptions]
    refine List.map_congr_left fun p hp => ?_
    unfold Perception.during
    have : p.channels.map (Channel.during (fun x => decide (0 ≤ x))) = p.channels := by
      conv_rhs => rw [← List.map_id p.channels]
      refine List.map_congr_left fun c hc => ?_
      unfold Channel.during
      have : c.bands.map (Band.during (fun x => decide (0 ≤ x))) = c.bands := by
        conv_rhs => rw [← List.map_id c.bands]
        refine List.map_congr_left fun b hb => ?_
        exact Band.since_start ((((hf.perceptions p hp).channels c hc).bands b hb).2)
      rw [this]
      rfl
    rw [this]
    rfl
  rw [this]

theorem mapAccum_mem_of {α β σ : Type} {f : σ → α → β × σ} {l : List α} {s : σ} {y : β} (h : y ∈ (mapAccum f s l).1) :
    ∃ x ∈ l, ∃ s', y = (f s' x).1 := by
  obtain ⟨x, hx, s', hs⟩ := forall₂_mem (mapAccum_forall₂ f l s).flip h
  exact ⟨x, hx, s', hs⟩

theorem keyframed_assignIds {g : Experience} (h : g.Keyframed) : g.assignIds.Keyframed := by
  intro b hb
  simp only [Experience.allBands, List.mem_flatMap] at hb
  obtain ⟨p, hp, c, hc, hb⟩ := hb
  obtain ⟨p', hp', s1, rfl⟩ := mapAccum_mem_of hp
  obtain ⟨c', hc', s2, rfl⟩ := mapAccum_mem_of hc
  obtain ⟨b', hb', s3, rfl⟩ := mapAccum_mem_of hb
  exact h b' (List.mem_flatMap.mpr ⟨p', hp', List.mem_flatMap.mpr ⟨c', hc', hb'⟩⟩)

theorem filter_parts {α : Type} {p : α → Bool} {l m : List α} (hl : ∀ x ∈ l, p x = false) (hm : ∀ x ∈ m, p x = true) :
    (l ++ m).filter p = m := by
  rw [List.filter_append, List.filter_eq_nil_iff.mpr (fun x hx => by simp [hl x hx]),
    List.filter_eq_self.mpr hm, List.nil_append]

theorem mem_windows {d : Int} {F : List Effect} {n : Nat} : ∀ {time : Int} {j : Nat}, j < n →
    (time + j * d, windowOf (time + j * d) (time + j * d + d) F) ∈ windows d F n time := by
  induction n with
  | zero => intro time j hj; omega
  | succ n ih =>
    intro time j hj
    rw [windows, List.mem_cons]
    cases j with
    | zero => left; simp
    | succ j =>
      right
      have := ih (time := time + d) (j := j) (by omega)
      have e : time + d + (j : Int) * d = time + ((j + 1 : Nat) : Int) * d := by push_cast; ring
      rwa [e] at this

/-- What is sent when there is something to send. -/
theorem sendsAt_mem {d : Nat} (hd : 0 < d) {g : Experience} (hf : g.StreamFits d) {t : Int} (h : g.SendsAt d t) :
    ∃ o ∈ allSendings d (bandsOf g), o.2.1 = t := by
  obtain ⟨b, hb, h⟩ := h
  have hb : b ∈ flatBands g.perceptions := hb
  rw [← bandsOf_flat] at hb
  obtain ⟨x, hx, rfl⟩ := List.mem_map.mp hb
  suffices h : ∃ w ∈ bandSendings d x.band, w.1 = t by
    obtain ⟨w, hw, hwt⟩ := h
    exact ⟨(x, w), List.mem_flatMap.mpr ⟨x, hx, List.mem_map_of_mem hw⟩, hwt⟩
  unfold bandSendings
  split at h
  · rename_i hbt
    rw [if_pos hbt]
    obtain ⟨e, he, het⟩ := h
    exact ⟨_, List.mem_map_of_mem he, het⟩
  · rename_i hbt
    rw [if_neg hbt]
    obtain ⟨⟨m, rfl⟩, e, he, y, hy, h1, h2⟩ := h
    rcases (bandsOf_fits hf x hx).effects with hfx | hfx
    swap
    · exact absurd hfx.bandType hbt
    obtain ⟨h3, h4⟩ := hfx.events e he y hy
    have hd' : (0 : Int) < d := by omega
    have hm0 : 0 ≤ m := by
      by_contra hc
      have : (d : Int) * (m + 1) ≤ 0 := Int.mul_nonpos_of_nonneg_of_nonpos (le_of_lt hd') (by omega)
      rw [Int.mul_add] at this
      omega
    have hm1 : m < 2 ^ 24 := by
      by_contra hc
      have : m ≤ (d : Int) * m := by nlinarith
      omega
    obtain ⟨j, rfl⟩ := Int.eq_ofNat_of_zero_le hm0
    have hw := mem_windows (d := (d : Int)) (F := x.band.effects) (n := 2 ^ 24) (time := 0) (j := j) (by omega)
    refine ⟨_, List.mem_filter.mpr ⟨hw, ?_⟩, by dsimp only; ring⟩
    have : windowOf (0 + (j : Int) * d) (0 + (j : Int) * d + d) x.band.effects ≠ [] := by
      intro hc
      rw [windowOf_nil_iff] at hc
      refine hc y (List.mem_flatMap.mpr ⟨e, he, hy⟩) ?_
      have e : (0 : Int) + (j : Int) * d = d * (j : Int) := by ring
      rw [e]
      exact ⟨h1, h2⟩
    dsimp only
    simpa using this

theorem InTime.due {pd : Nat} : ∀ {frames : List Frame} {c : Nat}, InTime pd frames c → ∀ f ∈ frames, ∃ c', f.DueAt c'
  | f :: fs, c, h, g, hg => by
    rcases List.mem_cons.mp hg with rfl | hg
    · exact ⟨c, h.1⟩
    · exact InTime.due h.2 g hg

/-- How the stream of an experience comes about: `sent` is what is sent, `ip` are the metadata packets, `out` the data packets
and `ops` what they are sent for, and after the first initialization unit come the frames `later`. -/
structure Streamed (h : Experience) (d : Nat) (sent : Experience) (ip out : List Bits)
    (ops : List (AddressedBand × (Int × List Effect))) (later : List Frame) (units : List Bits) : Prop where
  fits : sent.StreamFits d
  init : h.prune.InitFits
  bands : ∀ old, sent.withBands old = h.prune.withBands old
  streams : sent.streams = h.prune.streams
  timescale : sent.timescale = h.timescale
  metadata : initPacketsOf h = .ok ip
  metadataSmall : SmallPackets ip
  sends : List.Forall₂ SentFor out ops
  perm : ops.Perm (allSendings d (bandsOf sent))
  sorted : ops.Pairwise (fun a b => a.2.1 ≤ b.2.1)
  dataSmall : SmallPackets (out.map (writePacket PacketType.Data))
  time : ∀ x o, SentFor x o → o ∈ ops → 32 ≤ x.length ∧ ((splitPacket x).1 : Int) = o.2.1 ∧ o.2.1 < 2 ^ 24
  slots : SlotsFit (out.map splitPacket)
  written : writeUnits h d = .ok units
  encoded : List.Forall₂ (Frame.IsEncoded d 0 (fun u : Nat => writeInitializationUnit
    { time := u, timescale := h.timescale.getD 1000, packetDuration := d } ip)) (.sync 0 :: later) units
  inTime : InTime d (.sync 0 :: later) 0
  content : later.flatMap Frame.content = out.map splitPacket
  syncs : (syncTimes later).map (fun t : Nat => (t : Int)) <+: (h.syncs.drop 1).map (·.timestamp)
  clock : clockAfter d later 0 ≤ 2 ^ 24 + d
  units : ∀ u ∈ units, IsUnit u

theorem streamed (h : Experience) (d : Nat) (hd : 0 < d) (hd2 : d < 2 ^ 24) (hs : h.Spaced)
    (hf : h.prune.assignIds.unsynced.StreamFits d) (hi : h.prune.Identified) (hm : h.prune.assignIds.Modest d) :
    ∃ (ip out : List Bits) (ops : List (AddressedBand × (Int × List Effect))) (later : List Frame) (units : List Bits),
      Streamed h d h.prune.assignIds.unsynced ip out ops later units ∧
      (∀ x l, out.map splitPacket = x :: l → Ahead x.1 l (h.syncs.drop 1) →
        (syncTimes later).map (fun t : Nat => (t : Int)) = (h.syncs.drop 1).map (·.timestamp)) := by
  generalize hsent : h.prune.assignIds.unsynced = sent at hf
  have hinit : h.prune.InitFits := by
    refine Experience.InitFits.synced (assignIds_initFits (d := d) ?_)
    have : h.prune.unsynced.assignIds = sent := by rw [← hsent]; rfl
    rw [this]; exact hf
  have hbo : bandsOf h.prune.assignIds = bandsOf sent := by rw [← hsent]; rfl
  have hids : ∀ i ∈ getEffectsId h.prune, 0 ≤ i := by
    have h1 : h.prune.unsynced.assignIds.StreamFits d := by
      have : h.prune.unsynced.assignIds = sent := by rw [← hsent]; rfl
      rw [this]; exact hf
    exact getEffectsId_nonneg (g := h.prune.unsynced) h1 hi
  have hwd := writeData_spec (sent.timescale.getD 1000) d hd hd2 h.prune hids (by rw [hbo]; exact bandsOf_fits hf)
  rw [hbo] at hwd
  have hms : sent.Modest d := by rw [← hsent]; exact ⟨hm.vertices, hm.libraries, hm.dense, hm.events, hm.blocks⟩
  have hwb : ∀ old, sent.withBands old = h.prune.withBands old := by
    intro old
    rw [← hsent]
    exact (show h.prune.assignIds.unsynced.withBands old = h.prune.assignIds.withBands old from rfl).trans
      (assignIds_withBands _ old)
  have hstr : sent.streams = h.prune.streams := by rw [← hsent]; exact assignIds_streams _
  have htsc : sent.timescale = h.timescale := by rw [← hsent]; rfl
  have hsmall := modest_small_of h d hs sent hinit hf hwd
    (by
      intro p hp c hc
      obtain ⟨s, hs1⟩ := mapAccum_mem Perception.assignIds hp (getEffectsId h.prune)
      obtain ⟨s', hs2⟩ := mapAccum_mem Channel.assignIds hc s
      have := hm.vertices _ hs1 _ hs2
      exact this)
    (by
      intro p hp
      obtain ⟨s, hs1⟩ := mapAccum_mem Perception.assignIds hp (getEffectsId h.prune)
      have := hm.libraries _ hs1
      exact this) hms
  obtain ⟨t1, t2, t3⟩ := prune_tidy h hs
  have hiter : checkHapticComponent^[7] h = h.prune := by
    simp only [Function.iterate_succ_apply, Function.iterate_zero, id_eq, t1, t2]
  obtain ⟨b, hb, hip⟩ := initPacketsOf_eq h h.prune t1 t2 hinit
  have hsi := hsmall _ (.inl hip)
  obtain ⟨out, ops, hw1, hw2, hw3, hw4⟩ := hwd
  have hdp : dataPackets d h.prune = .ok (out.map (writePacket PacketType.Data)) := by
    unfold dataPackets; rw [hw1]; rfl
  have hsd := hsmall _ (.inr hdp)
  have hmem : ∀ o ∈ ops, o ∈ allSendings d (bandsOf sent) := fun o ho => hw3.mem_iff.1 ho
  have htime : ∀ x o, SentFor x o → o ∈ ops → 32 ≤ x.length ∧ ((splitPacket x).1 : Int) = o.2.1 ∧ o.2.1 < 2 ^ 24 := by
    intro x o hxo ho
    have ho := hmem o ho
    simp only [allSendings, List.mem_flatMap, List.mem_map] at ho
    obtain ⟨y, hy, w, hw, rfl⟩ := ho
    obtain ⟨w1, w2, -⟩ := bandSendings_mem (bandsOf_fits hf y hy).effects hw
    obtain ⟨h1, h2⟩ := hxo.timestamp w1 w2
    refine ⟨by omega, ?_, w2⟩
    unfold splitPacket
    dsimp only at h2 ⊢
    rw [h2]
    omega
  have hlen : ∀ x ∈ out, 32 ≤ x.length := by
    intro x hx
    obtain ⟨o, ho, hxo⟩ := forall₂_mem hw2 hx
    exact (htime x o hxo ho).1
  have hx : dataPackets d (checkHapticComponent^[7] h) = .ok ((out.map splitPacket).map timedPacket) := by
    rw [hiter, hdp, List.map_map]
    congr 1
    apply List.map_congr_left
    intro x hx
    exact (timedPacket_split x (hlen x hx)).symm
  have hslots := slotsFit hlen hsd
  obtain ⟨units, later, hu, henc, hin, hcont, hsync, hall, hclk, -⟩ := c49_clock_partial h d hd hd2 _ hip
    (out.map splitPacket) hx (scheduled (bandsOf_fits hf) hw2 hmem hw4 hsd) hslots
  have hclk : clockAfter d later 0 ≤ 2 ^ 24 + d := by
    refine hclk _ fun x hx => ?_
    obtain ⟨y, hy, rfl⟩ := List.mem_map.mp hx
    obtain ⟨o, ho, hyo⟩ := forall₂_mem hw2 hy
    have := htime y o hyo ho
    omega
  have hunits : ∀ u ∈ units, IsUnit u := by
    intro u hu'
    obtain ⟨f, hfm, hfu⟩ := forall₂_mem henc.flip hu'
    refine isUnit_of_frame (fun t => ?_) ?_ hfu
    · refine c14_initialization_is_unit _ _ (metadataPackets_wf hsi) ?_
      have := hsi.total
      rw [← List.flatMap_def] at this
      omega
    · intro t bodies hft
      rw [hft] at hfm
      simp only [List.mem_cons, reduceCtorEq, false_or] at hfm
      exact slot_size hslots hcont hfm
  refine ⟨_, out, ops, later, units, ⟨hf, hinit, hwb, hstr, htsc, hip, hsi, hw2, hw3, hw4, hsd, htime, hslots, hu, henc, hin, hcont, hsync,
    hclk, hunits⟩, hall⟩

/-- The units of a stream, and what is read from any unit on. -/
theorem join_all (h : Experience) (d : Nat) (hd : 0 < d) (hd2 : d < 2 ^ 24) (hs : h.Spaced)
    (hf : h.prune.assignIds.unsynced.StreamFits d) (hi : h.prune.Identified) (hm : h.prune.assignIds.Modest d) :
    ∃ (units : List Bits) (later : List Frame) (init : Nat → Bits),
      writeStream h d = .ok (writeBitset units.flatten) ∧ (∀ u ∈ units, IsUnit u) ∧
      List.Forall₂ (Frame.IsEncoded d 0 init) (.sync 0 :: later) units ∧
      (∀ t, unitTypeOf (init t) = UnitType.Initialization) ∧ InTime d (.sync 0 :: later) 0 ∧
      (syncTimes later).map (fun t : Nat => (t : Int)) <+: (h.syncs.drop 1).map (·.timestamp) ∧
      (h.prune.assignIds.SyncsTimely d →
        (syncTimes later).map (fun t : Nat => (t : Int)) = (h.syncs.drop 1).map (·.timestamp)) ∧
      (∀ k, k < units.length → syncTimes ((Frame.sync 0 :: later).drop k) = [] →
        readStream (writeBitset (units.drop k).flatten) = .ok (true, some { timescale := some 1000 })) ∧
      ∀ (k n t : Nat), k ≤ n → syncTimes (((Frame.sync 0 :: later).take n).drop k) = [] →
        (Frame.sync 0 :: later)[n]? = some (.sync t) → (n = 0 ∨ h.prune.Keyframed) →
        (h.prune.Resendable ∨ syncTimes (later.drop n) = []) →
        readStream (writeBitset (units.drop k).flatten) = .ok (true, some ((h.prune.assignIds.since t).receivedWith
          ((syncTimes ((Frame.sync 0 :: later).drop n)).map h.syncAt))) := by
  obtain ⟨ip, out, ops, later, units, ⟨hf, hinit, hwb, hstr, htsc, hip, hsi, hw2, hw3, hw4, hsd, htime, hslots, hu, henc,
    hin, hcont, hsync, hclk, hunits⟩, hall⟩ := streamed h d hd hd2 hs hf hi hm
  generalize hsent : h.prune.assignIds.unsynced = sent at *
  have hmem : ∀ o ∈ ops, o ∈ allSendings d (bandsOf sent) := fun o ho => hw3.mem_iff.1 ho
  have hskipped : ∀ (init : Nat → Bits) (fs : List Frame) (us : List Bits), (∀ f ∈ fs, f ∈ Frame.sync 0 :: later) →
      List.Forall₂ (Frame.IsEncoded d 0 init) fs us → syncTimes fs = [] →
      ∃ r, Blank r ∧ ∀ all rest, readUnits dispatch all (us ++ rest) {} = readUnits dispatch all rest r := by
    intro init fs us hfs hfu hns
    refine Blank.skip hd2 hfu hns ?_ ?_ {} ⟨rfl, rfl, rfl, rfl, rfl⟩
    · intro t bodies hm
      have hm := hfs _ hm
      simp only [List.mem_cons, reduceCtorEq, false_or] at hm
      obtain ⟨c, -, hne⟩ := hin.due _ (List.mem_cons_of_mem _ hm)
      refine ⟨hne, fun b hb => ?_, slot_size hslots hcont hm⟩
      apply (scheduled (bandsOf_fits hf) hw2 hmem hw4 hsd).fits
      rw [← hcont]
      exact List.mem_flatMap.2 ⟨_, hm, List.mem_map.2 ⟨b, hb, rfl⟩⟩
    · intro n hm
      obtain ⟨c, hc⟩ := hin.due _ (hfs _ hm)
      exact hc
  refine ⟨units, later, _, ?_, hunits, henc, fun t => unitTypeOf_header _ (by decide) _ _ _ _ _, hin, hsync, ?_, ?_, ?_⟩
  · unfold writeStream
    rw [hu]
  · intro htimely
    have hat : ∀ t, h.prune.assignIds.SendsAt d t → ∃ x ∈ out.map splitPacket, t = (x.1 : Int) := by
      intro t ht
      have ht : sent.SendsAt d t := by rw [← hsent]; exact ht
      obtain ⟨o, ho, rfl⟩ := sendsAt_mem hd hf ht
      have ho := hw3.mem_iff.2 ho
      obtain ⟨x, hx, hxo⟩ := forall₂_mem hw2.flip ho
      exact ⟨_, List.mem_map_of_mem hx, (htime x o hxo ho).2.1.symm⟩
    have hsorted : (out.map splitPacket).Pairwise (fun a b => a.1 ≤ b.1) := by
      have := (scheduled (bandsOf_fits hf) hw2 hmem hw4 hsd).ordered
      exact (List.isChain_iff_pairwise (R := fun a b : Nat × Bits => a.1 ≤ b.1)).mp (this.imp fun _ _ h => h.1)
    generalize out.map splitPacket = xs at *
    cases xs with
    | nil =>
      have hnil : h.syncs.drop 1 = [] := by
        rw [List.eq_nil_iff_forall_not_mem]
        intro p hp
        obtain ⟨x, hx, -⟩ := hat _ (htimely.2 p hp).1
        cases hx
      rw [hnil, List.map_nil, List.prefix_nil] at hsync
      rw [hnil, hsync]
      rfl
    | cons x l =>
      refine hall x l rfl ⟨htimely.1, fun p hp => ?_⟩
      obtain ⟨h1, t0, h2, h3⟩ := htimely.2 p hp
      obtain ⟨y, hy, hyt⟩ := hat _ h1
      obtain ⟨z, hz, hzt⟩ := hat _ h3
      have hxz : x.1 ≤ z.1 := by
        rcases List.mem_cons.mp hz with rfl | hz
        · exact le_refl _
        · exact (List.pairwise_cons.mp hsorted).1 z hz
      have hlt : (x.1 : Int) < p.timestamp := by omega
      refine ⟨hlt, ?_⟩
      rcases List.mem_cons.mp hy with rfl | hy
      · omega
      · exact ⟨y, hy, hyt⟩
  · intro k hk hns
    obtain ⟨r, hr, hskip⟩ := hskipped _ _ _ (fun f hf => List.mem_of_mem_drop hf) (List.forall₂_drop k henc) hns
    unfold readStream readFile
    rw [c14_split _ (fun u hu => hunits u (List.mem_of_mem_drop hu))]
    have := hskip (units.drop k) []
    rw [List.append_nil] at this
    dsimp only
    rw [this]
    simp only [readUnits, hr.haptic, hr.timescale]
  intro k0 k t hkk hns hk hkey hres
  obtain ⟨rb, hblank, hskip⟩ := hskipped _ _ _ (fun f hf => List.mem_of_mem_take (List.mem_of_mem_drop hf))
    (List.forall₂_drop k0 (List.forall₂_take k henc)) hns
  have hbu : ∀ u ∈ (units.take k).drop k0, IsUnit u := fun u hu =>
    hunits u (List.mem_of_mem_take (List.mem_of_mem_drop hu))
  have hparts : units.drop k0 = (units.take k).drop k0 ++ units.drop k := by
    conv_lhs => rw [← List.take_append_drop k units]
    rw [List.drop_append_of_le_length]
    rw [List.length_take]
    have h1 := (List.getElem?_eq_some_iff.mp hk).1
    have h2 := henc.length_eq
    omega
  rw [hparts]
  clear hskipped hunits hns
  rw [← List.drop_succ_cons (a := Frame.sync 0)] at hres
  have hcont : (Frame.sync 0 :: later).flatMap Frame.content = out.map splitPacket := hcont
  have hclk : clockAfter d (Frame.sync 0 :: later) 0 ≤ 2 ^ 24 + d := hclk
  have hzero : k = 0 → t = 0 := by
    rintro rfl
    simpa using hk.symm
  generalize (Frame.sync 0 :: later) = frames at *
  have hdrop : frames.drop k = .sync t :: frames.drop (k + 1) := by
    obtain ⟨hk1, hk2⟩ := List.getElem?_eq_some_iff.mp hk
    rw [List.drop_eq_getElem_cons hk1, hk2]
  have henc' := List.forall₂_drop k henc
  rw [hdrop] at henc' ⊢
  have hsplit : frames = frames.take k ++ Frame.sync t :: frames.drop (k + 1) := by
    rw [← hdrop, List.take_append_drop]
  generalize frames.take k = pre at hsplit
  generalize hpost : frames.drop (k + 1) = post at *
  rw [hsplit, InTime_append] at hin
  obtain ⟨hin1, hdue, hin2⟩ := hin
  have hdue : t = clockAfter d pre 0 := hdue
  have hin2 : InTime d post (clockAfter d pre 0) := hin2
  rw [hsplit, clockAfter_append] at hclk
  have hclk : clockAfter d post (clockAfter d pre 0) ≤ 2 ^ 24 + d := hclk
  rw [← hdue] at hin2 hclk
  have hb1 := content_before hin1
  have hb2 := content_after hin2
  rw [← hdue] at hb1
  have hcont2 : pre.flatMap Frame.content ++ post.flatMap Frame.content = out.map splitPacket := by
    rw [← hcont, hsplit, List.flatMap_append, List.flatMap_cons]
    rfl
  -- what is sent from there on
  obtain ⟨out1, out2, rfl, ho1, ho2⟩ := List.map_eq_append_iff.mp hcont2.symm
  obtain ⟨ops1, ops2, hs1, hs2, rfl⟩ : ∃ ops1 ops2, List.Forall₂ SentFor out1 ops1 ∧ List.Forall₂ SentFor out2 ops2 ∧
      ops = ops1 ++ ops2 := by
    refine ⟨ops.take out1.length, ops.drop out1.length, ?_, ?_, (List.take_append_drop _ _).symm⟩
    · have := List.forall₂_take out1.length hw2
      rwa [List.take_left] at this
    · have := List.forall₂_drop out1.length hw2
      rwa [List.drop_left] at this
  have hbefore : ∀ o ∈ ops1, o.2.1 + d ≤ t := by
    intro o ho
    obtain ⟨x, hx, hxo⟩ := forall₂_mem hs1.flip ho
    obtain ⟨-, h2, -⟩ := htime x o hxo (List.mem_append_left _ ho)
    have := hb1 (splitPacket x) (by rw [← ho1]; exact List.mem_map_of_mem hx)
    omega
  have hafter : ∀ o ∈ ops2, (t : Int) ≤ o.2.1 := by
    intro o ho
    obtain ⟨x, hx, hxo⟩ := forall₂_mem hs2.flip ho
    obtain ⟨-, h2, -⟩ := htime x o hxo (List.mem_append_right _ ho)
    have := hb2 (splitPacket x) (by rw [← ho2]; exact List.mem_map_of_mem hx)
    omega
  have hsd2 : SmallPackets (out2.map (writePacket PacketType.Data)) := by
    refine ⟨fun p hp => hsd.each p (by rw [List.map_append]; exact List.mem_append_right _ hp), ?_⟩
    have := hsd.total
    rw [List.map_append, List.flatten_append, List.length_append] at this
    omega
  have hlt : t < 2 ^ 31 := by
    have := le_clockAfter d post t
    omega
  have e1 : h.syncAt = (sent.since t).syncAt := by
    funext u
    unfold Experience.syncAt
    rw [← htsc]
    rfl
  have e2 : ∀ ss, (h.prune.assignIds.since t).receivedWith ss = (sent.since t).receivedWith ss := by
    intro ss
    rw [← hsent]
    rfl
  rw [e1, e2]
  rcases Nat.eq_zero_or_pos k with rfl | hk0
  · obtain rfl := hzero rfl
    have hnil : ops1 = [] := by
      cases ops1 with
      | nil => rfl
      | cons o l =>
        have h1 := hbefore o (by simp)
        have h2 := htime
        obtain ⟨x, hx, hxo⟩ := forall₂_mem hs1.flip (List.mem_cons_self (a := o) (l := l))
        obtain ⟨-, h2, -⟩ := htime x o hxo (by simp)
        omega
    subst hnil
    cases hs1
    rw [show ((0 : Nat) : Int) = 0 from rfl, since_start hf]
    exact read_since hd hd2 hs hinit hip hsi hf hwb hstr htsc hs2 (by simpa using hw3) (by simpa using hw4) hsd2 hlt henc'
      hin2 ho2.symm (by omega) hres hbu hblank hskip
  · have hkey : sent.Keyframed := by
      have hkey := keyframed_assignIds (hkey.resolve_left (by omega))
      rw [← hsent]
      exact hkey
    have hkb : ∀ x ∈ bandsOf sent, x.band.bandType ≠ BandType.WaveletWave := by
      intro x hx
      have : x.band ∈ (bandsOf sent).map (·.band) := List.mem_map_of_mem hx
      rw [bandsOf_flat] at this
      exact hkey _ this
    have hdisj : ∀ o ∈ allSendings d (bandsOf sent), o.2.1 + (d : Int) ≤ t ∨ (t : Int) ≤ o.2.1 := by
      intro o ho
      rcases List.mem_append.mp (hw3.mem_iff.2 ho) with ho | ho
      · exact .inl (hbefore o ho)
      · exact .inr (hafter o ho)
    generalize hlive : (fun x : Int => decide ((t : Int) ≤ x)) = live
    have hl : ∀ x, live x = decide ((t : Int) ≤ x) := by rw [← hlive]; exact fun _ => rfl
    have e3 : sent.since t = sent.during live := by rw [← hlive]; rfl
    rw [e3]
    have hf' := StreamFits.during_mono (live := live) hf hkey (fun x y hxy h => by
      rw [hl, decide_eq_true_eq] at h ⊢; omega)
    refine read_since (ops := ops2.map (fun o => (o.1.during live, o.2))) hd hd2 hs hinit hip hsi hf'
      (fun old => (during_withBands _ _ _).trans (hwb old)) ((during_streams _ _).trans hstr) htsc ?_ ?_ ?_ hsd2 hlt henc'
      hin2 ho2.symm (by omega) hres hbu hblank hskip
    · rw [List.forall₂_map_right_iff]
      exact hs2.imp fun x o hxo => hxo
    · rw [during_bandsOf, allSendings_during hkb (by
        intro o ho
        rcases hdisj o ho with h | h
        · left; intro x _ hx; rw [hl, decide_eq_false_iff_not]; omega
        · right; intro x hx _; rw [hl, decide_eq_true_eq]; omega)]
      refine List.Perm.map _ ?_
      have := hw3.filter (fun o => live o.2.1)
      rwa [filter_parts (fun o ho => by have := hbefore o ho; rw [hl, decide_eq_false_iff_not]; omega)
        (fun o ho => by rw [hl]; exact decide_eq_true (hafter o ho))] at this
    · rw [List.pairwise_map]
      exact (List.pairwise_append.mp hw4).2.1

end Haptics
