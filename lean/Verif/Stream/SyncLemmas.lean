import Verif.Stream.PropsResend
import Verif.Stream.PropsSizes
import Verif.Stream.SpecJoin

/-
Lemmas for C57 and C103: a stream with sync points, read from any of them on.
-/
namespace Haptics

/-! ### What a receiver knows is enough to receive the description again -/

def Channel.stripped (c : Channel) : Channel := { c with bands := c.bands.map (fun b => { b with effects := [] }) }

def Perception.stripped (p : Perception) : Perception := { p with channels := p.channels.map Channel.stripped }

theorem stripped_bare (ps : List Perception) : (ps.map Perception.stripped).map Perception.bare = ps.map Perception.bare := by
  rw [List.map_map]
  refine List.map_congr_left fun p _ => ?_
  simp only [Function.comp, Perception.bare, Perception.stripped, List.map_map]
  congr 1
  refine List.map_congr_left fun c _ => ?_
  simp only [Function.comp, Channel.bare, Channel.stripped, List.map_map]
  rfl

theorem stripped_flat (ps : List Perception) : flatBands (ps.map Perception.stripped) =
    (flatBands ps).map (fun b => { b with effects := [] }) := by
  simp only [flatBands, List.flatMap_map, Perception.stripped, Channel.stripped, List.map_flatMap]

theorem mergeEffect_header (b : Band) (e : Effect) : { mergeEffect b e with effects := [] } = { b with effects := [] } := by
  unfold mergeEffect Band.addEffect
  split
  · split <;> rfl
  · rfl

theorem received_header (o : AddressedBand × (Int × List Effect)) (b : Band) :
    { received o b with effects := [] } = { b with effects := [] } := by
  unfold received
  split
  · rfl
  · generalize o.2.2.map (Effect.receivedIn o.1.band.bandType) = es
    induction es generalizing b with
    | nil => rfl
    | cons e es ih => rw [List.foldl_cons, ih, mergeEffect_header]

theorem applyTo_header (ops : List (AddressedBand × (Int × List Effect))) : ∀ L : List Band,
    (ops.foldl applyTo L).map (fun b => { b with effects := [] }) = L.map (fun b => { b with effects := [] }) := by
  have key : ∀ (o : AddressedBand × (Int × List Effect)) (L : List Band),
      (applyTo L o).map (fun b => { b with effects := [] }) = L.map (fun b => { b with effects := [] }) := by
    intro o L
    unfold applyTo
    generalize o.1.addr.bandId.toNat = n
    induction L generalizing n with
    | nil => cases n <;> rfl
    | cons b L ih =>
      cases n with
      | zero => simp [received_header]
      | succ n => simp [ih]
  induction ops with
  | nil => intro L; rfl
  | cons o ops ih => intro L; rw [List.foldl_cons, ih, key]

theorem forall₂_of_map {α β γ : Type} (f : α → γ) (g : β → γ) {l : List α} {m : List β} (h : l.map f = m.map g) :
    List.Forall₂ (fun a b => f a = g b) l m := by
  induction l generalizing m with
  | nil => cases m with
    | nil => exact .nil
    | cons b m => cases h
  | cons a l ih => cases m with
    | nil => cases h
    | cons b m =>
      rw [List.map_cons, List.map_cons, List.cons.injEq] at h
      exact .cons h.1 (ih h.2)

theorem Knows.all {sent g old : Experience} {ts : Nat} {ops : List (AddressedBand × (Int × List Effect))}
    {done : List (Nat × Bits)} {r : Reader} (hk : Knows sent old ts ops done r) (hwb : sent.withBands old = g.withBands old)
    (hstr : sent.streams = g.streams) : KnowsAll g r := by
  have hrest := hk.rest
  rw [hwb] at hrest
  have hb := hk.bands
  have hbare := hk.bare
  rw [hwb] at hb hbare
  have hflat : flatBands (r.haptic.perceptions.map Perception.stripped) = flatBands (g.withBands old).perceptions := by
    rw [stripped_flat, hb, applyTo_header]
    show _ = flatBands (g.perceptions.map Perception.withBands)
    show (flatBands (g.perceptions.map Perception.withBands)).map _ = _
    rw [flatBands_withBands, List.map_map]
    rfl
  have hps := eq_of_bare ((stripped_bare _).trans hbare) hflat
  have h1 := congrArg Experience.version hrest
  have h2 := congrArg Experience.profile hrest
  have h3 := congrArg Experience.level hrest
  have h4 := congrArg Experience.date hrest
  have h5 := congrArg Experience.description hrest
  refine ⟨h1, h2, h3, h4, h5, ?_, ?_⟩
  · refine (forall₂_of_map Perception.withBands Perception.stripped (m := r.haptic.perceptions) hps.symm).imp ?_
    intro p q hpq
    refine ⟨?_, ?_⟩
    · have := congrArg (fun x : Perception => { x with channels := [] }) hpq
      exact this.symm
    · have := congrArg Perception.channels hpq
      refine (forall₂_of_map Channel.withBands Channel.stripped this).imp ?_
      intro c x hcx
      refine ⟨?_, ?_⟩
      · have := congrArg (fun x : Channel => { x with bands := [] }) hcx
        exact this.symm
      · have := congrArg Channel.bands hcx
        exact (forall₂_of_map Band.receivedHeader (fun b : Band => { b with effects := [] }) this).imp fun b y h => h.symm
  · intro n
    have := streams_find (g.perceptions.flatMap (fun p => p.channels.flatMap (fun c => List.range c.bands.length))) 0 n
    rw [Nat.zero_add] at this
    rw [hk.streams, hstr]
    exact this

/-! ### Reading from a sync point on -/

theorem readUnits_cons (d : Dispatch) (all : List Bits) (u : Bits) (us : List Bits) (r r1 : Reader)
    (h : readUnits d all [u] r = .ok (true, r1)) : readUnits d all (u :: us) r = readUnits d all us r1 := by
  unfold readUnits at h
  conv_lhs => unfold readUnits
  split
  · rename_i e he
    rw [he] at h
    cases h
  · rename_i r' he
    rw [he] at h
    cases h
  · rename_i r' he
    rw [he] at h
    dsimp only at h ⊢
    split
    · rename_i hc
      rw [if_pos hc] at h
      simp only [readUnits, Except.ok.injEq, Prod.mk.injEq, true_and] at h
      rw [h]
    · rename_i hc
      rw [if_neg hc] at h
      simp only [readUnits, Except.ok.injEq, Prod.mk.injEq, true_and] at h
      rw [h]

/-- What reading an initialization unit does to a receiver that knows everything. -/
theorem Knows.resync {h : Experience} {d : Nat} (hs : h.Spaced) (hinit : h.prune.InitFits) {ip : List Bits}
    (hip : initPacketsOf h = .ok ip) (hsi : SmallPackets ip) {sent : Experience}
    (hwb : ∀ old, sent.withBands old = h.prune.withBands old) (hstr : sent.streams = h.prune.streams)
    (hts : h.timescale.getD 1000 < 2 ^ 32) (hres : h.prune.Resendable) {u : Nat} (hu : u < 2 ^ 31) {ss : List Sync}
    {ops : List (AddressedBand × (Int × List Effect))} {done : List (Nat × Bits)} {r : Reader}
    (hk : Knows sent { syncs := ss } (h.timescale.getD 1000) ops done r) :
    ∃ r', readMIHSUnit dispatch (writeInitializationUnit
        { time := u, timescale := h.timescale.getD 1000, packetDuration := d } ip) r = .ok (true, r') ∧ r'.time = u ∧
      Knows sent { syncs := ss ++ [{ timestamp := u, timescale := some (h.timescale.getD 1000) }] }
        (h.timescale.getD 1000) ops done r' := by
  have hread := c36_unit_partial h hs hinit hres ip hip hsi
    { time := u, timescale := h.timescale.getD 1000, packetDuration := d } (by simp) (by dsimp only; omega) hts (by norm_num) (by norm_num)
    (by norm_num) r (hk.all (hwb _) hstr)
  refine ⟨_, hread, by simp, ?_⟩
  refine ⟨hk.bare, ?_, hk.bands, hk.streams, rfl, hk.crc, rfl⟩
  have := hk.rest
  generalize r.haptic = k at this
  obtain ⟨k1, k2, k3, k4, k5, k6, k7, k8, k9⟩ := k
  unfold Experience.withBands Experience.receivedHeader at this ⊢
  simp only [Experience.mk.injEq, true_and, List.nil_append] at this ⊢
  obtain ⟨rfl, rfl, rfl, rfl, rfl, rfl, rfl, rfl⟩ := this
  simp

theorem clock_mem {pd : Nat} {frames : List Frame} {c u : Nat} (h : InTime pd frames c) (hm : Frame.sync u ∈ frames) :
    u ≤ clockAfter pd frames c := by
  induction frames generalizing c with
  | nil => simp at hm
  | cons f fs ih =>
    rcases List.mem_cons.mp hm with rfl | hm
    · obtain ⟨h1, -⟩ := h
      have h1 : u = c := h1
      rw [h1]
      exact le_clockAfter pd (Frame.sync c :: fs) c
    · exact ih h.2 hm

/-- Reading a frame that is due at time `c`, by a receiver whose clock is right unless the frame is a sync point. -/
theorem read_frame {h : Experience} {d : Nat} (hd : 0 < d) (hd2 : d < 2 ^ 24) (hs : h.Spaced) (hinit : h.prune.InitFits)
    {ip : List Bits} (hip : initPacketsOf h = .ok ip) (hsi : SmallPackets ip) {sent : Experience} (hf : sent.StreamFits d)
    (hwb : ∀ old, sent.withBands old = h.prune.withBands old) (hstr : sent.streams = h.prune.streams)
    (htsc : sent.timescale = h.timescale) {out : List Bits} {ops : List (AddressedBand × (Int × List Effect))}
    (hso : List.Forall₂ SentFor out ops) (hperm : ops.Perm (allSendings d (bandsOf sent)))
    (hsorted : ops.Pairwise (fun a b => a.2.1 ≤ b.2.1)) (hsched : ∀ x ∈ out.map splitPacket, PacketFits x)
    (all : List Bits) {f : Frame} {u : Bits}
    (hfu : Frame.IsEncoded d 0 (fun u : Nat => writeInitializationUnit
      { time := u, timescale := h.timescale.getD 1000, packetDuration := d } ip) f u)
    (hres : h.prune.Resendable ∨ syncTimes [f] = []) (ss : List Sync) (done : List (Nat × Bits)) (r : Reader) (c : Nat)
    (hclock : syncTimes [f] = [] → r.time = c) (hdue : f.DueAt c) (hnext : f.next d c < 2 ^ 31)
    (hsz : ∀ t bodies, f = Frame.data t bodies → ((bodies.map dataPacket).flatMap Packet.encode).length / 8 < 2 ^ 28)
    (hpre : done ++ f.content <+: out.map splitPacket)
    (hk : Knows sent { syncs := ss } (h.timescale.getD 1000) ops done r) :
    ∃ r1, readUnits dispatch all [u] r = .ok (true, r1) ∧ r1.time = f.next d c ∧
      Knows sent { syncs := ss ++ (syncTimes [f]).map (fun u => { timestamp := u, timescale := some (h.timescale.getD 1000) }) }
        (h.timescale.getD 1000) ops (done ++ f.content) r1 := by
  have hts : h.timescale.getD 1000 < 2 ^ 32 := by
    have := hf.timescale
    rw [htsc] at this
    exact this
  have htsg : sent.timescale.getD 1000 = h.timescale.getD 1000 := by rw [htsc]
  have hclear : sent.Clear := ⟨hf.perceptionIds, hf.channelIds⟩
  by_cases hf' : syncTimes [f] = []
  · have hno : ∀ t, f ≠ .sync t := by
      rintro t rfl
      cases hf'
    obtain rfl := hclock hf'
    obtain ⟨r1, h1, h2, h3⟩ := readUnits_frames
      (receives hd hd2 hclear { syncs := ss } (h.timescale.getD 1000) (by rw [← htsg]; exact bandsOf_fits hf) hso hperm hsorted)
      all hd2 (by norm_num : 0 < 16) hsched (List.Forall₂.cons hfu .nil)
      (fun done t r ht => absurd (List.mem_singleton.mp ht).symm (hno t)) done r ⟨hdue, trivial⟩
      (by
        intro g hg
        obtain ⟨g', hg'⟩ := hg
        have := le_clockAfter d g' (clockAfter d g r.time)
        rw [← clockAfter_append, hg'] at this
        have e : clockAfter d [f] r.time = f.next d r.time := rfl
        omega)
      (fun t bodies hm => hsz t bodies (List.mem_singleton.mp hm).symm)
      (by rw [List.flatMap_cons, List.flatMap_nil, List.append_nil]; exact hpre) hk
    refine ⟨r1, h1, h2, ?_⟩
    rw [hf', List.map_nil, List.append_nil]
    simpa using h3
  · cases f with
    | data t bodies => exact absurd rfl hf'
    | silence n => exact absurd rfl hf'
    | sync t =>
      have hfu : u = _ := hfu
      have hdue : t = c := hdue
      have hr : h.prune.Resendable := by
        rcases hres with hres | hres
        · exact hres
        · cases hres
      have ht : t < 2 ^ 31 := by rw [hdue]; exact hnext
      obtain ⟨r1, h1, h2, h3⟩ := hk.resync (d := d) hs hinit hip hsi hwb hstr hts hr ht
      refine ⟨r1, ?_, by rw [h2, hdue]; rfl, ?_⟩
      · unfold readUnits
        rw [hfu, h1]
        dsimp only
        rw [if_neg (by rw [h3.crc]; simp)]
        rfl
      · have e : Frame.content (.sync t) = [] := rfl
        rw [e, List.append_nil]
        exact h3

/-- Reading frames, some of which are sync points. -/
theorem read_frames {h : Experience} {d : Nat} (hd : 0 < d) (hd2 : d < 2 ^ 24) (hs : h.Spaced) (hinit : h.prune.InitFits)
    {ip : List Bits} (hip : initPacketsOf h = .ok ip) (hsi : SmallPackets ip) {sent : Experience} (hf : sent.StreamFits d)
    (hwb : ∀ old, sent.withBands old = h.prune.withBands old) (hstr : sent.streams = h.prune.streams)
    (htsc : sent.timescale = h.timescale) {out : List Bits} {ops : List (AddressedBand × (Int × List Effect))}
    (hso : List.Forall₂ SentFor out ops) (hperm : ops.Perm (allSendings d (bandsOf sent)))
    (hsorted : ops.Pairwise (fun a b => a.2.1 ≤ b.2.1)) (hsched : ∀ x ∈ out.map splitPacket, PacketFits x)
    (all : List Bits) {frames : List Frame} {us : List Bits}
    (henc : List.Forall₂ (Frame.IsEncoded d 0 (fun u : Nat => writeInitializationUnit
      { time := u, timescale := h.timescale.getD 1000, packetDuration := d } ip)) frames us) :
    (h.prune.Resendable ∨ syncTimes frames = []) → ∀ (ss : List Sync) (done : List (Nat × Bits)) (r : Reader),
      InTime d frames r.time → clockAfter d frames r.time < 2 ^ 31 →
      (∀ t bodies, Frame.data t bodies ∈ frames → ((bodies.map dataPacket).flatMap Packet.encode).length / 8 < 2 ^ 28) →
      done ++ frames.flatMap Frame.content <+: out.map splitPacket →
      Knows sent { syncs := ss } (h.timescale.getD 1000) ops done r →
      ∃ r', readUnits dispatch all us r = .ok (true, r') ∧
        Knows sent { syncs := ss ++ (syncTimes frames).map (fun u => { timestamp := u, timescale := some (h.timescale.getD 1000) }) }
          (h.timescale.getD 1000) ops (done ++ frames.flatMap Frame.content) r' := by
  induction henc with
  | nil => intro _ ss done r _ _ _ _ hk; exact ⟨r, rfl, by simpa [syncTimes] using hk⟩
  | @cons f u fs us hfu henc ih =>
    intro hres ss done r hin hclk hsz hpre hk
    obtain ⟨hdue, hin⟩ := hin
    have hnext : f.next d r.time < 2 ^ 31 := lt_of_le_of_lt (le_clockAfter d fs _) hclk
    have hres' : h.prune.Resendable ∨ syncTimes fs = [] := by
      rcases hres with hres | hres
      · exact .inl hres
      · right
        unfold syncTimes at hres ⊢
        rw [List.filterMap_cons] at hres
        split at hres
        · exact hres
        · cases hres
    obtain ⟨r1, h1, h2, h3⟩ := read_frame hd hd2 hs hinit hip hsi hf hwb hstr htsc hso hperm hsorted hsched all hfu
      (by
        rcases hres with hres | hres
        · exact .inl hres
        · right
          unfold syncTimes at hres ⊢
          rw [← List.singleton_append, List.filterMap_append, List.append_eq_nil_iff] at hres
          exact hres.1) ss done r r.time (fun _ => rfl) hdue hnext
      (fun t bodies hm => hsz t bodies (by rw [hm]; exact List.mem_cons_self))
      (by
        refine List.IsPrefix.trans ?_ hpre
        rw [List.flatMap_cons, ← List.append_assoc]
        exact List.prefix_append _ _) hk
    obtain ⟨r', q1, q2⟩ := ih hres' _ _ r1 (by rw [h2]; exact hin) (by rw [h2]; exact hclk)
      (fun t bodies hm => hsz t bodies (List.mem_cons_of_mem _ hm))
      (by rw [List.append_assoc, ← List.flatMap_cons]; exact hpre) h3
    refine ⟨r', by rw [readUnits_cons _ _ _ _ _ _ h1]; exact q1, ?_⟩
    have e : syncTimes (f :: fs) = syncTimes [f] ++ syncTimes fs := by
      unfold syncTimes
      rw [← List.filterMap_append]
      rfl
    rw [e, List.map_append, ← List.append_assoc, List.flatMap_cons, ← List.append_assoc]
    exact q2

/-! ### Receivers that know nothing yet -/

/-- A receiver that knows nothing of an experience yet. -/
structure Blank (r : Reader) : Prop where
  haptic : r.haptic = {}
  streams : r.bandStreams = []
  waitSync : r.waitSync = false
  crc : r.crc.nbPackets = 0
  timescale : r.timescale = 1000

theorem readUInt_some {n : Nat} (hn : 0 < n) (s : Bits) (h : n ≤ s.length) : ∃ v, readUInt n s = .ok (v, s.drop n) := by
  unfold readUInt rdBits
  rw [if_neg (by omega), if_pos h]
  exact ⟨_, rfl⟩

/-- Data of a perception that is not known is rejected. -/
theorem readData_blank (payload : Bits) (h : 9 ≤ payload.length) (r : Reader) (hr : r.haptic = {})
    (hw : r.waitSync = false) : dispatch PacketType.Data payload r = .ok (false, r) := by
  have e : dispatch PacketType.Data payload r = readData payload r := rfl
  rw [e]
  obtain ⟨v, hv⟩ := readUInt_some (n := DB_AU_TYPE) (by decide) payload (by simp only [DB_AU_TYPE]; omega)
  have hlen : MDPERCE_ID ≤ (payload.drop DB_AU_TYPE).length := by
    rw [List.length_drop]; simp only [DB_AU_TYPE, MDPERCE_ID]; omega
  obtain ⟨w, hw'⟩ := readUInt_some (n := MDPERCE_ID) (by decide) _ hlen
  have e1 : ({ r with waitSync := false } : Reader) = r := by rw [← hw]
  have e2 : readDataBody r (payload.drop DB_AU_TYPE) = .error .fail := by
    unfold readDataBody
    simp only [Rd.bind_apply, hw', hr, searchPerceptionInHaptic]
    rfl
  unfold readData
  rw [hv, hw]
  simp only [Bool.false_and, Bool.false_eq_true, if_false, e1, e2]

/-- Units without sync points mean nothing to such a receiver. -/
theorem Blank.skip {d : Nat} (hd2 : d < 2 ^ 24) {init : Nat → Bits} {frames : List Frame} {us : List Bits}
    (h : List.Forall₂ (Frame.IsEncoded d 0 init) frames us) : syncTimes frames = [] →
    (∀ t bodies, Frame.data t bodies ∈ frames → bodies ≠ [] ∧ (∀ b ∈ bodies, PacketFits (t, b)) ∧
      ((bodies.map dataPacket).flatMap Packet.encode).length / 8 < 2 ^ 28) →
    (∀ n, Frame.silence n ∈ frames → n < 2 ^ 24) → ∀ r, Blank r →
    ∃ r', Blank r' ∧ ∀ all rest, readUnits dispatch all (us ++ rest) r = readUnits dispatch all rest r' := by
  induction h with
  | nil => intro _ _ _ r hr; exact ⟨r, hr, fun _ _ => rfl⟩
  | @cons f u fs us hfu henc ih =>
    intro hs hdata hsil r hr
    have key : ∃ r1, readMIHSUnit dispatch u r = .ok (true, r1) ∧ Blank r1 := by
      cases f with
      | sync t => simp [syncTimes, Frame.syncTime] at hs
      | silence n =>
        obtain ⟨s, hs', rfl⟩ := hfu
        have hread := c15_unit_partial dispatch UnitType.Silent s 0 n (by decide) hs' (by decide) (hsil n (by simp)) []
          (by simp) (by simp) (by simp) r
        simp only [List.flatMap_nil, List.append_nil, List.length_nil, Nat.zero_div, Nat.cast_zero,
          unitEffect, processAll] at hread
        exact ⟨_, hread, hr.haptic, hr.streams, by simp [hr.waitSync], hr.crc, hr.timescale⟩
      | data t bodies =>
        simp only [Frame.IsEncoded] at hfu
        obtain ⟨hne, hb, hsz⟩ := hdata t bodies (by simp)
        have hwf : ∀ p ∈ bodies.map dataPacket, p.WF := by
          intro p hp
          rw [List.mem_map] at hp
          obtain ⟨b, hbm, rfl⟩ := hp
          exact dataPacket_wf (hb b hbm)
        have hread := c15_unit_partial dispatch UnitType.Temporal (if bodies.all isRAU then 0 else 1) 0 d
          (by decide) (by split <;> omega) (by decide) hd2 (bodies.map dataPacket) hwf hsz (by
            intro hne'
            rw [List.getLast_map]
            have h1 := (hb _ (List.getLast_mem hne)).header
            have h2 := fillBitset_length (bodies.getLast hne)
            simp only [dataPacket]
            dsimp only at h1
            omega) r
        rw [← hfu] at hread
        refine ⟨{ r with waitSync := r.waitSync && !((if bodies.all isRAU then 0 else 1) == 0), layer := 0
                         packetDuration := d }, ?_, ?_⟩
        · rw [hread]
          have hq1 : ({ r with waitSync := r.waitSync && !((if bodies.all isRAU then 0 else 1) == 0), layer := 0
                               packetDuration := d } : Reader).haptic = {} := hr.haptic
          have hq2 : ({ r with waitSync := r.waitSync && !((if bodies.all isRAU then 0 else 1) == 0), layer := 0
                               packetDuration := d } : Reader).waitSync = false := by simp [hr.waitSync]
          unfold unitEffect
          generalize ({ r with waitSync := r.waitSync && !((if bodies.all isRAU then 0 else 1) == 0), layer := 0
                               packetDuration := d } : Reader) = q at hq1 hq2
          cases bodies with
          | nil => exact absurd rfl hne
          | cons b bs =>
            rw [List.map_cons, processAll]
            rw [show (dataPacket b).type = PacketType.Data from rfl, readData_blank _ (by
                have h1 := (hb b (by simp)).header
                have h2 := fillBitset_length b
                simp only [dataPacket, List.length_append]
                dsimp only at h1
                omega) q hq1 hq2]
            rfl
        · exact ⟨hr.haptic, hr.streams, by simp [hr.waitSync], hr.crc, hr.timescale⟩
    obtain ⟨r1, h1, hb1⟩ := key
    have hs' : syncTimes fs = [] := by
      unfold syncTimes at hs ⊢
      rw [List.filterMap_cons] at hs
      split at hs
      · exact hs
      · cases hs
    obtain ⟨r', hb', h'⟩ := ih hs' (fun t b hm => hdata t b (List.mem_cons_of_mem _ hm))
      (fun n hm => hsil n (List.mem_cons_of_mem _ hm)) r1 hb1
    refine ⟨r', hb', fun all rest => ?_⟩
    rw [List.cons_append, ← h' all rest]
    conv_lhs => unfold readUnits
    rw [h1]
    dsimp only
    rw [if_neg (by rw [hb1.crc]; simp)]

/-- What a receiver has got that has read everything. -/
theorem Knows.received {sent : Experience} {d ts : Nat} (hd : 0 < d) (hf : sent.StreamFits d)
    (hts : sent.timescale.getD 1000 = ts) {out : List Bits} {ops : List (AddressedBand × (Int × List Effect))}
    (hso : List.Forall₂ SentFor out ops) (hperm : ops.Perm (allSendings d (bandsOf sent)))
    (hsorted : ops.Pairwise (fun a b => a.2.1 ≤ b.2.1)) {times : List Nat} {r' : Reader}
    (hk : Knows sent { syncs := times.map (fun u : Nat => { timestamp := u, timescale := some ts }) } ts ops (out.map splitPacket) r') :
    { r'.haptic with timescale := some r'.timescale } = sent.receivedWith (times.map sent.syncAt) := by
  have hflat : flatBands r'.haptic.perceptions = flatBands (sent.perceptions.map Perception.receivedStream) := by
    have e1 : flatBands (sent.perceptions.map Perception.receivedStream)
        = (bandsOf sent).map (fun x => x.band.receivedStream) := by
      have : (bandsOf sent).map (fun x => x.band.receivedStream)
          = ((bandsOf sent).map (·.band)).map Band.receivedStream := by rw [List.map_map]; rfl
      rw [this, bandsOf_flat]
      simp only [flatBands, List.flatMap_map, Perception.receivedStream, Channel.receivedStream,
        List.map_flatMap]
    have e2 : ∀ old, flatBands (sent.withBands old).perceptions = (bandsOf sent).map (fun x => x.band.receivedHeader) := by
      intro old
      have : (bandsOf sent).map (fun x => x.band.receivedHeader)
          = ((bandsOf sent).map (·.band)).map Band.receivedHeader := by rw [List.map_map]; rfl
      rw [this, bandsOf_flat]
      exact flatBands_withBands _
    rw [hk.bands, e1, e2, List.length_map, List.take_of_length_le (by rw [hso.length_eq])]
    apply List.ext_getElem?
    intro n
    rw [applyTo_get, List.getElem?_map, List.getElem?_map]
    cases hn : (bandsOf sent)[n]? with
    | none => rfl
    | some x =>
      have hxm := List.mem_of_getElem? hn
      have hxn : x.addr.bandId.toNat = n := by
        rw [bandsOf_eq, numbered_get] at hn
        obtain ⟨t, -, rfl⟩ := Option.map_eq_some_iff.1 hn
        simp
      have h1 := ops_of_band hd (bandsOf_fits hf) hperm hsorted x hxm
      rw [hxn] at h1
      simp only [Option.map_some, h1]
      rw [received_all hd x (bandsOf_fits hf x hxm) _ rfl]
      rfl
  have hps := eq_of_bare (hk.bare.trans (receivedStream_bare _ _)) hflat
  have hrest := hk.rest
  have hts' := hk.timescale
  generalize r'.haptic = k at hps hrest
  obtain ⟨k1, k2, k3, k4, k5, k6, k7, k8, k9⟩ := k
  unfold Experience.withBands Experience.receivedHeader at hrest
  simp only [Experience.mk.injEq, true_and, List.nil_append] at hrest
  obtain ⟨rfl, rfl, rfl, rfl, rfl, rfl, rfl, rfl⟩ := hrest
  dsimp only at hps
  subst hps
  rw [hts']
  unfold Experience.receivedWith Experience.receivedStream Experience.syncAt
  rw [← hts]

/-- A receiver that knows nothing yet reads the unit of a sync point. -/
theorem Blank.init {h : Experience} {d : Nat} (hs : h.Spaced) (hinit : h.prune.InitFits)
    {ip : List Bits} (hip : initPacketsOf h = .ok ip) (hsi : SmallPackets ip) {sent : Experience}
    (hwb : ∀ old, sent.withBands old = h.prune.withBands old) (hstr : sent.streams = h.prune.streams)
    (hts : h.timescale.getD 1000 < 2 ^ 32) (ops : List (AddressedBand × (Int × List Effect)))
    {t : Nat} (ht : t < 2 ^ 31) {u0 : Bits} (hu0 : u0 = writeInitializationUnit
      { time := t, timescale := h.timescale.getD 1000, packetDuration := d } ip) {rb : Reader} (hblank : Blank rb) :
    ∃ r0, readMIHSUnit dispatch u0 rb = .ok (true, r0) ∧ r0.time = t ∧
      Knows sent { syncs := [{ timestamp := t, timescale := some (h.timescale.getD 1000) }] } (h.timescale.getD 1000) ops [] r0 := by
  obtain ⟨t1, t2, t3⟩ := prune_tidy h hs
  obtain ⟨b, hb, hip'⟩ := initPacketsOf_eq h h.prune t1 t2 hinit
  rw [hip] at hip'
  cases hip'
  have hri := read_init_of h.prune t3 b hb hsi
    { time := (t : Int), timescale := h.timescale.getD 1000, packetDuration := d } (by simp) (by dsimp only; omega) hts
    (show _ < _ by norm_num) (show _ < _ by norm_num) (show _ < _ by norm_num) rb _
    (run_metadata h.prune hinit (rb.timed _) (by rw [Reader.timed, hblank.haptic]) hblank.streams b hb) rfl rfl
  rw [← hu0] at hri
  generalize hr0 : ({ rb.timed { time := (t : Int), timescale := h.timescale.getD 1000, packetDuration := d } with
      haptic := h.prune.withBands (rb.timed { time := (t : Int), timescale := h.timescale.getD 1000, packetDuration := d }).haptic
      bandStreams := h.prune.streams } : Reader) = r0 at hri
  have hr0t : r0.time = t := by rw [← hr0]; rfl
  have hP0 : Knows sent { syncs := [{ timestamp := t, timescale := some (h.timescale.getD 1000) }] } (h.timescale.getD 1000)
      ops [] r0 := by
    rw [← hr0]
    refine ⟨by rw [hwb]; rfl, by rw [hwb, Reader.timed, hblank.haptic]; rfl, by rw [hwb]; rfl, hstr.symm, rfl, hblank.crc, rfl⟩
  exact ⟨r0, hri, hr0t, hP0⟩

/-- A receiver that starts to read at a sync point gets the experience `sent` that is sent from there on. -/
theorem read_since {h : Experience} {d : Nat} (hd : 0 < d) (hd2 : d < 2 ^ 24) (hs : h.Spaced) (hinit : h.prune.InitFits)
    {ip : List Bits} (hip : initPacketsOf h = .ok ip) (hsi : SmallPackets ip) {sent : Experience} (hf : sent.StreamFits d)
    (hwb : ∀ old, sent.withBands old = h.prune.withBands old) (hstr : sent.streams = h.prune.streams)
    (htsc : sent.timescale = h.timescale) {out : List Bits} {ops : List (AddressedBand × (Int × List Effect))}
    (hso : List.Forall₂ SentFor out ops) (hperm : ops.Perm (allSendings d (bandsOf sent)))
    (hsorted : ops.Pairwise (fun a b => a.2.1 ≤ b.2.1)) (hsd : SmallPackets (out.map (writePacket PacketType.Data)))
    {t : Nat} (ht : t < 2 ^ 31) {frames : List Frame} {units : List Bits}
    (henc : List.Forall₂ (Frame.IsEncoded d 0 (fun u : Nat => writeInitializationUnit
      { time := u, timescale := h.timescale.getD 1000, packetDuration := d } ip)) (.sync t :: frames) units)
    (hin : InTime d frames t) (hcont : frames.flatMap Frame.content = out.map splitPacket)
    (hclk : clockAfter d frames t < 2 ^ 31)
    (hres : h.prune.Resendable ∨ syncTimes frames = []) {before : List Bits} (hbefore : ∀ u ∈ before, IsUnit u)
    {rb : Reader} (hblank : Blank rb)
    (hskip : ∀ all rest, readUnits dispatch all (before ++ rest) {} = readUnits dispatch all rest rb) :
    readStream (writeBitset (before ++ units).flatten) =
      .ok (true, some (sent.receivedWith ((syncTimes (.sync t :: frames)).map sent.syncAt))) := by
  have hm : ∀ o ∈ ops, o ∈ allSendings d (bandsOf sent) := fun o ho => hperm.mem_iff.1 ho
  have hlen : ∀ x ∈ out, 32 ≤ x.length := by
    intro x hx
    obtain ⟨o, ho, hxo⟩ := forall₂_mem hso hx
    have ho := hm o ho
    simp only [allSendings, List.mem_flatMap, List.mem_map] at ho
    obtain ⟨y, hy, w, hw, rfl⟩ := ho
    obtain ⟨w1, w2, -⟩ := bandSendings_mem (bandsOf_fits hf y hy).effects hw
    have := (hxo.timestamp w1 w2).1
    omega
  have hslots := slotsFit hlen hsd
  have hsched := scheduled (bandsOf_fits hf) hso hm hsorted hsd
  have hts : h.timescale.getD 1000 < 2 ^ 32 := by
    have := hf.timescale
    rw [htsc] at this
    exact this
  have htsg : sent.timescale.getD 1000 = h.timescale.getD 1000 := by rw [htsc]
  -- the units
  have hunits : ∀ u ∈ units, IsUnit u := by
    obtain ⟨t1, t2, -⟩ := prune_tidy h hs
    obtain ⟨b, -, hip'⟩ := initPacketsOf_eq h h.prune t1 t2 hinit
    rw [hip] at hip'
    cases hip'
    intro u hu'
    obtain ⟨f, hfm, hfu⟩ := forall₂_mem henc.flip hu'
    refine isUnit_of_frame (fun t => ?_) ?_ hfu
    · refine c14_initialization_is_unit _ _ (metadataPackets_wf hsi) ?_
      have := hsi.total
      rw [← List.flatMap_def] at this
      omega
    · intro t bodies hft
      rw [hft] at hfm
      simp only [List.mem_cons, reduceCtorEq, false_or] at hfm
      exact slot_size hslots hcont hfm
  cases henc with
  | @cons _ u0 _ us hu0 henc =>
  obtain ⟨r0, hri, hr0t, hP0⟩ := hblank.init (d := d) hs hinit hip hsi hwb hstr hts ops ht hu0
  obtain ⟨r', hr1, hk⟩ := read_frames hd hd2 hs hinit hip hsi hf hwb hstr htsc hso hperm hsorted hsched.fits
    (before ++ u0 :: us) henc
    hres _ [] r0 (by rw [hr0t]; exact hin) (by rw [hr0t]; exact hclk)
    (fun t bodies hm => slot_size hslots hcont hm) (by rw [hcont, List.nil_append]) hP0
  rw [List.nil_append, hcont] at hk
  unfold readStream readFile
  rw [c14_split (before ++ u0 :: us) (by
    intro u hu
    rcases List.mem_append.mp hu with hu | hu
    · exact hbefore u hu
    · exact hunits u hu)]
  dsimp only
  rw [hskip]
  unfold readUnits
  rw [hri]
  dsimp only
  rw [if_neg (by rw [hP0.crc]; simp), hr1]
  dsimp only
  congr 3
  exact hk.received hd hf htsg hso hperm hsorted (times := t :: syncTimes frames)

end Haptics
