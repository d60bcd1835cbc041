import Verif.Stream.JoinRead
import Verif.Stream.SpecLoss

/-
Lemmas for C106.
-/
namespace Haptics

theorem arrived_mem {α : Type} : ∀ {got : List Bool} {l : List α} {x : α}, x ∈ arrived got l → x ∈ l
  | [], l, x, h => by cases l <;> simp [arrived] at h
  | g :: gs, [], x, h => by simp [arrived] at h
  | g :: gs, y :: l, x, h => by
    unfold arrived at h
    split at h
    · rcases List.mem_cons.mp h with rfl | h
      · simp
      · exact List.mem_cons_of_mem _ (arrived_mem h)
    · exact List.mem_cons_of_mem _ (arrived_mem h)

theorem heardAt_le {pd : Nat} : ∀ {got : List Bool} {frames : List Frame} {c : Nat} {x : Int},
    heardAt pd got frames c x = true → (c : Int) ≤ x
  | [], frames, c, x, h => by cases frames <;> simp [heardAt] at h
  | g :: gs, [], c, x, h => by simp [heardAt] at h
  | g :: gs, f :: fs, c, x, h => by
    unfold heardAt at h
    rw [Bool.or_eq_true, Bool.and_eq_true, decide_eq_true_eq] at h
    rcases h with h | h
    · exact h.2.1
    · have := heardAt_le h
      have h2 : c ≤ f.next pd c := by cases f <;> simp only [Frame.next] <;> omega
      omega

theorem heardAt_head {pd : Nat} {g : Bool} {gs : List Bool} {f : Frame} {fs : List Frame} {c : Nat} {x : Int}
    (h1 : (c : Int) ≤ x) (h2 : x < (f.next pd c : Int)) : heardAt pd (g :: gs) (f :: fs) c x = g := by
  unfold heardAt
  have : heardAt pd gs fs (f.next pd c) x = false := by
    by_contra hc
    have := heardAt_le (Bool.eq_true_of_not_eq_false hc)
    omega
  rw [this, Bool.or_false, decide_eq_true ⟨h1, h2⟩, Bool.and_true]

theorem heardAt_tail {pd : Nat} {g : Bool} {gs : List Bool} {f : Frame} {fs : List Frame} {c : Nat} {x : Int}
    (h : (f.next pd c : Int) ≤ x) : heardAt pd (g :: gs) (f :: fs) c x = heardAt pd gs fs (f.next pd c) x := by
  conv_lhs => unfold heardAt
  rw [decide_eq_false (by omega), Bool.and_false, Bool.false_or]

/-- The packets of the units that arrive are those at the times at which something is heard. -/
theorem heard_content {pd : Nat} (hpd : 0 < pd) : ∀ (got : List Bool) {frames : List Frame} {c : Nat},
    got.length = frames.length → InTime pd frames c →
    (frames.flatMap Frame.content).filter (fun x => heardAt pd got frames c x.1) =
      (arrived got frames).flatMap Frame.content
  | [], frames, c, hl, h => by
    cases frames with
    | nil => rfl
    | cons f fs => simp at hl
  | g :: gs, [], c, hl, h => by simp at hl
  | g :: gs, f :: fs, c, hl, h => by
    have ih := heard_content hpd gs (frames := fs) (c := f.next pd c) (by simpa using hl) h.2
    rw [List.flatMap_cons, List.filter_append]
    have e2 : (fs.flatMap Frame.content).filter (fun x => heardAt pd (g :: gs) (f :: fs) c x.1) =
        (fs.flatMap Frame.content).filter (fun x => heardAt pd gs fs (f.next pd c) x.1) := by
      refine List.filter_congr fun x hx => heardAt_tail ?_
      exact_mod_cast content_after h.2 x hx
    have e1 : f.content.filter (fun x => heardAt pd (g :: gs) (f :: fs) c x.1) = if g then f.content else [] := by
      cases f with
      | data t bodies =>
        obtain ⟨⟨rfl, -⟩, -⟩ := h
        have : ∀ x ∈ Frame.content (.data t bodies), heardAt pd (g :: gs) (Frame.data t bodies :: fs) t x.1 = g := by
          intro x hx
          obtain ⟨b, -, rfl⟩ := List.mem_map.mp hx
          exact heardAt_head (le_refl _) (by simp only [Frame.next]; omega)
        rw [List.filter_congr this]
        cases g
        · exact List.filter_eq_nil_iff.mpr (by simp)
        · exact List.filter_eq_self.mpr (by simp)
      | silence n => cases g <;> rfl
      | sync t => cases g <;> rfl
    rw [e1, e2, ih]
    conv_rhs => unfold arrived
    cases g
    · rfl
    · rfl

/-- Every packet is either heard as a whole or not at all. -/
theorem heard_whole {pd : Nat} : ∀ (got : List Bool) {frames : List Frame} {c : Nat}, InTime pd frames c →
    ∀ x ∈ frames.flatMap Frame.content,
      (∀ y : Int, (x.1 : Int) ≤ y → y < x.1 + pd → heardAt pd got frames c y = false) ∨
      (∀ y : Int, (x.1 : Int) ≤ y → y < x.1 + pd → heardAt pd got frames c y = true)
  | [], frames, c, h, x, hx => by
    left
    intro y _ _
    cases frames <;> rfl
  | g :: gs, [], c, h, x, hx => by cases hx
  | g :: gs, f :: fs, c, h, x, hx => by
    rw [List.flatMap_cons, List.mem_append] at hx
    rcases hx with hx | hx
    · cases f with
      | data t bodies =>
        obtain ⟨⟨rfl, -⟩, -⟩ := h
        obtain ⟨b, -, rfl⟩ := List.mem_map.mp hx
        have : ∀ y : Int, (t : Int) ≤ y → y < t + pd → heardAt pd (g :: gs) (Frame.data t bodies :: fs) t y = g :=
          fun y h1 h2 => heardAt_head h1 (by simp only [Frame.next]; push_cast; exact h2)
        cases g
        · exact .inl this
        · exact .inr this
      | silence n => cases hx
      | sync t => cases hx
    · have hc := content_after h.2 x hx
      have ht : ∀ y : Int, (x.1 : Int) ≤ y →
          heardAt pd (g :: gs) (f :: fs) c y = heardAt pd gs fs (f.next pd c) y :=
        fun y hy => heardAt_tail (by omega)
      rcases heard_whole gs h.2 x hx with hw | hw
      · exact .inl fun y h1 h2 => (ht y h1).trans (hw y h1 h2)
      · exact .inr fun y h1 h2 => (ht y h1).trans (hw y h1 h2)

theorem forall₂_filter {α β : Type} {R : α → β → Prop} {p : α → Bool} {q : β → Bool} {l : List α} {m : List β}
    (h : List.Forall₂ R l m) (hpq : ∀ a b, R a b → b ∈ m → p a = q b) : List.Forall₂ R (l.filter p) (m.filter q) := by
  induction h with
  | nil => exact .nil
  | @cons a b l m hab h ih =>
    have ih := ih (fun a b hr hb => hpq a b hr (List.mem_cons_of_mem _ hb))
    rw [List.filter_cons, List.filter_cons, hpq a b hab (by simp)]
    split
    · exact .cons hab ih
    · exact ih

/-- Reading the units that arrive, by a receiver that knows the experience and whose clock is right unless something has
been lost. -/
theorem read_arrived {h : Experience} {d : Nat} (hd : 0 < d) (hd2 : d < 2 ^ 24) (hs : h.Spaced) (hinit : h.prune.InitFits)
    {ip : List Bits} (hip : initPacketsOf h = .ok ip) (hsi : SmallPackets ip) {sent : Experience} (hf : sent.StreamFits d)
    (hwb : ∀ old, sent.withBands old = h.prune.withBands old) (hstr : sent.streams = h.prune.streams)
    (htsc : sent.timescale = h.timescale) {out : List Bits} {ops : List (AddressedBand × (Int × List Effect))}
    (hso : List.Forall₂ SentFor out ops) (hperm : ops.Perm (allSendings d (bandsOf sent)))
    (hsorted : ops.Pairwise (fun a b => a.2.1 ≤ b.2.1)) (hsched : ∀ x ∈ out.map splitPacket, PacketFits x)
    (all : List Bits) {frames : List Frame} {us : List Bits}
    (henc : List.Forall₂ (Frame.IsEncoded d 0 (fun u : Nat => writeInitializationUnit
      { time := u, timescale := h.timescale.getD 1000, packetDuration := d } ip)) frames us) :
    ∀ (got : List Bool) (lost : Bool) (c : Nat) (ss : List Sync) (done : List (Nat × Bits)) (r : Reader),
      (h.prune.Resendable ∨ syncTimes (arrived got frames) = []) → Resumes lost got frames →
      InTime d frames c → clockAfter d frames c < 2 ^ 31 → (lost = false → r.time = c) →
      (∀ t bodies, Frame.data t bodies ∈ frames → ((bodies.map dataPacket).flatMap Packet.encode).length / 8 < 2 ^ 28) →
      done ++ (arrived got frames).flatMap Frame.content <+: out.map splitPacket →
      Knows sent { syncs := ss } (h.timescale.getD 1000) ops done r →
      ∃ r', readUnits dispatch all (arrived got us) r = .ok (true, r') ∧
        Knows sent { syncs := ss ++ ((syncTimes (arrived got frames)).map (fun u : Nat =>
            ({ timestamp := u, timescale := some (h.timescale.getD 1000) } : Sync))) }
          (h.timescale.getD 1000) ops (done ++ (arrived got frames).flatMap Frame.content) r' := by
  induction henc with
  | nil =>
    intro got lost c ss done r _ _ _ _ _ _ _ hk
    have e1 : arrived got ([] : List Bits) = [] := by cases got <;> rfl
    have e2 : arrived got ([] : List Frame) = [] := by cases got <;> rfl
    rw [e1, e2]
    exact ⟨r, rfl, by simpa [syncTimes] using hk⟩
  | @cons f u fs us hfu henc ih =>
    intro got lost c ss done r hres hgot hin hclk hclock hsz hpre hk
    obtain ⟨hdue, hin⟩ := hin
    have hnext : f.next d c < 2 ^ 31 := lt_of_le_of_lt (le_clockAfter d fs _) hclk
    have hsz' : ∀ t bodies, Frame.data t bodies ∈ fs →
        ((bodies.map dataPacket).flatMap Packet.encode).length / 8 < 2 ^ 28 :=
      fun t bodies hm => hsz t bodies (List.mem_cons_of_mem _ hm)
    cases got with
    | nil => exact ⟨r, rfl, by simpa [syncTimes, arrived] using hk⟩
    | cons g gs =>
      obtain ⟨hg1, hg2⟩ := hgot
      cases g with
      | false =>
        have e1 : arrived (false :: gs) (u :: us) = arrived gs us := rfl
        have e2 : arrived (false :: gs) (f :: fs) = arrived gs fs := rfl
        rw [e2] at hres hpre ⊢
        rw [e1]
        refine ih gs _ (f.next d c) ss done r hres hg2 hin hclk ?_ hsz' hpre hk
        intro hl
        simp only [Bool.not_false, Bool.true_and, Bool.or_eq_false_iff] at hl
        rw [hclock hl.1]
        cases f with
        | data t bodies => exact absurd hl.2 (by simp [Frame.syncTime])
        | silence n => exact absurd hl.2 (by simp [Frame.syncTime])
        | sync t => rfl
      | true =>
        have e1 : arrived (true :: gs) (u :: us) = u :: arrived gs us := rfl
        have e2 : arrived (true :: gs) (f :: fs) = f :: arrived gs fs := rfl
        rw [e2] at hres hpre ⊢
        rw [e1]
        have e : syncTimes (f :: arrived gs fs) = syncTimes [f] ++ syncTimes (arrived gs fs) := by
          unfold syncTimes
          rw [← List.filterMap_append]
          rfl
        rw [e] at hres ⊢
        have hpre' := hpre
        rw [List.flatMap_cons, ← List.append_assoc] at hpre
        obtain ⟨r1, h1, h2, h3⟩ := read_frame hd hd2 hs hinit hip hsi hf hwb hstr htsc hso hperm hsorted hsched all hfu
          (hres.imp_right fun h => (List.append_eq_nil_iff.mp h).1) ss done r c
          (by
            intro hns
            apply hclock
            by_contra hc
            obtain ⟨t, rfl⟩ := hg1 (Bool.eq_true_of_not_eq_false hc) rfl
            cases hns) hdue hnext
          (fun t bodies hm => hsz t bodies (by rw [hm]; exact List.mem_cons_self))
          ((List.prefix_append _ _).trans hpre) hk
        obtain ⟨r', q1, q2⟩ := ih gs _ (f.next d c) _ _ r1 (hres.imp_right fun h => (List.append_eq_nil_iff.mp h).2) hg2 hin
          hclk (fun _ => h2) hsz' hpre h3
        refine ⟨r', by rw [readUnits_cons _ _ _ _ _ _ h1]; exact q1, ?_⟩
        rw [List.map_append, ← List.append_assoc, List.flatMap_cons, ← List.append_assoc]
        exact q2

/-- The same for a receiver that knows nothing yet. -/
theorem read_first {h : Experience} {d : Nat} (hd : 0 < d) (hd2 : d < 2 ^ 24) (hs : h.Spaced) (hinit : h.prune.InitFits)
    {ip : List Bits} (hip : initPacketsOf h = .ok ip) (hsi : SmallPackets ip) {sent : Experience} (hf : sent.StreamFits d)
    (hwb : ∀ old, sent.withBands old = h.prune.withBands old) (hstr : sent.streams = h.prune.streams)
    (htsc : sent.timescale = h.timescale) {out : List Bits} {ops : List (AddressedBand × (Int × List Effect))}
    (hso : List.Forall₂ SentFor out ops) (hperm : ops.Perm (allSendings d (bandsOf sent)))
    (hsorted : ops.Pairwise (fun a b => a.2.1 ≤ b.2.1)) (hsched : ∀ x ∈ out.map splitPacket, PacketFits x)
    (all : List Bits) {frames : List Frame} {us : List Bits}
    (henc : List.Forall₂ (Frame.IsEncoded d 0 (fun u : Nat => writeInitializationUnit
      { time := u, timescale := h.timescale.getD 1000, packetDuration := d } ip)) frames us) :
    ∀ (got : List Bool) (c : Nat) (r : Reader), Blank r → got.length = frames.length → true ∈ got →
      (h.prune.Resendable ∨ (syncTimes (arrived got frames)).length ≤ 1) → Resumes true got frames →
      InTime d frames c → clockAfter d frames c < 2 ^ 31 →
      (∀ t bodies, Frame.data t bodies ∈ frames → ((bodies.map dataPacket).flatMap Packet.encode).length / 8 < 2 ^ 28) →
      (arrived got frames).flatMap Frame.content <+: out.map splitPacket →
      ∃ r', readUnits dispatch all (arrived got us) r = .ok (true, r') ∧
        Knows sent { syncs := ((syncTimes (arrived got frames)).map (fun u : Nat =>
            ({ timestamp := u, timescale := some (h.timescale.getD 1000) } : Sync))) }
          (h.timescale.getD 1000) ops ((arrived got frames).flatMap Frame.content) r' := by
  have hts : h.timescale.getD 1000 < 2 ^ 32 := by
    have := hf.timescale
    rw [htsc] at this
    exact this
  induction henc with
  | nil =>
    intro got c r _ hl hmem
    rw [List.length_nil, List.length_eq_zero_iff] at hl
    subst hl
    cases hmem
  | @cons f u fs us hfu henc ih =>
    intro got c r hblank hl hmem hres hgot hin hclk hsz hpre
    obtain ⟨hdue, hin⟩ := hin
    have hnext : f.next d c < 2 ^ 31 := lt_of_le_of_lt (le_clockAfter d fs _) hclk
    have hsz' : ∀ t bodies, Frame.data t bodies ∈ fs →
        ((bodies.map dataPacket).flatMap Packet.encode).length / 8 < 2 ^ 28 :=
      fun t bodies hm => hsz t bodies (List.mem_cons_of_mem _ hm)
    cases got with
    | nil => cases hmem
    | cons g gs =>
      obtain ⟨hg1, hg2⟩ := hgot
      cases g with
      | false =>
        have e1 : arrived (false :: gs) (u :: us) = arrived gs us := rfl
        have e2 : arrived (false :: gs) (f :: fs) = arrived gs fs := rfl
        rw [e2] at hres hpre ⊢
        rw [e1]
        exact ih gs (f.next d c) r hblank (by simpa using hl) (by simpa using hmem) hres hg2 hin hclk hsz' hpre
      | true =>
        obtain ⟨t, rfl⟩ := hg1 rfl rfl
        have hfu : u = _ := hfu
        have hdue : t = c := hdue
        subst hdue
        have e1 : arrived (true :: gs) (u :: us) = u :: arrived gs us := rfl
        have e2 : arrived (true :: gs) (Frame.sync t :: fs) = .sync t :: arrived gs fs := rfl
        rw [e2] at hres hpre ⊢
        rw [e1]
        have e : syncTimes (Frame.sync t :: arrived gs fs) = t :: syncTimes (arrived gs fs) := rfl
        rw [e] at hres ⊢
        obtain ⟨r0, hri, hr0t, hP0⟩ := hblank.init (d := d) hs hinit hip hsi hwb hstr hts ops hnext hfu
        obtain ⟨r', q1, q2⟩ := read_arrived hd hd2 hs hinit hip hsi hf hwb hstr htsc hso hperm hsorted hsched all henc gs _ _ _ []
          r0 (hres.imp_right fun h => by
            rw [List.length_cons] at h
            exact List.length_eq_zero_iff.mp (by omega)) hg2 hin hclk (fun _ => hr0t) hsz'
          (by rw [List.nil_append]; exact hpre) hP0
        refine ⟨r', ?_, q2⟩
        unfold readUnits
        rw [hri]
        dsimp only
        rw [if_neg (by rw [hP0.crc]; simp)]
        exact q1

end Haptics
