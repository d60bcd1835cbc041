import Verif.Stream.SpecResend
import Verif.Stream.StreamPlaces
import Verif.Stream.PropsStream

/-
C35: channels are attached to the perceptions they name.  C36: receiving the description of an experience
again changes nothing.
-/
namespace Haptics

/-! ### C35 -/

theorem attach_nil (p : Perception) : attach [] p = p := by
  unfold attach
  simp

theorem attach_cons (x : Int × Channel) (xs : List (Int × Channel)) (p : Perception) :
    attach xs (attach [x] p) = attach (x :: xs) p := by
  unfold attach
  dsimp only
  by_cases h : x.1 = p.id
  · simp [h]
  · simp [h]

theorem map_attach_split {P1 P2 : List Perception} {p : Perception} (x : Int × Channel)
    (hn : ((P1 ++ p :: P2).map (·.id)).Nodup) (hp : p.id = x.1) :
    (P1 ++ p :: P2).map (attach [x])
      = P1 ++ { p with channels := p.channels ++ [x.2.receivedHeader] } :: P2 := by
  have hother : ∀ q : Perception, q.id ≠ x.1 → attach [x] q = q := by
    intro q hq
    unfold attach
    simp [Ne.symm hq]
  rw [List.map_append, List.map_cons] at hn ⊢
  have h1 := (List.nodup_append.1 hn).2.2
  have h2 := (List.nodup_cons.1 (List.nodup_append.1 hn).2.1).1
  congr 1
  · conv_rhs => rw [← List.map_id P1]
    apply List.map_congr_left
    intro q hq
    exact hother q (by rw [← hp]; exact h1 q.id (List.mem_map_of_mem hq) p.id (by simp))
  · congr 1
    · unfold attach
      simp [hp]
    · conv_rhs => rw [← List.map_id P2]
      apply List.map_congr_left
      intro q hq
      refine hother q (fun h => h2 ?_)
      rw [hp, ← h]
      exact List.mem_map_of_mem hq

/-- **C35, partial.** Channel packets in any order, for any perceptions: each channel is attached to the
perception its packet names, in the order of the packets, and nothing else changes – provided that the
identifiers of all channels of all perceptions differ.  If they differ only within each perception this is
false: `c35_negation`. -/
theorem c35_channels_partial (xs : List (Int × Channel)) : ∀ (r : Reader),
    (r.haptic.perceptions.map (·.id)).Nodup →
    (r.haptic.channelIds ++ xs.map (fun x => x.2.id)).Nodup →
    (∀ x ∈ xs, U 8 x.1 ∧ x.2.HeaderFits ∧ x.1 ∈ r.haptic.perceptions.map (·.id)) →
    processAll dispatch (xs.map (fun x =>
        ⟨PacketType.MetadataChannel, fillBitset (writeMetadataChannel x.1 x.2)⟩)) r
      = .ok (true, { r with haptic :=
          { r.haptic with perceptions := r.haptic.perceptions.map (attach xs) } }) := by
  induction xs with
  | nil =>
    intro r _ _ _
    have e : r.haptic.perceptions.map (attach []) = r.haptic.perceptions := by
      conv_rhs => rw [← List.map_id r.haptic.perceptions]
      exact List.map_congr_left (fun p _ => attach_nil p)
    rw [e]
    rfl
  | cons x xs ih =>
    intro r hn hc hx
    obtain ⟨hx1, hx2, hx3⟩ := hx x (by simp)
    obtain ⟨p, hp, hpid⟩ := List.mem_map.1 hx3
    obtain ⟨P1, P2, hsplit⟩ := List.append_of_mem hp
    have hi : r.haptic.perceptions.findIdx? (fun q => q.id == x.1) = some P1.length := by
      rw [hsplit]
      refine findIdx?_split _ _ _ _ (fun y hy => ?_) (by simp [hpid])
      rw [beq_eq_false_iff_ne, ← hpid]
      rw [hsplit, List.map_append, List.map_cons, List.nodup_append] at hn
      exact hn.2.2 y.id (List.mem_map_of_mem hy) p.id (by simp)
    have hs : searchChannelInHaptic r.haptic x.2.receivedHeader.id = none :=
      searchChannel_none (fun hm => (List.nodup_append.1 hc).2.2 _ hm _
        (by simp [Channel.receivedHeader]) rfl)
    have e1 := map_attach_split x (by rw [← hsplit]; exact hn) hpid
    rw [← hsplit] at e1
    have hstep : ∀ rest, dispatch PacketType.MetadataChannel
        (fillBitset (writeMetadataChannel x.1 x.2) ++ rest) r
          = .ok (true, { r with haptic :=
            { r.haptic with perceptions := r.haptic.perceptions.map (attach [x]) } }) := by
      intro rest
      refine handle_ok (c17_channel r.haptic x.1 x.2 hx1 P1.length hi hx2) r (onChannel r) _ ?_ rest
      unfold onChannel
      dsimp only
      rw [hs]
      dsimp only
      unfold Experience.atPerception
      rw [if_pos (by rw [hsplit]; simp), e1]
      conv_lhs => rw [hsplit, modify_split]
      rfl
    have hrun := (RunsTo.one (p := ⟨PacketType.MetadataChannel, fillBitset (writeMetadataChannel x.1 x.2)⟩)
      hstep) (xs.map (fun x => ⟨PacketType.MetadataChannel, fillBitset (writeMetadataChannel x.1 x.2)⟩))
    rw [List.map_cons]
    rw [List.singleton_append] at hrun
    rw [hrun]
    have hids : (r.haptic.perceptions.map (attach [x])).map (·.id) = r.haptic.perceptions.map (·.id) := by
      rw [List.map_map]; rfl
    have := ih { r with haptic := { r.haptic with perceptions := r.haptic.perceptions.map (attach [x]) } }
      (by dsimp only; rw [hids]; exact hn)
      (by
        have e2 : ({ r.haptic with perceptions := r.haptic.perceptions.map (attach [x]) }
            : Experience).channelIds
            = P1.flatMap (fun p => p.channels.map (·.id)) ++ ((p.channels.map (·.id) ++ [x.2.id])
              ++ P2.flatMap (fun p => p.channels.map (·.id))) := by
          unfold Experience.channelIds
          dsimp only
          rw [e1, List.flatMap_append, List.flatMap_cons]
          simp [Channel.receivedHeader]
        have e3 : r.haptic.channelIds = P1.flatMap (fun p => p.channels.map (·.id))
            ++ (p.channels.map (·.id) ++ P2.flatMap (fun p => p.channels.map (·.id))) := by
          unfold Experience.channelIds
          rw [hsplit, List.flatMap_append, List.flatMap_cons]
        dsimp only
        rw [e2]
        rw [e3] at hc
        refine hc.perm ?_
        rw [List.map_cons]
        generalize P1.flatMap (fun p => p.channels.map (·.id)) = A
        generalize p.channels.map (·.id) = B
        generalize P2.flatMap (fun p => p.channels.map (·.id)) = C
        generalize xs.map (fun x => x.2.id) = D
        simp only [List.append_assoc]
        refine List.Perm.append_left _ (List.Perm.append_left _ ?_)
        exact (List.perm_middle (a := x.2.id) (l₁ := C) (l₂ := D)))
      (fun y hy => by
        obtain ⟨h1, h2, h3⟩ := hx y (by simp [hy])
        exact ⟨h1, h2, by dsimp only; rw [hids]; exact h3⟩)
    rw [this]
    dsimp only
    rw [List.map_map]
    congr 5
    funext p
    exact attach_cons x xs p

/-- What a receiver makes of the units of the stream of an experience. -/
def throughStream (h : Experience) (d : Nat) : Option Experience :=
  match writeUnits h d with
  | .error _ => none
  | .ok units => match readUnits dispatch units units {} with
    | .error _ => none
    | .ok x => some x.2.haptic

/-- **C35, negation.** An experience whose channel identifiers are unique within each perception (which is
what the conformance check asks for, IOJson.cpp:371-383).  The channel packets of the second perception are
taken for packets of known channels: of its channels 5 and 4 only one remains, without bands. -/
theorem c35_negation : ∃ h : Experience,
    (h.perceptions.map (·.id)).Nodup ∧ (∀ p ∈ h.perceptions, (p.channels.map (·.id)).Nodup) ∧
    h.perceptions.map (fun p => p.channels.map (fun c => (c.id, c.bands.map (fun b => b.effects.length))))
      = [[(4, [2])], [(5, [1]), (4, [2])]] ∧
    (throughStream h 128).map (fun e => e.perceptions.map (fun p => p.channels.map (fun c =>
        (c.id, c.bands.map (fun b => b.effects.length)))))
      = some [[(4, [2])], [(4, [])]] := by
  let e : Int → Int → Effect := fun i t => { id := i, position := t, keyframes := [{ relativePosition := some 0 }] }
  refine ⟨{ perceptions :=
      [{ id := 1, channels := [{ id := 4, bands := [{ effects := [e 0 0, e 1 300] }] }] },
       { id := 2
         channels :=
           [{ id := 5, bands := [{ effects := [e 7 0] }] },
            { id := 4, bands := [{ effects := [e 2 0, e 3 300] }] }] }] },
    by decide, by decide, by decide, by decide +kernel⟩

/-- Non-vacuity of `c35_channels_partial`: three channels for two perceptions, in mixed order. -/
example : ∃ (r : Reader) (xs : List (Int × Channel)),
    r.haptic.perceptions.length = 2 ∧ r.haptic.channelIds = [9] ∧ xs.map (·.1) = [1, 2, 1] ∧
    (r.haptic.perceptions.map (·.id)).Nodup ∧ (r.haptic.channelIds ++ xs.map (fun x => x.2.id)).Nodup ∧
    ∀ x ∈ xs, U 8 x.1 ∧ x.2.HeaderFits ∧ x.1 ∈ r.haptic.perceptions.map (·.id) := by
  have hc : ∀ (id : Int), U 16 id → ({ id := id } : Channel).HeaderFits :=
    fun id h => ⟨h, by simp, by simp, by simp, by simp, by simp, by simp, by simp, by simp, by simp,
      by simp, by simp, by simp, by simp, by simp⟩
  refine ⟨{ haptic := { perceptions := [{ id := 1, channels := [{ id := 9 }] }, { id := 2 }] } },
    [(1, { id := 4 }), (2, { id := 5 }), (1, { id := 3 })], rfl, rfl, rfl, by decide, by decide, ?_⟩
  intro x hx
  simp only [List.mem_cons, List.not_mem_nil, or_false] at hx
  rcases hx with rfl | rfl | rfl <;> exact ⟨by simp [U], hc _ (by simp [U]), by decide⟩

/-! ### C36 -/

theorem knowsBand_replace {b x : Band} (h : KnowsBand b x) : x.replaceMetadata b.receivedHeader = x := by
  have e : x = { b.receivedHeader with effects := x.effects } := by rw [← h]
  generalize x.effects = es at e
  subst e
  unfold Band.replaceMetadata Band.receivedHeader Band.curveTypeOrDefault Band.blockLengthOrDefault
  simp only [Band.mk.injEq, true_and, and_true]
  constructor
  · split <;> simp_all
  · split <;> simp_all

theorem knowsChannel_replace {c d : Channel} (h : KnowsChannel c d) :
    d.replaceMetadata c.receivedHeader = d := by
  have e : d = { c.receivedHeader with bands := d.bands } := by rw [← h.1]
  generalize d.bands = bs at e
  subst e
  unfold Channel.replaceMetadata
  simp only [Channel.mk.injEq, true_and, and_true]
  cases c.receivedHeader.referenceDeviceId <;> rfl

theorem knowsPerception_replace {p q : Perception} (h : KnowsPerception p q) (h1 : p.avatarId = p.id)
    (h2 : p.effectSemanticScheme.isSome) :
    q.replaceMetadata p.receivedHeader = { q with effectLibrary := [] } := by
  have e : q = { { p.receivedHeader with effectLibrary := p.effectLibrary.map Effect.received } with
      channels := q.channels } := by rw [← h.1]
  generalize q.channels = cs at e
  subst e
  obtain ⟨s, hs⟩ := Option.isSome_iff_exists.1 h2
  unfold Perception.replaceMetadata Perception.receivedHeader Perception.unitExponentOrDefault
    Perception.perceptionUnitExponentOrDefault
  simp [h1, hs]

theorem KnowsPerception.id_eq {p q : Perception} (h : KnowsPerception p q) : q.id = p.id := by
  have := congrArg Perception.id h.1
  exact this

theorem KnowsChannel.id_eq {p q : Channel} (h : KnowsChannel p q) : q.id = p.id := by
  have := congrArg Channel.id h.1
  exact this

theorem KnowsPerception.library {p q : Perception} (h : KnowsPerception p q) :
    q.effectLibrary = p.effectLibrary.map Effect.received := by
  have := congrArg Perception.effectLibrary h.1
  exact this

theorem forall₂_ids {ps qs : List Perception} (h : List.Forall₂ KnowsPerception ps qs) :
    qs.map (fun p => (p.id, p.channels.map (·.id))) = ps.map (fun p => (p.id, p.channels.map (·.id))) := by
  have hch : ∀ {cs ds : List Channel}, List.Forall₂ KnowsChannel cs ds → ds.map (·.id) = cs.map (·.id) := by
    intro cs ds h
    induction h with
    | nil => rfl
    | cons h _ ih => rw [List.map_cons, List.map_cons, ih, h.id_eq]
  induction h with
  | nil => rfl
  | cons h _ ih => rw [List.map_cons, List.map_cons, ih, h.id_eq, hch h.2]

/-- A perception packet for a known perception empties its library. -/
theorem rerun_perceptions (ps : List Perception) : ∀ (P1 qs : List Perception) (r : Reader),
    List.Forall₂ KnowsPerception ps qs → (∀ p ∈ ps, p.HeaderFits) → (∀ p ∈ ps, p.avatarId = p.id) →
    (∀ p ∈ ps, p.effectSemanticScheme.isSome) → ((P1 ++ qs).map (·.id)).Nodup →
    r.haptic.perceptions = P1 ++ qs →
    RunsTo (ps.map (fun p => packetOf PacketType.MetadataPerception (writeMetadataPerception p))) r
      { r with haptic := { r.haptic with
        perceptions := P1 ++ qs.map (fun q => { q with effectLibrary := [] }) } } := by
  induction ps with
  | nil =>
    intro P1 qs r hk _ _ _ _ hr
    cases hk
    have : ({ r with haptic := { r.haptic with
        perceptions := P1 ++ ([] : List Perception).map (fun q => { q with effectLibrary := [] }) } }
          : Reader) = r := by
      rw [List.map_nil, ← hr]
    rw [this]
    exact .nil r
  | cons p ps ih =>
    intro P1 qs r hk hf ha hs hn hr
    cases hk with
    | cons hq hqs =>
    rename_i q qs
    have hi : searchPerceptionInHaptic r.haptic p.receivedHeader.id = some P1.length := by
      unfold searchPerceptionInHaptic
      rw [hr]
      refine findIdx?_split _ _ _ _ (fun y hy => ?_) (by simpa [Perception.receivedHeader] using hq.id_eq)
      rw [beq_eq_false_iff_ne]
      rw [List.map_append, List.map_cons, List.nodup_append] at hn
      have := hn.2.2 y.id (List.mem_map_of_mem hy) q.id (by simp)
      rw [hq.id_eq] at this
      exact this
    have hrec := ih (P1 ++ [{ q with effectLibrary := [] }]) qs
      { r with haptic := { r.haptic with perceptions := P1 ++ { q with effectLibrary := [] } :: qs } }
      hqs (fun x hx => hf x (by simp [hx])) (fun x hx => ha x (by simp [hx])) (fun x hx => hs x (by simp [hx]))
      (by simpa using hn) (by simp)
    rw [List.map_cons]
    refine .cons (r1 := { r with haptic := { r.haptic with
      perceptions := P1 ++ { q with effectLibrary := [] } :: qs } }) (fun rest => ?_) ?_
    · refine handle_ok (c17_perception p (hf p (by simp))) r (onPerception r) _ ?_ rest
      unfold onPerception
      rw [hi]
      dsimp only
      unfold Experience.replacePerceptionMetadataAt
      rw [hr]
      simp only [Int.not_lt.2 (Int.natCast_nonneg _), if_false, Int.toNat_natCast, List.length_append,
        List.getElem?_append_right (le_refl _), Nat.sub_self, List.getElem?_cons_zero,
        knowsPerception_replace hq (ha p (by simp)) (hs p (by simp))]
      simp
    · have e : P1 ++ [{ q with effectLibrary := [] }] ++ qs.map (fun q => { q with effectLibrary := [] })
          = P1 ++ (q :: qs).map (fun q => { q with effectLibrary := [] }) := by simp
      dsimp only at hrec
      rw [e] at hrec
      exact hrec

/-- The library packets fill the libraries again. -/
theorem rerun_libraries (ps : List Perception) : ∀ (P1 qs : List Perception) (r : Reader),
    List.Forall₂ KnowsPerception ps qs →
    (∀ p ∈ ps, p.HeaderFits ∧ p.effectLibrary.length < 65536 ∧ ∀ e ∈ p.effectLibrary, e.LibFits) →
    ((P1 ++ qs).map (·.id)).Nodup →
    r.haptic.perceptions = P1 ++ qs.map (fun q => { q with effectLibrary := [] }) →
    RunsTo (libPackets ps) r { r with haptic := { r.haptic with perceptions := P1 ++ qs } } := by
  induction ps with
  | nil =>
    intro P1 qs r hk _ _ hr
    cases hk
    have : ({ r with haptic := { r.haptic with perceptions := P1 ++ [] } } : Reader) = r := by
      rw [List.map_nil] at hr
      rw [← hr]
    rw [this]
    exact .nil r
  | cons p ps ih =>
    intro P1 qs r hk hf hn hr
    cases hk with
    | cons hq hqs =>
    rename_i q qs
    obtain ⟨h1, h2, h3⟩ := hf p (by simp)
    have hrec := ih (P1 ++ [q]) qs
      { r with haptic := { r.haptic with
        perceptions := P1 ++ q :: qs.map (fun q => { q with effectLibrary := [] }) } }
      hqs (fun x hx => hf x (by simp [hx])) (by simpa using hn) (by simp)
    have e : P1 ++ [q] ++ qs = P1 ++ q :: qs := by simp
    dsimp only at hrec
    rw [e] at hrec
    unfold libPackets
    split
    · rename_i hempty
      have hq0 : q.effectLibrary = [] := by
        rw [hq.library, List.isEmpty_iff.1 hempty]; rfl
      have e2 : ({ q with effectLibrary := [] } : Perception) = q := by rw [← hq0]
      have e3 : ({ r with haptic := { r.haptic with
          perceptions := P1 ++ q :: qs.map (fun q => { q with effectLibrary := [] }) } } : Reader) = r := by
        rw [List.map_cons, e2] at hr
        rw [← hr]
      rw [e3] at hrec
      exact hrec
    · have hi : r.haptic.perceptions.findIdx? (fun x => x.id == p.id) = some P1.length := by
        rw [hr, List.map_cons]
        refine findIdx?_split _ _ _ _ (fun y hy => ?_) (by simpa using hq.id_eq)
        rw [beq_eq_false_iff_ne]
        rw [List.map_append, List.map_cons, List.nodup_append] at hn
        have := hn.2.2 y.id (List.mem_map_of_mem hy) q.id (by simp)
        rw [hq.id_eq] at this
        exact this
      obtain ⟨b, hb1, hb2⟩ := c17_library r.haptic p P1.length h1.id hi h2 h3
      rw [hb1]
      refine .cons (fun rest => ?_) hrec
      refine handle_ok hb2 r (onLibrary r) _ ?_ rest
      unfold onLibrary
      dsimp only
      rw [hr, List.map_cons, modify_split]
      simp [← hq.library]

/-- A packet for a known channel changes nothing. -/
theorem rerun_channel {P1 P2 : List Perception} {q : Perception} {D1 D2 : List Channel} {c d : Channel}
    {pid : Int} (hpid : U 8 pid) (hq : q.id = pid) (hk : KnowsChannel c d) (hf : c.HeaderFits)
    (r : Reader) (hcl : r.haptic.Clear) (hr : r.haptic.perceptions = P1 ++ q :: P2)
    (hd : q.channels = D1 ++ d :: D2) :
    RunsTo [packetOf PacketType.MetadataChannel (writeMetadataChannel pid c)] r r := by
  refine .one (fun rest => ?_)
  have hi := searchPerception_split hcl hr
  rw [hq] at hi
  have hs : searchChannelInHaptic r.haptic c.receivedHeader.id = some D1.length := by
    have := searchChannel_split hcl hr hd
    rw [hk.id_eq] at this
    exact this
  refine handle_ok (c17_channel r.haptic pid c hpid P1.length hi hf) r (onChannel r) _ ?_ rest
  unfold onChannel
  dsimp only
  rw [hs]
  dsimp only
  unfold Experience.atPerception
  rw [if_pos (by rw [hr]; simp), hr, modify_split]
  have : (q.replaceChannelMetadataAt (D1.length : Int) c.receivedHeader).2 = q := by
    unfold Perception.replaceChannelMetadataAt
    rw [hd]
    simp only [Int.not_lt.2 (Int.natCast_nonneg _), if_false, Int.toNat_natCast, List.length_append,
      List.getElem?_append_right (le_refl _), Nat.sub_self, List.getElem?_cons_zero,
      knowsChannel_replace hk]
    have e : (D1 ++ d :: D2).set D1.length d = D1 ++ d :: D2 := by simp
    rw [e, ← hd]
  rw [this, ← hr]
  rfl

theorem RunsTo.stay {ps : List Packet} {r : Reader} (h : ∀ p ∈ ps, RunsTo [p] r r) : RunsTo ps r r := by
  induction ps with
  | nil => exact .nil r
  | cons p ps ih => exact (h p (by simp)).append (ih (fun q hq => h q (by simp [hq])))

theorem forall₂_split_mem {α β : Type} {R : α → β → Prop} {l : List α} {m : List β}
    (h : List.Forall₂ R l m) {a : α} (ha : a ∈ l) : ∃ m1 b m2, m = m1 ++ b :: m2 ∧ R a b := by
  induction h with
  | nil => simp at ha
  | cons hab _ ih =>
    rename_i a' b' l m hl
    rw [List.mem_cons] at ha
    rcases ha with rfl | ha
    · exact ⟨[], b', m, rfl, hab⟩
    · obtain ⟨m1, b, m2, h1, h2⟩ := ih ha
      exact ⟨b' :: m1, b, m2, by rw [h1]; rfl, h2⟩

theorem forall₂_split_at {α β : Type} {R : α → β → Prop} {l1 : List α} {a : α} {l2 : List α} {m : List β}
    (h : List.Forall₂ R (l1 ++ a :: l2) m) :
    ∃ m1 b m2, m = m1 ++ b :: m2 ∧ m1.length = l1.length ∧ R a b := by
  induction l1 generalizing m with
  | nil =>
    cases h with
    | cons h1 _ => exact ⟨[], _, _, rfl, rfl, h1⟩
  | cons x l1 ih =>
    cases h with
    | cons _ h2 =>
      obtain ⟨m1, b, m2, e1, e2, e3⟩ := ih h2
      exact ⟨_ :: m1, b, m2, by rw [e1]; rfl, by simp [e2], e3⟩

/-- A packet for a known band changes nothing. -/
theorem rerun_band {h : Experience} (hf : h.InitFits) {r : Reader} (hk : KnowsAll h r) (hcl : r.haptic.Clear)
    (n : Nat) (x : AddressedBand) (hx : (numbered 0 (triples h.perceptions))[n]? = some x) :
    RunsTo [bandPacketOf x] r r := by
  rw [numbered_get] at hx
  obtain ⟨t, ht, rfl⟩ := Option.map_eq_some_iff.1 hx
  have hn : n < (flatBands h.perceptions).length := by
    have e : (triples h.perceptions).length = (flatBands h.perceptions).length := by
      simp [triples, flatBands, List.length_flatMap]
    rw [← e]
    exact (List.getElem?_eq_some_iff.1 ht).1
  obtain ⟨P1, p, P2, C1, c, C2, B1, b, B2, hb⟩ := bandAt_exists _ n hn
  have ht' := hb.triple
  rw [ht, Option.some.injEq] at ht'
  subst ht'
  have hplace : searchBandInHaptic r.bandStreams n = some B1.length := by
    rw [hk.bands, hb.get (fun p c => List.range c.bands.length) (by simp), hb.bands]
    simp
  have h1 := hk.perceptions
  rw [hb.perceptions] at h1
  obtain ⟨Q1, q, Q2, hq1, hq2, hq⟩ := forall₂_split_at h1
  have h2 := hq.2
  rw [hb.channels] at h2
  obtain ⟨D1, d, D2, hd1, hd2, hd⟩ := forall₂_split_at h2
  have h3 := hd.2
  rw [hb.bands] at h3
  obtain ⟨X1, y, X2, hx1, hx2, hy⟩ := forall₂_split_at h3
  have hpm : p ∈ h.perceptions := by rw [hb.perceptions]; simp
  have hcm : c ∈ p.channels := by rw [hb.channels]; simp
  have hbm : b ∈ c.bands := by rw [hb.bands]; simp
  have hi := searchPerception_split hcl hq1
  rw [hq.id_eq] at hi
  have hj := searchChannel_split hcl hq1 hd1
  rw [hd.id_eq] at hj
  have hcount := hf.count
  have e0 : h.allBands = flatBands h.perceptions := rfl
  rw [e0] at hcount
  refine .one (fun rest => ?_)
  unfold bandPacketOf
  refine handle_ok (c17_band r.haptic ((0 + n : Nat) : Int) p.id c.id b ⟨by omega, by omega⟩
    (hf.perceptions p hpm).id (hf.channels p hpm c hcm).id Q1.length D1.length q d hi hj
    (by rw [hq1]; simp) (by rw [hd1]; simp) (hf.bands p hpm c hcm b hbm)) r (onBand r) _ ?_ rest
  unfold onBand
  dsimp only
  rw [Nat.zero_add, hplace, ← hx2]
  have e1 : (r.haptic.perceptions[Q1.length]?.bind fun p => p.channels[D1.length]?) = some d := by
    rw [hq1]; simp [hd1]
  rw [e1]
  dsimp only
  rw [if_neg (by rw [hx1]; simp)]
  have e2 : (d.replaceBandMetadataAt (X1.length : Int) b.receivedHeader).2 = d := by
    unfold Channel.replaceBandMetadataAt
    rw [hx1]
    simp only [Int.not_lt.2 (Int.natCast_nonneg _), if_false, Int.toNat_natCast, List.length_append,
      List.getElem?_append_right (le_refl _), Nat.sub_self, List.getElem?_cons_zero,
      knowsBand_replace hy]
    have e : (X1 ++ y :: X2).set X1.length y = X1 ++ y :: X2 := by simp
    rw [e, ← hx1]
  have e3 : ({ q with channels := D1 ++ d :: D2 } : Perception) = q := by rw [← hd1]
  rw [hq1, modify_split, hd1, modify_split, e2, e3, ← hq1]

/-- The packets of an initialization unit change nothing. -/
theorem rerun_metadata {h : Experience} (hf : h.InitFits) (hres : h.Resendable) (r : Reader)
    (hk : KnowsAll h r) (b : Bits) (hb : writeMetadataHaptics h = .ok b) :
    RunsTo (metadataPackets b h) r r := by
  have hids := forall₂_ids hk.perceptions
  have hcl : r.haptic.Clear := clear_of_perceptions hf.clear hids
  obtain ⟨b', hb', hread⟩ := c17_experience h r.haptic hf.header
  rw [hb] at hb'
  cases hb'
  have h1 : RunsTo [packetOf PacketType.MetadataHaptics b] r r := by
    refine .one (fun rest => handle_ok hread r (fun h => .ok { r with haptic := h }) _ ?_ rest)
    have : h.receivedHeader r.haptic = r.haptic := by
      unfold Experience.receivedHeader
      rw [hres.avatars, ← hk.version, ← hk.profile, ← hk.level, ← hk.date, ← hk.description]
      simp
    rw [this]
  have h2 := rerun_perceptions h.perceptions [] r.haptic.perceptions r hk.perceptions hf.perceptions
    hres.avatarId hres.scheme hcl.perceptions rfl
  have h3 := rerun_libraries h.perceptions [] r.haptic.perceptions
    { r with haptic := { r.haptic with
      perceptions := [] ++ r.haptic.perceptions.map (fun q => { q with effectLibrary := [] }) } }
    hk.perceptions (fun p hp => ⟨hf.perceptions p hp, hf.libraries p hp⟩) hcl.perceptions rfl
  have h4 : RunsTo (h.perceptions.flatMap (fun p => p.channels.map (fun c =>
        packetOf PacketType.MetadataChannel (writeMetadataChannel p.id c)))) r r := by
    refine .stay (fun x hx => ?_)
    obtain ⟨p, hp, hx⟩ := List.mem_flatMap.1 hx
    obtain ⟨c, hc, rfl⟩ := List.mem_map.1 hx
    obtain ⟨Q1, q, Q2, hq1, hq2⟩ := forall₂_split_mem hk.perceptions hp
    obtain ⟨D1, d, D2, hd1, hd2⟩ := forall₂_split_mem hq2.2 hc
    exact rerun_channel (hf.perceptions p hp).id hq2.id_eq hd2 (hf.channels p hp c hc) r hcl hq1 hd1
  have h5 : RunsTo ((numbered 0 (triples h.perceptions)).map bandPacketOf) r r := by
    refine .stay (fun x hx => ?_)
    obtain ⟨y, hy, rfl⟩ := List.mem_map.1 hx
    obtain ⟨n, hn⟩ := List.getElem?_of_mem hy
    exact rerun_band hf hk hcl n y hn
  exact h1.append (h2.append (h3.append (h4.append h5)))

/-- **C36, partial (packets).** A receiver that knows an experience – with any effects received so far –
receives its description again, any number of times: nothing changes. -/
theorem c36_packets_partial {h : Experience} (hf : h.InitFits) (hres : h.Resendable) (r : Reader)
    (hk : KnowsAll h r) (b : Bits) (hb : writeMetadataHaptics h = .ok b) (n : Nat) :
    processAll dispatch (List.replicate n (metadataPackets b h)).flatten r = .ok (true, r) := by
  apply RunsTo.all
  induction n with
  | zero => exact .nil r
  | succ n ih =>
    rw [List.replicate_succ, List.flatten_cons]
    exact (rerun_metadata hf hres r hk b hb).append ih

theorem forall₂_map_right {α β : Type} {R : α → β → Prop} (f : α → β) (l : List α)
    (h : ∀ x ∈ l, R x (f x)) : List.Forall₂ R l (l.map f) := by
  induction l with
  | nil => exact .nil
  | cons x l ih => exact .cons (h x (by simp)) (ih (fun y hy => h y (by simp [hy])))

/-- A receiver that knew nothing knows the experience after its initialization unit. -/
theorem c36_known (h : Experience) (hf : h.InitFits) (r : Reader) (hr : r.haptic.perceptions = [])
    (hs : r.bandStreams = []) (b : Bits) (hb : writeMetadataHaptics h = .ok b) :
    ∃ r', processAll dispatch (metadataPackets b h) r = .ok (true, r') ∧ KnowsAll h r' := by
  refine ⟨_, (run_metadata h hf r hr hs b hb).all, rfl, rfl, rfl, rfl, rfl, ?_, ?_⟩
  · refine forall₂_map_right _ _ (fun p _ => ⟨rfl, ?_⟩)
    refine forall₂_map_right _ _ (fun c _ => ⟨rfl, ?_⟩)
    exact forall₂_map_right _ _ (fun x _ => rfl)
  · intro n
    have := streams_find (h.perceptions.flatMap (fun p => p.channels.flatMap (fun c => List.range c.bands.length)))
      0 n
    rw [Nat.zero_add] at this
    exact this

/-- **C36, partial.** A receiver that knows an experience reads an initialization unit of it, as written at a
sync point: apart from the sync point and the timing the unit carries, nothing changes. -/
theorem c36_unit_partial (h : Experience) (hs : h.Spaced) (hf : h.prune.InitFits)
    (hres : h.prune.Resendable) (packets : List Bits) (hp : initPacketsOf h = .ok packets)
    (hsmall : SmallPackets packets) (w : Writer) (hw1 : 0 ≤ w.time) (hw1' : w.time < 2 ^ 31)
    (hw2 : w.timescale < 2 ^ 32) (hw3 : w.nominalDuration < 2 ^ 24) (hw4 : w.durationDeviation < 2 ^ 24)
    (hw5 : w.layer < 16) (r : Reader) (hk : KnowsAll h.prune r) :
    readMIHSUnit dispatch (writeInitializationUnit w packets) r =
      .ok (true, { r with
        haptic := { r.haptic with
          syncs := r.haptic.syncs ++ [{ timestamp := w.time, timescale := some w.timescale }] }
        time := w.time.toNat, packetDuration := 0, timescale := w.timescale, waitSync := false
        overlapping := w.overlapping, nominalDuration := w.nominalDuration
        durationDeviation := w.durationDeviation, layer := w.layer }) := by
  obtain ⟨t1, t2, t3⟩ := prune_tidy h hs
  obtain ⟨b, hb, hip⟩ := initPacketsOf_eq h h.prune t1 t2 hf
  rw [hp] at hip
  cases hip
  refine read_init_of h.prune t3 b hb hsmall w hw1 hw1' hw2 hw3 hw4 hw5 r (r.timed w) ?_ rfl rfl
  exact rerun_metadata hf hres (r.timed w) ⟨hk.version, hk.profile, hk.level, hk.date, hk.description,
    hk.perceptions, hk.bands⟩ b hb

/-- An experience with two sync points; the second one makes the writer send the description again. -/
def exampleResent (avatars : List Avatar) (avatarId : Int) (scheme : Option Str) : Experience :=
  { avatars := avatars
    syncs := [{ timestamp := 0 }, { timestamp := 128 }]
    perceptions := [{ id := 1, avatarId := avatarId, effectSemanticScheme := scheme
                      channels := [{ id := 4, bands := [{ effects := [
                        { id := 0, position := 0, keyframes := [{ relativePosition := some 0 }] },
                        { id := 1, position := 300, keyframes := [{ relativePosition := some 0 }] }] }] }]
                      effectLibrary := [{ id := 5, keyframes := [{ relativePosition := some 0 }] }] }] }

/-- **C36, negation.** An experience with one avatar has two after a stream with a sync point. -/
theorem c36_avatars_negation :
    (throughStream (exampleResent [{ id := 3, lod := 2, type := 1 }] 1 (some [])) 128).map
      (fun e => e.avatars.map (·.id)) = some [3, 3] := by decide +kernel

/-- **C36, negation.** A perception of avatar 3 belongs to avatar 1 after a stream with a sync point. -/
theorem c36_avatarId_negation :
    (throughStream (exampleResent [] 3 (some [])) 128).map
      (fun e => e.perceptions.map (·.avatarId)) = some [1] := by decide +kernel

/-- **C36, negation.** A perception without semantic scheme has one after a stream with a sync point. -/
theorem c36_scheme_negation :
    (throughStream (exampleResent [] 1 none) 128).map
      (fun e => e.perceptions.map (·.effectSemanticScheme)) = some [some DEFAULT_SEMANTIC_SCHEME] := by
  decide +kernel

/-- **C36, negation.** A library packet alone is not to be received twice: its effects are then there twice. -/
theorem c36_library_negation (r : Reader) (p : Perception) (i : Nat) (hid : U 8 p.id)
    (hi : r.haptic.perceptions.findIdx? (fun q => q.id == p.id) = some i)
    (hn : p.effectLibrary.length < 65536) (hf : ∀ e ∈ p.effectLibrary, e.LibFits) :
    ∃ b, writeLibrary p = .ok b ∧
      processAll dispatch [packetOf PacketType.EffectLibrary b, packetOf PacketType.EffectLibrary b] r =
        .ok (true, { r with haptic := { r.haptic with perceptions := r.haptic.perceptions.modify i (fun q =>
          { q with effectLibrary := q.effectLibrary
              ++ (p.effectLibrary.map Effect.received ++ p.effectLibrary.map Effect.received) }) } }) := by
  obtain ⟨b, h1, h2⟩ := c17_library r.haptic p i hid hi hn hf
  refine ⟨b, h1, ?_⟩
  have hi2 : (r.haptic.perceptions.modify i (fun q => { q with
      effectLibrary := q.effectLibrary ++ p.effectLibrary.map Effect.received })).findIdx? (fun q => q.id == p.id)
      = some i := by
    rw [findIdx?_modify]
    · exact hi
    · exact fun x => rfl
  generalize hq : ({ r with haptic := { r.haptic with perceptions := r.haptic.perceptions.modify i (fun q =>
    { q with effectLibrary := q.effectLibrary ++ p.effectLibrary.map Effect.received }) } } : Reader) = r1
  have hi1 : r1.haptic.perceptions.findIdx? (fun q => q.id == p.id) = some i := by rw [← hq]; exact hi2
  obtain ⟨b', g1, g2⟩ := c17_library r1.haptic p i hid hi1 hn hf
  obtain rfl : b = b' := Except.ok.inj (h1.symm.trans g1)
  have step : ∀ (x y : Reader) (rest : Bits), (∀ rest, readLibrary x.haptic (b ++ rest)
      = .ok ((i, p.effectLibrary.map Effect.received), rest)) →
      onLibrary x (i, p.effectLibrary.map Effect.received) = .ok y →
      dispatch PacketType.EffectLibrary (fillBitset b ++ rest) x = .ok (true, y) := by
    intro x y rest hx hy
    exact handle_ok hx x (onLibrary x) y hy rest
  unfold processAll
  rw [show (packetOf PacketType.EffectLibrary b).type = PacketType.EffectLibrary from rfl,
    show (packetOf PacketType.EffectLibrary b).payload = fillBitset b from rfl, step r r1 _ h2 (by rw [← hq]; rfl)]
  dsimp only
  unfold processAll
  rw [show (packetOf PacketType.EffectLibrary b).type = PacketType.EffectLibrary from rfl,
    show (packetOf PacketType.EffectLibrary b).payload = fillBitset b from rfl, step r1 _ _ g2 rfl]
  dsimp only
  unfold processAll
  rw [← hq]
  simp only [List.modify_modify_eq, Function.comp_def, List.append_assoc]

/-- Non-vacuity: a reader that knows the perception, and a library of one effect. -/
example : U 8 (4 : Int) ∧ ([{ id := 4 }] : List Perception).findIdx? (fun q => q.id == (4 : Int)) = some 0 ∧
    ∀ e ∈ ([{ id := 5, keyframes := [{ relativePosition := some 0 }] }] : List Effect), e.LibFits := by
  refine ⟨by simp [U], rfl, ?_⟩
  intro e he
  simp only [List.mem_singleton] at he
  subst he
  refine .mk _ (by simp [U]) (by decide) (by simp [U]) (by simp) (by simp) (by simp) ?_ (by simp) (by simp)
  intro k hk
  simp only [List.mem_cons, List.not_mem_nil, or_false] at hk
  subst hk
  exact ⟨by simp [U], by simp⟩

/-- Non-vacuity of `c36_unit_partial`: with neither of these, everything is received as it was. -/
example : (exampleResent [] 1 (some [65])).Spaced ∧ (exampleResent [] 1 (some [65])).prune.InitFits ∧
    (exampleResent [] 1 (some [65])).prune.Resendable ∧
    (∃ packets, initPacketsOf (exampleResent [] 1 (some [65])) = .ok packets ∧ SmallPackets packets) ∧
    ∃ r, KnowsAll (exampleResent [] 1 (some [65])).prune r := by
  have hp : (exampleResent [] 1 (some [65])).prune = exampleResent [] 1 (some [65]) := rfl
  have hf : (exampleResent [] 1 (some [65])).InitFits := by
    have hb : ∀ es : List Effect, ({ effects := es } : Band).HeaderFits :=
      fun es => ⟨by simp [BandType.VectorialWave], by simp [BandType.VectorialWave, BandType.Curve],
        by simp [BandType.VectorialWave, BandType.WaveletWave], by simp, by simp [U], by simp [U]⟩
    refine ⟨⟨by simp [exampleResent], by simp [exampleResent], by simp [exampleResent],
      by simp [exampleResent], by simp [exampleResent], by simp [exampleResent], by simp [exampleResent]⟩,
      ?_, ?_, ?_, ?_, ⟨by decide, by decide⟩, by decide⟩
    · intro p hp
      simp only [exampleResent, List.mem_cons, List.not_mem_nil, or_false] at hp
      subst hp
      exact ⟨by simp [U], by simp, by simp, by simp, by simp [U], by simp, by simp, by simp, by simp, by simp⟩
    · intro p hp
      simp only [exampleResent, List.mem_cons, List.not_mem_nil, or_false] at hp
      subst hp
      refine ⟨by simp, fun e he => ?_⟩
      simp only [List.mem_cons, List.not_mem_nil, or_false] at he
      subst he
      refine .mk _ (by simp [U]) (by decide) (by simp [U]) (by simp) (by simp) (by simp) ?_ (by simp) (by simp)
      intro k hk
      simp only [List.mem_cons, List.not_mem_nil, or_false] at hk
      subst hk
      exact ⟨by simp [U], by simp⟩
    · intro p hp c hc
      simp only [exampleResent, List.mem_cons, List.not_mem_nil, or_false] at hp
      subst hp
      simp only [List.mem_cons, List.not_mem_nil, or_false] at hc
      subst hc
      exact ⟨by simp [U], by simp, by simp, by simp, by simp, by simp, by simp, by simp, by simp, by simp,
        by simp, by simp, by simp, by simp, by simp⟩
    · intro p hp c hc b hb'
      simp only [exampleResent, List.mem_cons, List.not_mem_nil, or_false] at hp
      subst hp
      simp only [List.mem_cons, List.not_mem_nil, or_false] at hc
      subst hc
      simp only [List.mem_cons, List.not_mem_nil, or_false] at hb'
      subst hb'
      exact hb _
  refine ⟨?_, by rw [hp]; exact hf, ⟨by decide, ?_, ?_⟩, ?_, ?_⟩
  · refine ⟨?_, by simp [exampleResent]⟩
    intro p hp
    simp only [exampleResent, List.mem_cons, List.not_mem_nil, or_false] at hp
    subst hp
    refine ⟨?_, by simp⟩
    intro c hc
    simp only [List.mem_cons, List.not_mem_nil, or_false] at hc
    subst hc
    refine ⟨?_, by simp⟩
    intro b hb
    simp only [List.mem_cons, List.not_mem_nil, or_false] at hb
    subst hb
    exact ⟨by decide +kernel⟩
  · rw [hp]; decide
  · rw [hp]; decide
  · have h1 : (match initPacketsOf (exampleResent [] 1 (some [65])) with
        | .ok ps => decide ((∀ p ∈ ps, p.length < 2 ^ 20) ∧ ps.flatten.length < 2 ^ 30)
        | .error _ => false) = true := by decide +kernel
    cases hh : initPacketsOf (exampleResent [] 1 (some [65])) with
    | error e => rw [hh] at h1; simp at h1
    | ok ps =>
      rw [hh] at h1
      simp only [decide_eq_true_eq] at h1
      exact ⟨ps, rfl, h1.1, h1.2⟩
  · obtain ⟨b, hb, -⟩ := c17_experience _ {} hf.header
    obtain ⟨r, -, hr⟩ := c36_known _ hf {} rfl rfl b hb
    exact ⟨r, by rw [hp]; exact hr⟩

/-! ### Timing packets -/

/-- **C16** Receiving a timing packet notes a sync point at the time it carries and sets the clock to that
time in milliseconds, rounded down, as long as it is less than 2^32 thousandths of a tick; nothing else
changes. -/
theorem c16_timing_received (t : Nat) (ht : t * 1000 < 2 ^ 32) (r : Reader) (hr : 0 < r.timescale)
    (rest : Bits) :
    dispatch PacketType.Timing (writeTiming t ++ rest) r =
      .ok (true, { r with
        haptic := { r.haptic with syncs := r.haptic.syncs ++ [{ timestamp := t }] }
        time := ⌊(t : ℚ) * 1000 / r.timescale⌋.toNat }) := by
  have e : ⌊(t : ℚ) * 1000 / r.timescale⌋.toNat = t * 1000 / r.timescale := by
    have : (t : ℚ) * 1000 / r.timescale = ((t * 1000 : Nat) : ℚ) / (r.timescale : ℚ) := by push_cast; rfl
    rw [this, Rat.floor_natCast_div_natCast]
    norm_cast
  have hs : toSigned 32 t = (t : Int) := by
    unfold toSigned
    rw [if_pos (by norm_num; omega)]
  rw [e]
  change handle readTiming (writeTiming t ++ rest) r (onTiming r) = _
  unfold handle
  rw [c16_timing t (by omega)]
  dsimp only
  unfold onTiming
  rw [if_neg (by omega), hs, Nat.mod_eq_of_lt ht]

/-- Two timing packets. -/
example : ∃ r : Reader, 0 < r.timescale ∧ (3000 : Nat) * 1000 < 2 ^ 32 := ⟨{}, by decide, by decide⟩

/-- **C49, negation (timing packets).** The same moment, sent with an initialization unit and with a timing
packet, gives different clocks: the first is in ticks, the second in milliseconds. -/
theorem c49_timing_negation : ∃ r r1 r2 : Reader,
    dispatch PacketType.InitializationTiming (writeInitializationTiming
      { time := 4000, timescale := 2000, nominalDuration := 128, durationDeviation := 0
        overlapping := false }) r = .ok (true, r1) ∧
    dispatch PacketType.Timing (writeTiming 4000) r1 = .ok (true, r2) ∧
    r1.time = 4000 ∧ r2.time = 2000 :=
  ⟨{}, _, _, rfl, rfl, rfl, rfl⟩

end Haptics
