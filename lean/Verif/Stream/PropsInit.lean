import Verif.Stream.Writer
import Verif.Stream.Reader
import Verif.Stream.SpecStream
import Verif.Stream.PropsMeta
import Verif.Stream.PropsUnit
import Verif.Stream.PropsTidy

/-
Reception of an initialization unit by a receiver that knows nothing: it learns all perceptions, channels
and bands.
-/
namespace Haptics

/-! ### Packets one after the other -/

/-- Processing the packets `ps` leads from `r` to `r'`, whatever follows. -/
def RunsTo (ps : List Packet) (r r' : Reader) : Prop :=
  ∀ qs, processAll dispatch (ps ++ qs) r = processAll dispatch qs r'

theorem RunsTo.nil (r : Reader) : RunsTo [] r r := fun _ => rfl

theorem RunsTo.append {ps qs : List Packet} {r r1 r2 : Reader} (h1 : RunsTo ps r r1)
    (h2 : RunsTo qs r1 r2) : RunsTo (ps ++ qs) r r2 := by
  intro ts
  rw [List.append_assoc, h1, h2]

theorem RunsTo.one {p : Packet} {r r1 : Reader}
    (h : ∀ rest, dispatch p.type (p.payload ++ rest) r = .ok (true, r1)) : RunsTo [p] r r1 := by
  intro qs
  simp only [List.cons_append, List.nil_append, processAll, h]

theorem RunsTo.cons {p : Packet} {ps : List Packet} {r r1 r2 : Reader}
    (h : ∀ rest, dispatch p.type (p.payload ++ rest) r = .ok (true, r1)) (h2 : RunsTo ps r1 r2) :
    RunsTo (p :: ps) r r2 := (RunsTo.one h).append h2

theorem RunsTo.all {ps : List Packet} {r r' : Reader} (h : RunsTo ps r r') :
    processAll dispatch ps r = .ok (true, r') := by
  have := h []
  rw [List.append_nil] at this
  rw [this]; rfl

/-- The packet of the given type and content, padded to whole bytes. -/
def packetOf (t : Nat) (b : Bits) : Packet := ⟨t, fillBitset b⟩

theorem handle_ok {α : Type} {p : Rd α} {b : Bits} {a : α} (hp : ∀ rest, p (b ++ rest) = .ok (a, rest))
    (r : Reader) (k : α → Except Err Reader) (r' : Reader) (hk : k a = .ok r') (rest : Bits) :
    handle p (fillBitset b ++ rest) r k = .ok (true, r') := by
  unfold handle fillBitset
  rw [List.append_assoc, hp]
  dsimp only
  rw [hk]

/-! ### Where things are -/

theorem findIdx?_split {α : Type} (q : α → Bool) (l1 : List α) (x : α) (l2 : List α)
    (h1 : ∀ y ∈ l1, q y = false) (hx : q x = true) : (l1 ++ x :: l2).findIdx? q = some l1.length := by
  induction l1 with
  | nil => simp [List.findIdx?_cons, hx]
  | cons y l ih =>
    simp only [List.cons_append, List.findIdx?_cons, h1 y (by simp), Bool.false_eq_true, if_false,
      ih (fun z hz => h1 z (by simp [hz]))]
    rfl

theorem findIdx?_none {α : Type} (q : α → Bool) (l : List α) (h : ∀ y ∈ l, q y = false) :
    l.findIdx? q = none := by
  rw [List.findIdx?_eq_none_iff]; exact h

/-- Identifiers do not clash. -/
structure Experience.Clear (h : Experience) : Prop where
  perceptions : (h.perceptions.map (·.id)).Nodup
  channels : h.channelIds.Nodup

theorem searchPerception_split {h : Experience} (hc : h.Clear) {P1 P2 : List Perception} {p : Perception}
    (hp : h.perceptions = P1 ++ p :: P2) :
    h.perceptions.findIdx? (fun q => q.id == p.id) = some P1.length := by
  have h1 := hc.perceptions
  rw [hp, List.map_append, List.map_cons, List.nodup_append] at h1
  rw [hp]
  refine findIdx?_split _ _ _ _ (fun y hy => ?_) (by simp)
  rw [beq_eq_false_iff_ne]
  exact h1.2.2 y.id (List.mem_map_of_mem hy) p.id (by simp)

theorem searchChannel_split {h : Experience} (hc : h.Clear) {P1 P2 : List Perception} {p : Perception}
    (hp : h.perceptions = P1 ++ p :: P2) {C1 C2 : List Channel} {c : Channel}
    (hcs : p.channels = C1 ++ c :: C2) :
    h.perceptions.findSome? (fun q => q.channels.findIdx? (fun x => x.id == c.id)) = some C1.length := by
  have h1 := hc.channels
  unfold Experience.channelIds at h1
  rw [hp, List.flatMap_append, List.flatMap_cons, hcs, List.map_append, List.map_cons] at h1
  rw [hp, List.findSome?_append]
  have e1 : P1.findSome? (fun q => q.channels.findIdx? (fun x => x.id == c.id)) = none := by
    rw [List.findSome?_eq_none_iff]
    intro q hq
    refine findIdx?_none _ _ (fun y hy => ?_)
    rw [beq_eq_false_iff_ne]
    exact (List.nodup_append.1 h1).2.2 y.id (by
      rw [List.mem_flatMap]; exact ⟨q, hq, List.mem_map_of_mem hy⟩) c.id (by simp)
  have e2 : p.channels.findIdx? (fun x => x.id == c.id) = some C1.length := by
    rw [hcs]
    refine findIdx?_split _ _ _ _ (fun y hy => ?_) (by simp)
    rw [beq_eq_false_iff_ne]
    have h2 := (List.nodup_append.1 h1).2.1
    have h3 := (List.nodup_append.1 h2).1
    exact (List.nodup_append.1 h3).2.2 y.id (List.mem_map_of_mem hy) c.id (by simp)
  rw [e1, Option.none_or, List.findSome?_cons, e2]

/-! ### Perceptions -/

theorem run_perceptions (ps : List Perception) : ∀ (P1 : List Perception) (r : Reader),
    (∀ p ∈ ps, p.HeaderFits) → ((P1 ++ ps).map (·.id)).Nodup → r.haptic.perceptions = P1 →
    RunsTo (ps.map (fun p => packetOf PacketType.MetadataPerception (writeMetadataPerception p))) r
      { r with haptic := { r.haptic with perceptions := P1 ++ ps.map Perception.receivedHeader } } := by
  induction ps with
  | nil =>
    intro P1 r _ _ hr
    have : ({ r with haptic := { r.haptic with
        perceptions := P1 ++ ([] : List Perception).map Perception.receivedHeader } } : Reader) = r := by
      rw [List.map_nil, List.append_nil, ← hr]
    rw [this]
    exact .nil r
  | cons p ps ih =>
    intro P1 r hf hn hr
    have hnone : r.haptic.perceptions.findIdx? (fun q => q.id == p.receivedHeader.id) = none := by
      rw [hr]
      refine findIdx?_none _ _ (fun y hy => ?_)
      rw [beq_eq_false_iff_ne]
      rw [List.map_append, List.map_cons, List.nodup_append] at hn
      exact hn.2.2 y.id (List.mem_map_of_mem hy) p.id (by simp)
    have h1 := ih (P1 ++ [p.receivedHeader])
      { r with haptic := { r.haptic with perceptions := P1 ++ [p.receivedHeader] } }
      (fun q hq => hf q (by simp [hq]))
      (by
        have e : (P1 ++ [p.receivedHeader] ++ ps).map (·.id) = (P1 ++ p :: ps).map (·.id) := by
          simp [Perception.receivedHeader]
        rw [e]; exact hn) rfl
    rw [List.map_cons]
    have e : P1 ++ [p.receivedHeader] ++ ps.map Perception.receivedHeader
        = P1 ++ (p :: ps).map Perception.receivedHeader := by simp
    rw [e] at h1
    refine .cons (fun rest => ?_) h1
    refine handle_ok (c17_perception p (hf p (by simp))) r (onPerception r) _ ?_ rest
    unfold onPerception searchPerceptionInHaptic
    rw [hnone, hr]

/-! ### Libraries -/

/-- A perception of which header and library are known. -/
def Perception.withLibrary (p : Perception) : Perception :=
  { p.receivedHeader with effectLibrary := p.effectLibrary.map Effect.received }

theorem modify_split {α : Type} (f : α → α) (l1 : List α) (x : α) (l2 : List α) :
    (l1 ++ x :: l2).modify l1.length f = l1 ++ f x :: l2 := by
  induction l1 with
  | nil => rfl
  | cons y l ih => simp only [List.cons_append, List.length_cons, List.modify_succ_cons, ih]

/-- The library packets. -/
def libPackets : List Perception → List Packet
  | [] => []
  | p :: ps =>
    if p.effectLibrary.isEmpty then libPackets ps
    else (match writeLibrary p with
      | .ok b => [packetOf PacketType.EffectLibrary b]
      | .error _ => []) ++ libPackets ps

theorem libraryPacketsOf_eq (ps : List Perception)
    (hf : ∀ p ∈ ps, p.HeaderFits ∧ p.effectLibrary.length < 65536 ∧ ∀ e ∈ p.effectLibrary, e.LibFits) :
    libraryPacketsOf ps = .ok ((libPackets ps).map Packet.encode) := by
  induction ps with
  | nil => rfl
  | cons p ps ih =>
    have := ih (fun q hq => hf q (by simp [hq]))
    obtain ⟨h1, h2, h3⟩ := hf p (by simp)
    unfold libraryPacketsOf libPackets
    split
    · exact this
    · obtain ⟨b, hb, -⟩ := c17_library { perceptions := [p] } p 0 h1.id (by simp) h2 h3
      rw [hb]
      dsimp only
      rw [this, writePacket_encode _ _ (by decide)]
      rfl

theorem run_libraries (ps : List Perception) : ∀ (P1 : List Perception) (r : Reader),
    (∀ p ∈ ps, p.HeaderFits ∧ p.effectLibrary.length < 65536 ∧ ∀ e ∈ p.effectLibrary, e.LibFits) →
    ((P1 ++ ps).map (·.id)).Nodup →
    r.haptic.perceptions = P1 ++ ps.map Perception.receivedHeader →
    RunsTo (libPackets ps) r
      { r with haptic := { r.haptic with perceptions := P1 ++ ps.map Perception.withLibrary } } := by
  induction ps with
  | nil =>
    intro P1 r _ _ hr
    have : ({ r with haptic := { r.haptic with
        perceptions := P1 ++ ([] : List Perception).map Perception.withLibrary } } : Reader) = r := by
      rw [List.map_nil] at hr ⊢
      rw [← hr]
    rw [this]
    exact .nil r
  | cons p ps ih =>
    intro P1 r hf hn hr
    obtain ⟨h1, h2, h3⟩ := hf p (by simp)
    have hn' : ((P1 ++ [p.withLibrary] ++ ps).map (·.id)).Nodup := by
      have e : (P1 ++ [p.withLibrary] ++ ps).map (·.id) = (P1 ++ p :: ps).map (·.id) := by
        simp [Perception.withLibrary, Perception.receivedHeader]
      rw [e]; exact hn
    have e : P1 ++ [p.withLibrary] ++ ps.map Perception.withLibrary
        = P1 ++ (p :: ps).map Perception.withLibrary := by simp
    have hrec := ih (P1 ++ [p.withLibrary]) { r with haptic := { r.haptic with
        perceptions := P1 ++ [p.withLibrary] ++ ps.map Perception.receivedHeader } }
      (fun q hq => hf q (by simp [hq])) hn' rfl
    rw [e] at hrec
    unfold libPackets
    split
    · rename_i he
      have hp : p.withLibrary = p.receivedHeader := by
        rw [List.isEmpty_iff] at he
        unfold Perception.withLibrary Perception.receivedHeader
        rw [he]; rfl
      have hr' : ({ r with haptic := { r.haptic with
          perceptions := P1 ++ [p.withLibrary] ++ ps.map Perception.receivedHeader } } : Reader) = r := by
        rw [hp]
        have : P1 ++ [p.receivedHeader] ++ ps.map Perception.receivedHeader = r.haptic.perceptions := by
          rw [hr]; simp
        rw [this]
      rw [hr'] at hrec
      exact hrec
    · have hi : r.haptic.perceptions.findIdx? (fun q => q.id == p.id) = some P1.length := by
        rw [hr, List.map_cons]
        refine findIdx?_split _ _ _ _ (fun y hy => ?_) (by simp [Perception.receivedHeader])
        rw [beq_eq_false_iff_ne]
        rw [List.map_append, List.map_cons, List.nodup_append] at hn
        exact hn.2.2 y.id (List.mem_map_of_mem hy) p.id (by simp)
      obtain ⟨b, hb1, hb2⟩ := c17_library r.haptic p P1.length h1.id hi h2 h3
      rw [hb1]
      refine .cons (fun rest => ?_) hrec
      refine handle_ok hb2 r (onLibrary r) _ ?_ rest
      unfold onLibrary
      dsimp only
      rw [hr, List.map_cons, modify_split]
      simp [Perception.withLibrary, Perception.receivedHeader]

/-! ### Channels -/

theorem searchChannel_none {h : Experience} {id : Int} (hid : id ∉ h.channelIds) :
    searchChannelInHaptic h id = none := by
  unfold searchChannelInHaptic
  rw [List.findSome?_eq_none_iff]
  intro q hq
  refine findIdx?_none _ _ (fun y hy => ?_)
  rw [beq_eq_false_iff_ne]
  rintro rfl
  exact hid (by
    unfold Experience.channelIds
    rw [List.mem_flatMap]; exact ⟨q, hq, List.mem_map_of_mem hy⟩)

/-- The channels `cs` of one perception. -/
theorem run_channels_of (pid : Int) (hpid : U 8 pid) (P1 P2 : List Perception) (cs : List Channel) :
    ∀ (p : Perception) (r : Reader), p.id = pid → (∀ c ∈ cs, c.HeaderFits) →
    ((P1 ++ p :: P2).map (·.id)).Nodup →
    (P1.flatMap (fun p => p.channels.map (·.id)) ++ ((p.channels ++ cs).map (·.id)
      ++ P2.flatMap (fun p => p.channels.map (·.id)))).Nodup →
    r.haptic.perceptions = P1 ++ p :: P2 →
    RunsTo (cs.map (fun c => packetOf PacketType.MetadataChannel (writeMetadataChannel pid c))) r
      { r with haptic := { r.haptic with perceptions :=
        P1 ++ { p with channels := p.channels ++ cs.map Channel.receivedHeader } :: P2 } } := by
  induction cs with
  | nil =>
    intro p r _ _ _ _ hr
    have : ({ r with haptic := { r.haptic with perceptions :=
        P1 ++ { p with channels := p.channels ++ ([] : List Channel).map Channel.receivedHeader } :: P2 } }
          : Reader) = r := by
      rw [List.map_nil, List.append_nil, ← hr]
    rw [this]
    exact .nil r
  | cons c cs ih =>
    intro p r hp hf hn hnc hr
    subst hp
    have hi : r.haptic.perceptions.findIdx? (fun q => q.id == p.id) = some P1.length := by
      rw [hr]
      refine findIdx?_split _ _ _ _ (fun y hy => ?_) (by simp)
      rw [beq_eq_false_iff_ne]
      rw [List.map_append, List.map_cons, List.nodup_append] at hn
      exact hn.2.2 y.id (List.mem_map_of_mem hy) p.id (by simp)
    have hs : searchChannelInHaptic r.haptic c.receivedHeader.id = none := by
      apply searchChannel_none
      unfold Experience.channelIds
      rw [hr, List.flatMap_append, List.flatMap_cons]
      have hid : c.receivedHeader.id = c.id := rfl
      rw [hid]
      intro hm
      simp only [List.map_append, List.map_cons] at hnc
      rw [List.mem_append, List.mem_append] at hm
      rcases hm with hm | hm | hm
      · exact (List.nodup_append.1 hnc).2.2 _ hm _ (by simp) rfl
      · have h2 := (List.nodup_append.1 (List.nodup_append.1 hnc).2.1).1
        exact (List.nodup_append.1 h2).2.2 _ hm _ (by simp) rfl
      · have h2 := (List.nodup_append.1 (List.nodup_append.1 hnc).2.1).2.2
        exact h2 c.id (by simp) _ hm rfl
    have hrec := ih { p with channels := p.channels ++ [c.receivedHeader] }
      { r with haptic := { r.haptic with perceptions :=
        P1 ++ { p with channels := p.channels ++ [c.receivedHeader] } :: P2 } } rfl
      (fun q hq => hf q (by simp [hq])) (by simpa using hn)
      (by
        have e : (p.channels ++ [c.receivedHeader] ++ cs).map (·.id) = (p.channels ++ c :: cs).map (·.id) := by
          simp [Channel.receivedHeader]
        dsimp only
        rw [e]; exact hnc) rfl
    rw [List.map_cons]
    refine .cons (r1 := { r with haptic := { r.haptic with perceptions :=
        P1 ++ { p with channels := p.channels ++ [c.receivedHeader] } :: P2 } }) (fun rest => ?_) ?_
    · refine handle_ok (c17_channel r.haptic p.id c hpid P1.length hi (hf c (by simp))) r (onChannel r) _ ?_
        rest
      unfold onChannel
      dsimp only
      rw [hs]
      dsimp only
      unfold Experience.atPerception
      rw [if_pos (by rw [hr]; simp), hr, modify_split]
      rfl
    · have e : (p.channels ++ [c.receivedHeader]) ++ cs.map Channel.receivedHeader
          = p.channels ++ (c :: cs).map Channel.receivedHeader := by simp
      dsimp only at hrec
      rw [e] at hrec
      exact hrec

/-- A perception of which header, library and channel headers are known. -/
def Perception.withChannels (p : Perception) : Perception :=
  { p.withLibrary with channels := p.channels.map Channel.receivedHeader }

theorem run_channels (ps : List Perception) : ∀ (P1 : List Perception) (r : Reader),
    (∀ p ∈ ps, p.HeaderFits ∧ ∀ c ∈ p.channels, c.HeaderFits) → ((P1 ++ ps).map (·.id)).Nodup →
    ((P1 ++ ps).flatMap (fun p => p.channels.map (·.id))).Nodup →
    r.haptic.perceptions = P1 ++ ps.map Perception.withLibrary →
    RunsTo (ps.flatMap (fun p => p.channels.map (fun c =>
        packetOf PacketType.MetadataChannel (writeMetadataChannel p.id c)))) r
      { r with haptic := { r.haptic with perceptions := P1 ++ ps.map Perception.withChannels } } := by
  induction ps with
  | nil =>
    intro P1 r _ _ _ hr
    have : ({ r with haptic := { r.haptic with
        perceptions := P1 ++ ([] : List Perception).map Perception.withChannels } } : Reader) = r := by
      rw [List.map_nil] at hr ⊢
      rw [← hr]
    rw [this]
    exact .nil r
  | cons p ps ih =>
    intro P1 r hf hn hnc hr
    obtain ⟨h1, h2⟩ := hf p (by simp)
    have hchild := run_channels_of p.id h1.id P1 (ps.map Perception.withLibrary) p.channels p.withLibrary r rfl
      h2 (by
        have e : (P1 ++ p.withLibrary :: ps.map Perception.withLibrary).map (·.id)
            = (P1 ++ p :: ps).map (·.id) := by
          simp [Perception.withLibrary, Perception.receivedHeader, Function.comp_def]
        rw [e]; exact hn)
      (by
        have e1 : p.withLibrary.channels = [] := rfl
        have e2 : (ps.map Perception.withLibrary).flatMap (fun p => p.channels.map (·.id)) = [] := by
          rw [List.flatMap_eq_nil_iff]
          intro q hq
          obtain ⟨q', -, rfl⟩ := List.mem_map.1 hq
          rfl
        rw [e1, e2, List.nil_append, List.append_nil]
        rw [List.flatMap_append, List.flatMap_cons, ← List.append_assoc] at hnc
        exact (List.nodup_append.1 hnc).1)
      (by rw [hr, List.map_cons])
    have e0 : ({ p.withLibrary with
          channels := p.withLibrary.channels ++ p.channels.map Channel.receivedHeader } : Perception)
        = p.withChannels := rfl
    rw [e0] at hchild
    rw [List.flatMap_cons]
    refine hchild.append ?_
    have hrec := ih (P1 ++ [p.withChannels])
      { r with haptic := { r.haptic with
        perceptions := P1 ++ p.withChannels :: ps.map Perception.withLibrary } }
      (fun q hq => hf q (by simp [hq]))
      (by
        have e : (P1 ++ [p.withChannels] ++ ps).map (·.id) = (P1 ++ p :: ps).map (·.id) := by
          simp [Perception.withChannels, Perception.withLibrary, Perception.receivedHeader]
        rw [e]; exact hn)
      (by
        have e : p.withChannels.channels.map (·.id) = p.channels.map (·.id) := by
          simp [Perception.withChannels, Channel.receivedHeader, Function.comp_def]
        rw [List.flatMap_append, List.flatMap_append, List.flatMap_singleton, e, List.append_assoc]
        rw [List.flatMap_append, List.flatMap_cons] at hnc
        exact hnc)
      (by simp)
    have e : P1 ++ [p.withChannels] ++ ps.map Perception.withChannels
        = P1 ++ (p :: ps).map Perception.withChannels := by simp
    rw [e] at hrec
    exact hrec

/-! ### Bands -/

/-- Bands with consecutive numbers from `n` on. -/
def numbered : Nat → List (Perception × Channel × Band) → List AddressedBand
  | _, [] => []
  | n, x :: l => ⟨⟨x.1.id, x.2.1.id, n⟩, isSpatial x.1.perceptionModality, x.2.2⟩ :: numbered (n + 1) l

theorem numbered_append (l m : List (Perception × Channel × Band)) (n : Nat) :
    numbered n (l ++ m) = numbered n l ++ numbered (n + l.length) m := by
  induction l generalizing n with
  | nil => rfl
  | cons x l ih =>
    simp only [List.cons_append, numbered, ih, List.length_cons]
    rw [show n + 1 + l.length = n + (l.length + 1) by omega]

/-- The bands of a list of perceptions. -/
def triples (ps : List Perception) : List (Perception × Channel × Band) :=
  ps.flatMap (fun p => p.channels.flatMap (fun c => c.bands.map (fun b => (p, c, b))))

theorem bandsOf_eq (h : Experience) : bandsOf h = numbered 0 (triples h.perceptions) := by
  have key : ∀ (l : List (Perception × Channel × Band)) (n : Nat),
      l.mapIdx (fun i x => (⟨⟨x.1.id, x.2.1.id, ((n + i : Nat) : Int)⟩,
        isSpatial x.1.perceptionModality, x.2.2⟩ : AddressedBand)) = numbered n l := by
    intro l
    induction l with
    | nil => intro n; rfl
    | cons x l ih =>
      intro n
      rw [List.mapIdx_cons, numbered, ← ih (n + 1)]
      simp only [Nat.add_zero, Nat.add_assoc, Nat.add_comm 1]
  have := key (triples h.perceptions) 0
  simp only [Nat.zero_add] at this
  exact this

/-- The places of bands in their channels, with consecutive band numbers from `n` on. -/
def streams : Nat → List Nat → List (Int × Nat)
  | _, [] => []
  | n, k :: ks => ((n : Int), k) :: streams (n + 1) ks

theorem streams_append (l m : List Nat) (n : Nat) :
    streams n (l ++ m) = streams n l ++ streams (n + l.length) m := by
  induction l generalizing n with
  | nil => rfl
  | cons x l ih =>
    simp only [List.cons_append, streams, ih, List.length_cons]
    rw [show n + 1 + l.length = n + (l.length + 1) by omega]

theorem streams_lt (l : List Nat) (n : Nat) : ∀ x ∈ streams n l, x.1 < (n + l.length : Nat) := by
  induction l generalizing n with
  | nil => intro x hx; simp [streams] at hx
  | cons k l ih =>
    intro x hx
    rw [streams, List.mem_cons] at hx
    rw [List.length_cons]
    rcases hx with rfl | hx
    · dsimp only; omega
    · have := ih (n + 1) x hx; push_cast at this ⊢; omega

/-- The packet of a band. -/
def bandPacketOf (x : AddressedBand) : Packet :=
  packetOf PacketType.MetadataBand (writeMetadataBand x.addr.bandId x.addr.perceId x.addr.channelId x.band)

theorem bandPacket_encode (x : AddressedBand) : bandPacket x = (bandPacketOf x).encode := by
  unfold bandPacket bandPacketOf packetOf
  dsimp only
  rw [padToByteBoundary_eq]
  generalize writeMetadataBand _ _ _ _ = b
  have h1 := fillBitset_length b
  unfold writeMIHSPacketHeader Packet.encode
  dsimp only
  rw [if_pos (show (fillBitset b).length % 8 = 0 by omega), if_neg (by decide), Nat.add_zero]
  simp only [List.append_assoc]
  rfl

theorem clear_of_perceptions {h h' : Experience} (hc : h.Clear)
    (h1 : h'.perceptions.map (fun p => (p.id, p.channels.map (·.id)))
      = h.perceptions.map (fun p => (p.id, p.channels.map (·.id)))) : h'.Clear := by
  constructor
  · have := congrArg (List.map Prod.fst) h1
    simp only [List.map_map] at this
    have e : h'.perceptions.map (·.id) = h.perceptions.map (·.id) := this
    rw [e]; exact hc.perceptions
  · have := congrArg (List.flatMap Prod.snd) h1
    simp only [List.flatMap_map] at this
    have e : h'.channelIds = h.channelIds := this
    rw [e]; exact hc.channels

/-- The bands `bs` of one channel. -/
theorem run_bands_of (p0 : Perception) (c0 : Channel) (hp0 : U 8 p0.id) (hc0 : U 16 c0.id)
    (P1 P2 : List Perception) (C1 C2 : List Channel) (bs : List Band) :
    ∀ (n : Nat) (p : Perception) (c : Channel) (r : Reader), p.id = p0.id → c.id = c0.id →
    (∀ b ∈ bs, b.HeaderFits) → n + bs.length ≤ 256 → (∀ x ∈ r.bandStreams, x.1 < (n : Int)) →
    r.haptic.Clear → p.channels = C1 ++ c :: C2 →
    r.haptic.perceptions = P1 ++ p :: P2 →
    RunsTo ((numbered n (bs.map (fun b => (p0, c0, b)))).map bandPacketOf) r
      { r with
        haptic := { r.haptic with perceptions := P1 ++
          { p with channels := C1 ++
            { c with bands := c.bands ++ bs.map Band.receivedHeader } :: C2 } :: P2 }
        bandStreams := r.bandStreams ++ streams n (List.range' c.bands.length bs.length) } := by
  induction bs with
  | nil =>
    intro n p c r _ _ _ _ _ _ hcs hr
    have : ({ r with
        haptic := { r.haptic with perceptions := P1 ++
          { p with channels := C1 ++
            { c with bands := c.bands ++ ([] : List Band).map Band.receivedHeader } :: C2 } :: P2 }
        bandStreams := r.bandStreams ++ streams n (List.range' c.bands.length ([] : List Band).length) }
          : Reader) = r := by
      simp only [List.map_nil, List.append_nil, List.length_nil, List.range'_zero, streams]
      rw [← hcs, ← hr]
    rw [this]
    exact .nil r
  | cons b bs ih =>
    intro n p c r hp hc hf hn hst hcl hcs hr
    have hi := searchPerception_split hcl hr
    have hj := searchChannel_split hcl hr hcs
    rw [hp] at hi
    rw [hc] at hj
    have hskel : (P1 ++ { p with channels := C1 ++
            { c with bands := c.bands ++ [b.receivedHeader] } :: C2 } :: P2).map
          (fun p => (p.id, p.channels.map (·.id)))
        = r.haptic.perceptions.map (fun p => (p.id, p.channels.map (·.id))) := by
      rw [hr]
      simp [hcs]
    have hrec := ih (n + 1) { p with channels := C1 ++ { c with bands := c.bands ++ [b.receivedHeader] } :: C2 }
      { c with bands := c.bands ++ [b.receivedHeader] }
      { r with
        haptic := { r.haptic with perceptions := P1 ++
          { p with channels := C1 ++ { c with bands := c.bands ++ [b.receivedHeader] } :: C2 } :: P2 }
        bandStreams := r.bandStreams ++ [((n : Int), c.bands.length)] } hp hc
      (fun x hx => hf x (by simp [hx])) (by simp only [List.length_cons] at hn; omega)
      (by
        intro x hx
        rw [List.mem_append, List.mem_singleton] at hx
        rcases hx with hx | rfl
        · have := hst x hx; push_cast; omega
        · push_cast; omega)
      (clear_of_perceptions hcl hskel) rfl rfl
    rw [List.map_cons, numbered, List.map_cons]
    refine .cons (r1 := { r with
        haptic := { r.haptic with perceptions := P1 ++
          { p with channels := C1 ++ { c with bands := c.bands ++ [b.receivedHeader] } :: C2 } :: P2 }
        bandStreams := r.bandStreams ++ [((n : Int), c.bands.length)] }) (fun rest => ?_) ?_
    · have hpi : r.haptic.perceptions[P1.length]? = some p := by rw [hr]; simp
      have hcj : p.channels[C1.length]? = some c := by rw [hcs]; simp
      refine handle_ok (c17_band r.haptic n p0.id c0.id b (by
        simp only [List.length_cons] at hn
        constructor <;> omega) hp0 hc0 P1.length C1.length p c hi hj hpi hcj
        (hf b (by simp))) r (onBand r) _ ?_ rest
      unfold onBand
      dsimp only
      rw [hpi, Option.bind_some, hcj]
      dsimp only
      have hs : searchBandInHaptic r.bandStreams (n : Int) = none := by
        unfold searchBandInHaptic
        rw [Option.map_eq_none_iff, List.find?_eq_none]
        intro x hx
        have := hst x hx
        rw [beq_iff_eq]
        omega
      rw [hs]
      dsimp only
      rw [hr, modify_split, hcs, modify_split]
    · have e1 : c.bands ++ [b.receivedHeader] ++ bs.map Band.receivedHeader
          = c.bands ++ (b :: bs).map Band.receivedHeader := by simp
      have e2 : r.bandStreams ++ [((n : Int), c.bands.length)] ++ streams (n + 1)
            (List.range' (c.bands ++ [b.receivedHeader]).length bs.length)
          = r.bandStreams ++ streams n (List.range' c.bands.length (b :: bs).length) := by
        rw [List.length_cons, List.range'_succ, streams]
        simp
      dsimp only at hrec
      rw [e1, e2] at hrec
      exact hrec

/-- A channel of which all is known but effects. -/
def Channel.withBands (c : Channel) : Channel :=
  { c.receivedHeader with bands := c.bands.map Band.receivedHeader }

/-- The bands of the channels `cs` of one perception. -/
theorem run_bands_in (p0 : Perception) (hp0 : U 8 p0.id) (P1 P2 : List Perception) (cs : List Channel) :
    ∀ (n : Nat) (C1 : List Channel) (p : Perception) (r : Reader), p.id = p0.id →
    (∀ c ∈ cs, c.HeaderFits ∧ ∀ b ∈ c.bands, b.HeaderFits) →
    n + (cs.flatMap (·.bands)).length ≤ 256 → (∀ x ∈ r.bandStreams, x.1 < (n : Int)) →
    r.haptic.Clear → p.channels = C1 ++ cs.map Channel.receivedHeader →
    r.haptic.perceptions = P1 ++ p :: P2 →
    RunsTo ((numbered n (cs.flatMap (fun c => c.bands.map (fun b => (p0, c, b))))).map bandPacketOf) r
      { r with
        haptic := { r.haptic with perceptions := P1 ++
          { p with channels := C1 ++ cs.map Channel.withBands } :: P2 }
        bandStreams := r.bandStreams ++ streams n (cs.flatMap (fun c => List.range c.bands.length)) } := by
  induction cs with
  | nil =>
    intro n C1 p r _ _ _ _ _ hcs hr
    have : ({ r with
        haptic := { r.haptic with perceptions := P1 ++
          { p with channels := C1 ++ ([] : List Channel).map Channel.withBands } :: P2 }
        bandStreams := r.bandStreams ++ streams n
          (([] : List Channel).flatMap (fun c => List.range c.bands.length)) } : Reader) = r := by
      simp only [List.map_nil, List.append_nil, List.flatMap_nil, streams] at hcs ⊢
      rw [← hcs, ← hr]
    rw [this]
    exact .nil r
  | cons c cs ih =>
    intro n C1 p r hp hf hn hst hcl hcs hr
    obtain ⟨h1, h2⟩ := hf c (by simp)
    rw [List.flatMap_cons, List.length_append] at hn
    have hchild := run_bands_of p0 c hp0 h1.id P1 P2 C1 (cs.map Channel.receivedHeader) c.bands n p
      c.receivedHeader r hp rfl h2 (by omega) hst hcl (by rw [hcs, List.map_cons]) hr
    have e0 : ({ c.receivedHeader with
        bands := c.receivedHeader.bands ++ c.bands.map Band.receivedHeader } : Channel) = c.withBands := rfl
    have e1 : List.range' c.receivedHeader.bands.length c.bands.length = List.range c.bands.length := by
      rw [List.range_eq_range']; rfl
    rw [e0, e1] at hchild
    rw [List.flatMap_cons, numbered_append, List.map_append, List.length_map]
    refine hchild.append ?_
    have hskel : (P1 ++ { p with channels := C1 ++ c.withBands :: cs.map Channel.receivedHeader } :: P2).map
          (fun p => (p.id, p.channels.map (·.id)))
        = r.haptic.perceptions.map (fun p => (p.id, p.channels.map (·.id))) := by
      rw [hr]
      simp [hcs, Channel.withBands, Channel.receivedHeader]
    have hrec := ih (n + c.bands.length) (C1 ++ [c.withBands])
      { p with channels := C1 ++ c.withBands :: cs.map Channel.receivedHeader }
      { r with
        haptic := { r.haptic with perceptions := P1 ++
          { p with channels := C1 ++ c.withBands :: cs.map Channel.receivedHeader } :: P2 }
        bandStreams := r.bandStreams ++ streams n (List.range c.bands.length) } hp
      (fun x hx => hf x (by simp [hx])) (by omega)
      (by
        intro x hx
        rw [List.mem_append] at hx
        rcases hx with hx | hx
        · have := hst x hx; push_cast; omega
        · have := streams_lt _ _ x hx
          rw [List.length_range] at this
          exact this)
      (clear_of_perceptions hcl hskel) (by simp) rfl
    have e2 : C1 ++ [c.withBands] ++ cs.map Channel.withBands = C1 ++ (c :: cs).map Channel.withBands := by
      simp
    have e3 : r.bandStreams ++ streams n (List.range c.bands.length)
          ++ streams (n + c.bands.length) (cs.flatMap (fun c => List.range c.bands.length))
        = r.bandStreams ++ streams n ((c :: cs).flatMap (fun c => List.range c.bands.length)) := by
      rw [List.flatMap_cons, streams_append, List.length_range, List.append_assoc]
    dsimp only at hrec
    rw [e2, e3] at hrec
    exact hrec

/-- A perception of which all is known but effects. -/
def Perception.withBands (p : Perception) : Perception :=
  { p.withLibrary with channels := p.channels.map Channel.withBands }

/-- All bands. -/
theorem run_bands (ps : List Perception) :
    ∀ (n : Nat) (P1 : List Perception) (r : Reader),
    (∀ p ∈ ps, p.HeaderFits ∧ ∀ c ∈ p.channels, c.HeaderFits ∧ ∀ b ∈ c.bands, b.HeaderFits) →
    n + (ps.flatMap (fun p => p.channels.flatMap (·.bands))).length ≤ 256 →
    (∀ x ∈ r.bandStreams, x.1 < (n : Int)) → r.haptic.Clear →
    r.haptic.perceptions = P1 ++ ps.map Perception.withChannels →
    RunsTo ((numbered n (triples ps)).map bandPacketOf) r
      { r with
        haptic := { r.haptic with perceptions := P1 ++ ps.map Perception.withBands }
        bandStreams := r.bandStreams ++ streams n
          (ps.flatMap (fun p => p.channels.flatMap (fun c => List.range c.bands.length))) } := by
  induction ps with
  | nil =>
    intro n P1 r _ _ _ _ hr
    have : ({ r with
        haptic := { r.haptic with perceptions := P1 ++ ([] : List Perception).map Perception.withBands }
        bandStreams := r.bandStreams ++ streams n (([] : List Perception).flatMap
          (fun p => p.channels.flatMap (fun c => List.range c.bands.length))) } : Reader) = r := by
      simp only [List.map_nil, List.append_nil, List.flatMap_nil, streams] at hr ⊢
      rw [← hr]
    rw [this]
    exact .nil r
  | cons p ps ih =>
    intro n P1 r hf hn hst hcl hr
    obtain ⟨h1, h2⟩ := hf p (by simp)
    rw [List.flatMap_cons, List.length_append] at hn
    have hchild := run_bands_in p h1.id P1 (ps.map Perception.withChannels) p.channels n [] p.withChannels r
      rfl h2 (by omega) hst hcl (by simp [Perception.withChannels]) (by rw [hr, List.map_cons])
    have e0 : ({ p.withChannels with channels := [] ++ p.channels.map Channel.withBands } : Perception)
        = p.withBands := rfl
    rw [e0] at hchild
    have hlen : (p.channels.flatMap (fun c => c.bands.map (fun b => (p, c, b)))).length
        = (p.channels.flatMap (·.bands)).length := by
      simp [List.length_flatMap]
    have hlen' : (p.channels.flatMap (fun c => List.range c.bands.length)).length
        = (p.channels.flatMap (·.bands)).length := by
      simp [List.length_flatMap]
    unfold triples at ih ⊢
    rw [List.flatMap_cons, numbered_append, List.map_append, hlen]
    refine hchild.append ?_
    have hskel : (P1 ++ p.withBands :: ps.map Perception.withChannels).map
          (fun p => (p.id, p.channels.map (·.id)))
        = r.haptic.perceptions.map (fun p => (p.id, p.channels.map (·.id))) := by
      rw [hr]
      simp [Perception.withBands, Perception.withChannels, Perception.withLibrary,
        Perception.receivedHeader, Channel.withBands, Channel.receivedHeader]
    have hrec := ih (n + (p.channels.flatMap (·.bands)).length) (P1 ++ [p.withBands])
      { r with
        haptic := { r.haptic with perceptions := P1 ++ p.withBands :: ps.map Perception.withChannels }
        bandStreams := r.bandStreams ++ streams n
          (p.channels.flatMap (fun c => List.range c.bands.length)) }
      (fun x hx => hf x (by simp [hx])) (by omega)
      (by
        intro x hx
        rw [List.mem_append] at hx
        rcases hx with hx | hx
        · have := hst x hx; push_cast; omega
        · have := streams_lt _ _ x hx
          rw [hlen'] at this
          exact this)
      (clear_of_perceptions hcl hskel) (by simp)
    have e2 : P1 ++ [p.withBands] ++ ps.map Perception.withBands
        = P1 ++ (p :: ps).map Perception.withBands := by simp
    have e3 : r.bandStreams ++ streams n (p.channels.flatMap (fun c => List.range c.bands.length))
          ++ streams (n + (p.channels.flatMap (·.bands)).length)
            (ps.flatMap (fun p => p.channels.flatMap (fun c => List.range c.bands.length)))
        = r.bandStreams ++ streams n
          ((p :: ps).flatMap (fun p => p.channels.flatMap (fun c => List.range c.bands.length))) := by
      rw [List.flatMap_cons, streams_append, hlen', List.append_assoc]
    dsimp only at hrec
    rw [e2, e3] at hrec
    exact hrec

/-! ### The whole unit -/

/-- What must hold of the parts of an experience that an initialization unit describes. -/
structure Experience.InitFits (h : Experience) : Prop where
  header : h.HeaderFits
  perceptions : ∀ p ∈ h.perceptions, p.HeaderFits
  libraries : ∀ p ∈ h.perceptions, p.effectLibrary.length < 65536 ∧ ∀ e ∈ p.effectLibrary, e.LibFits
  channels : ∀ p ∈ h.perceptions, ∀ c ∈ p.channels, c.HeaderFits
  bands : ∀ p ∈ h.perceptions, ∀ c ∈ p.channels, ∀ b ∈ c.bands, b.HeaderFits
  clear : h.Clear
  count : h.allBands.length ≤ 256

/-- The packets that describe an experience whose header is written as `b`. -/
def metadataPackets (b : Bits) (h : Experience) : List Packet :=
  [packetOf PacketType.MetadataHaptics b]
  ++ (h.perceptions.map (fun p => packetOf PacketType.MetadataPerception (writeMetadataPerception p))
  ++ (libPackets h.perceptions
  ++ (h.perceptions.flatMap (fun p => p.channels.map (fun c =>
        packetOf PacketType.MetadataChannel (writeMetadataChannel p.id c)))
  ++ (numbered 0 (triples h.perceptions)).map bandPacketOf)))

/-- An experience of which all is known but effects. -/
def Experience.withBands (h old : Experience) : Experience :=
  { h.receivedHeader old with perceptions := h.perceptions.map Perception.withBands }

/-- The places of all bands. -/
def Experience.streams (h : Experience) : List (Int × Nat) :=
  Haptics.streams 0 (h.perceptions.flatMap (fun p => p.channels.flatMap (fun c => List.range c.bands.length)))

theorem run_metadata (h : Experience) (hf : h.InitFits) (r : Reader) (hr : r.haptic.perceptions = [])
    (hs : r.bandStreams = []) (b : Bits) (hb : writeMetadataHaptics h = .ok b) :
    RunsTo (metadataPackets b h) r
      { r with haptic := h.withBands r.haptic, bandStreams := h.streams } := by
  obtain ⟨b', hb', hread⟩ := c17_experience h r.haptic hf.header
  rw [hb] at hb'
  cases hb'
  have h1 : RunsTo [packetOf PacketType.MetadataHaptics b] r
      { r with haptic := h.receivedHeader r.haptic } :=
    .one (fun rest => handle_ok hread r (fun h => .ok { r with haptic := h }) _ rfl rest)
  have h2 := run_perceptions h.perceptions [] { r with haptic := h.receivedHeader r.haptic } hf.perceptions
    hf.clear.perceptions hr
  have h3 := run_libraries h.perceptions []
    { r with haptic := { h.receivedHeader r.haptic with
      perceptions := [] ++ h.perceptions.map Perception.receivedHeader } }
    (fun p hp => ⟨hf.perceptions p hp, hf.libraries p hp⟩) hf.clear.perceptions rfl
  have h4 := run_channels h.perceptions []
    { r with haptic := { h.receivedHeader r.haptic with
      perceptions := [] ++ h.perceptions.map Perception.withLibrary } }
    (fun p hp => ⟨hf.perceptions p hp, hf.channels p hp⟩) hf.clear.perceptions hf.clear.channels rfl
  have h5 := run_bands h.perceptions 0 []
    { r with haptic := { h.receivedHeader r.haptic with
      perceptions := [] ++ h.perceptions.map Perception.withChannels } }
    (fun p hp => ⟨hf.perceptions p hp, fun c hc => ⟨hf.channels p hp c hc, hf.bands p hp c hc⟩⟩)
    (by rw [Nat.zero_add]; exact hf.count) (by dsimp only; rw [hs]; simp)
    (clear_of_perceptions hf.clear (by
      simp [Perception.withChannels, Perception.withLibrary, Perception.receivedHeader,
        Channel.receivedHeader])) rfl
  have := h1.append (h2.append (h3.append (h4.append h5)))
  have e : ({ r with
      haptic := { h.receivedHeader r.haptic with
        perceptions := [] ++ h.perceptions.map Perception.withBands }
      bandStreams := r.bandStreams ++ Haptics.streams 0
          (h.perceptions.flatMap (fun p => p.channels.flatMap (fun c => List.range c.bands.length))) }
        : Reader) = { r with haptic := h.withBands r.haptic, bandStreams := h.streams } := by
    rw [hs]; rfl
  dsimp only at this
  rw [← e]
  exact this

/-- The packets of the initialization unit of an experience without empty parts. -/
theorem initPacketsOf_eq (h g : Experience) (h1 : checkHapticComponent h = g)
    (h2 : checkHapticComponent g = g) (hf : g.InitFits) :
    ∃ b, writeMetadataHaptics g = .ok b ∧
      initPacketsOf h = .ok ((metadataPackets b g).map Packet.encode) := by
  obtain ⟨b, hb, -⟩ := c17_experience g {} hf.header
  refine ⟨b, hb, ?_⟩
  have hl := libraryPacketsOf_eq g.perceptions (fun p hp => ⟨hf.perceptions p hp, hf.libraries p hp⟩)
  have e1 : perceptionPackets g = (g.perceptions.map (fun p =>
      packetOf PacketType.MetadataPerception (writeMetadataPerception p))).map Packet.encode := by
    unfold perceptionPackets
    rw [List.map_map]
    apply List.map_congr_left
    intro p _
    exact writePacket_encode _ _ (by decide)
  have e2 : channelPackets g = (g.perceptions.flatMap (fun p => p.channels.map (fun c =>
        packetOf PacketType.MetadataChannel (writeMetadataChannel p.id c)))).map Packet.encode := by
    unfold channelPackets
    rw [List.map_flatMap]
    congr 1
    funext p
    rw [List.map_map]
    apply List.map_congr_left
    intro c _
    exact writePacket_encode _ _ (by decide)
  have e3 : bandPackets g = ((numbered 0 (triples g.perceptions)).map bandPacketOf).map Packet.encode := by
    unfold bandPackets
    rw [bandsOf_eq, List.map_map]
    apply List.map_congr_left
    intro x _
    exact bandPacket_encode x
  unfold initPacketsOf
  dsimp only
  rw [h1, h2, h2, h2, h2]
  unfold metadataHapticsPackets libraryPackets
  rw [hb, hl]
  dsimp only
  rw [e1, e2, e3, writePacket_encode _ _ (by decide)]
  unfold metadataPackets
  simp only [List.map_append, List.map_cons, List.map_nil]
  rfl

theorem libPackets_form (ps : List Perception) : ∀ p ∈ libPackets ps, ∃ bits,
    p = packetOf PacketType.EffectLibrary bits := by
  induction ps with
  | nil => simp [libPackets]
  | cons q ps ih =>
    intro p hp
    unfold libPackets at hp
    split at hp
    · exact ih p hp
    · rw [List.mem_append] at hp
      rcases hp with hp | hp
      · split at hp
        · rw [List.mem_singleton] at hp; exact ⟨_, hp⟩
        · simp at hp
      · exact ih p hp

theorem metadataPackets_form (b : Bits) (g : Experience) : ∀ p ∈ metadataPackets b g, ∃ t bits, t < 64 ∧
    p = packetOf t bits := by
  intro p hp
  unfold metadataPackets at hp
  simp only [List.mem_append, List.mem_singleton, List.mem_map, List.mem_flatMap] at hp
  rcases hp with rfl | ⟨q, -, rfl⟩ | hp | ⟨q, -, c, -, rfl⟩ | ⟨x, -, rfl⟩
  · exact ⟨_, _, by decide, rfl⟩
  · exact ⟨_, _, by decide, rfl⟩
  · obtain ⟨bits, rfl⟩ := libPackets_form _ p hp
    exact ⟨_, _, by decide, rfl⟩
  · exact ⟨_, _, by decide, rfl⟩
  · exact ⟨_, _, by decide, rfl⟩

theorem writeMetadataHaptics_length {h : Experience} {b : Bits} (hb : writeMetadataHaptics h = .ok b) :
    48 < b.length := by
  unfold writeMetadataHaptics at hb
  split at hb
  · cases hb
  · cases hb
    simp only [List.length_append, writeNBits_length, wStr8]
    simp only [MDEXP_LEVEL, MDEXP_PERC_COUNT, MDEXP_AVATAR_COUNT]
    omega

theorem writeMetadataBand_length (x y z : Int) (b : Band) : 48 < (writeMetadataBand x y z b).length := by
  unfold writeMetadataBand
  simp only [List.length_append, writeNBits_length]
  simp only [MDBAND_ID, MDPERCE_ID, MDCHANNEL_ID, MDBAND_PRIORITY, MDBAND_BAND_TYPE, MDBAND_LOW_FREQ,
    MDBAND_UP_FREQ]
  omega

theorem metadataPackets_last {b : Bits} {g : Experience} (hb : writeMetadataHaptics g = .ok b)
    (htidy : ∀ p ∈ g.perceptions, p.channels ≠ [] ∧ ∀ c ∈ p.channels, c.bands ≠ []) :
    ∀ p ∈ (metadataPackets b g).getLast?, 48 < p.payload.length := by
  intro p hp
  have hfill : ∀ bits : Bits, 48 < bits.length → 48 < (fillBitset bits).length := by
    intro bits h
    rw [fillBitset_length]; omega
  cases hps : g.perceptions with
  | nil =>
    have e : metadataPackets b g = [packetOf PacketType.MetadataHaptics b] := by
      unfold metadataPackets
      rw [hps]; rfl
    rw [e] at hp
    simp only [List.getLast?_singleton, Option.mem_def, Option.some.injEq] at hp
    subst hp
    exact hfill b (writeMetadataHaptics_length hb)
  | cons q qs =>
    have hne : (numbered 0 (triples g.perceptions)).map bandPacketOf ≠ [] := by
      obtain ⟨h1, h2⟩ := htidy q (by rw [hps]; simp)
      obtain ⟨c, cs, hc⟩ := List.exists_cons_of_ne_nil h1
      obtain ⟨x, xs, hx⟩ := List.exists_cons_of_ne_nil (h2 c (by rw [hc]; simp))
      have : ∃ t ts, triples g.perceptions = t :: ts := by
        unfold triples
        rw [hps, List.flatMap_cons, hc, List.flatMap_cons, hx]
        exact ⟨_, _, rfl⟩
      obtain ⟨t, ts, ht⟩ := this
      rw [ht]
      simp [numbered]
    have e : (metadataPackets b g).getLast? = ((numbered 0 (triples g.perceptions)).map bandPacketOf).getLast? := by
      unfold metadataPackets
      rw [← List.append_assoc, ← List.append_assoc, ← List.append_assoc, List.getLast?_append]
      obtain ⟨z, hz⟩ := List.getLast?_isSome.2 hne |> Option.isSome_iff_exists.1
      rw [hz]; rfl
    rw [e] at hp
    have hm := List.mem_of_getLast? hp
    obtain ⟨x, -, rfl⟩ := List.mem_map.1 hm
    exact hfill _ (writeMetadataBand_length _ _ _ _)

/-- The reader after the timing packet of an initialization unit. -/
def Reader.timed (r : Reader) (w : Writer) : Reader :=
  { r with
    haptic := { r.haptic with
      syncs := r.haptic.syncs ++ [{ timestamp := w.time, timescale := some w.timescale }] }
    time := w.time.toNat
    packetDuration := 0
    timescale := w.timescale
    waitSync := false
    overlapping := w.overlapping
    nominalDuration := w.nominalDuration
    durationDeviation := w.durationDeviation
    layer := w.layer }

/-- A receiver reads an initialization unit. -/
theorem read_init_of (g : Experience)
    (htidy : ∀ p ∈ g.perceptions, p.channels ≠ [] ∧ ∀ c ∈ p.channels, c.bands ≠ [])
    (b : Bits) (hb : writeMetadataHaptics g = .ok b)
    (hsmall : SmallPackets ((metadataPackets b g).map Packet.encode)) (w : Writer) (hw1 : 0 ≤ w.time)
    (hw1' : w.time < 2 ^ 31)
    (hw2 : w.timescale < 2 ^ 32) (hw3 : w.nominalDuration < 2 ^ 24) (hw4 : w.durationDeviation < 2 ^ 24)
    (hw5 : w.layer < 16) (r r' : Reader) (hrun : RunsTo (metadataPackets b g) (r.timed w) r')
    (hr1 : r'.packetDuration = 0) (hr2 : r'.time = w.time.toNat) :
    readMIHSUnit dispatch (writeInitializationUnit w ((metadataPackets b g).map Packet.encode)) r =
      .ok (true, r') := by
  have hit : initTimingPacket w = (packetOf PacketType.InitializationTiming (writeInitializationTiming
      { time := w.time, timescale := w.timescale, nominalDuration := w.nominalDuration,
        durationDeviation := w.durationDeviation, overlapping := w.overlapping })).encode :=
    writePacket_encode _ _ (by decide)
  generalize hti : writeInitializationTiming
      { time := w.time, timescale := w.timescale, nominalDuration := w.nominalDuration,
        durationDeviation := w.durationDeviation, overlapping := w.overlapping } = ti at hit
  have htilen : ti.length = 113 := by
    rw [← hti]
    simp only [writeInitializationTiming, List.length_append, writeNBits_length]
    rfl
  have hform := metadataPackets_form b g
  have hlast := metadataPackets_last hb htidy
  generalize hL : metadataPackets b g = L at hsmall hrun hform hlast ⊢
  have hfuse : initTimingPacket w ++ (L.map Packet.encode).flatten
      = (packetOf PacketType.InitializationTiming ti :: L).flatMap Packet.encode := by
    rw [hit, List.flatMap_cons, List.flatMap_def]
  have hpay : ∀ t bits, (packetOf t bits).payload.length = 8 * ((bits.length + 7) / 8) :=
    fun t bits => fillBitset_length bits
  have hwf : ∀ p ∈ packetOf PacketType.InitializationTiming ti :: L, p.WF := by
    intro p hp
    rw [List.mem_cons] at hp
    rcases hp with rfl | hp
    · refine ⟨by change 11 < 64; omega, by rw [hpay]; omega, by rw [hpay, htilen]; omega⟩
    · have h1 := hsmall.each _ (List.mem_map_of_mem hp)
      obtain ⟨t, bits, ht, rfl⟩ := hform p hp
      rw [Packet.encode_length] at h1
      exact ⟨ht, by rw [hpay]; omega, by omega⟩
  have hread := c15_unit_partial dispatch UnitType.Initialization 0 w.layer 0 (by decide) (by omega) hw5
    (by omega) (packetOf PacketType.InitializationTiming ti :: L) hwf
    (by
      have h1 := hsmall.total
      rw [← List.flatMap_def] at h1
      rw [List.flatMap_cons, List.length_append, Packet.encode_length, hpay, htilen]
      omega)
    (by
      intro hne
      clear hrun hfuse hsmall hform hL hwf
      cases L with
      | nil => simp only [List.getLast_singleton, hpay, htilen]; omega
      | cons q qs =>
        rw [List.getLast_cons (by simp)]
        apply hlast
        exact List.getLast?_eq_getLast_of_ne_nil _) r
  unfold writeInitializationUnit
  dsimp only
  rw [hfuse]
  have hti' : RunsTo [packetOf PacketType.InitializationTiming ti]
      { r with waitSync := false, layer := w.layer, packetDuration := 0 } (r.timed w) := by
    refine .one (fun rest => ?_)
    refine handle_ok (p := readInitializationTiming) (b := ti)
      (a := { time := w.time, timescale := w.timescale, nominalDuration := w.nominalDuration,
              durationDeviation := w.durationDeviation, overlapping := w.overlapping }) (fun rest => ?_) _
      (onInitializationTiming { r with waitSync := false, layer := w.layer, packetDuration := 0 }) _ ?_ rest
    · rw [← hti]
      exact c16_initTiming _ (by dsimp only; omega) hw1' hw2 hw3 hw4 rest
    · have : toU32 w.time = w.time.toNat := by unfold toU32; omega
      unfold onInitializationTiming Reader.timed
      dsimp only
      rw [this]
  have hall := (hti'.append hrun).all
  unfold unitEffect at hread
  rw [List.singleton_append] at hall
  simp only [Nat.cast_zero] at hread
  refine hread.trans ?_
  have hws : (r.waitSync && !((0 : Nat) == 0)) = false := by simp
  rw [hws, hall]
  have : (r'.time + r'.packetDuration) % 2 ^ 32 = r'.time := by rw [hr1, hr2]; omega
  change Except.ok (true, { r' with time := (r'.time + r'.packetDuration) % 2 ^ 32 }) = _
  rw [this]

/-- A receiver that knows nothing reads an initialization unit. -/
theorem read_init (g : Experience) (hf : g.InitFits)
    (htidy : ∀ p ∈ g.perceptions, p.channels ≠ [] ∧ ∀ c ∈ p.channels, c.bands ≠ [])
    (b : Bits) (hb : writeMetadataHaptics g = .ok b)
    (hsmall : SmallPackets ((metadataPackets b g).map Packet.encode)) (w : Writer) (hw1 : w.time = 0)
    (hw2 : w.timescale < 2 ^ 32) (hw3 : w.nominalDuration < 2 ^ 24) (hw4 : w.durationDeviation < 2 ^ 24)
    (hw5 : w.layer < 16) :
    readMIHSUnit dispatch (writeInitializationUnit w ((metadataPackets b g).map Packet.encode)) {} =
      .ok (true, {
        haptic := g.withBands { syncs := [{ timestamp := 0, timescale := some w.timescale }] }
        bandStreams := g.streams
        timescale := w.timescale
        overlapping := w.overlapping
        nominalDuration := w.nominalDuration
        durationDeviation := w.durationDeviation
        layer := w.layer }) := by
  have h := read_init_of g htidy b hb hsmall w (by omega) (by omega) hw2 hw3 hw4 hw5 {} _
    (run_metadata g hf _ rfl rfl b hb) rfl rfl
  rw [h]
  unfold Reader.timed
  simp only [hw1]
  rfl

end Haptics
