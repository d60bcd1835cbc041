import Verif.Stream.PropsReassemble
import Verif.Stream.PropsData

/-
C18, C19, C20: splitting bands into packets, effect identifiers and the order of packets.
-/
namespace Haptics

/-! ## C20 – effect identifiers -/

theorem foldl_max_ge (l : List Int) (a : Int) : a ≤ l.foldl max a ∧ ∀ x ∈ l, x ≤ l.foldl max a := by
  induction l generalizing a with
  | nil => simp
  | cons b l ih =>
    obtain ⟨h1, h2⟩ := ih (max a b)
    refine ⟨by simp only [List.foldl_cons]; omega, ?_⟩
    intro x hx
    rcases List.mem_cons.mp hx with rfl | hx
    · simp only [List.foldl_cons]; omega
    · exact h2 x hx

/-- **C20** The next identifier is above every identifier in use. -/
theorem c20_next (ids : List Int) : ∀ i ∈ ids, i < nextEffectId ids := by
  intro i hi
  cases ids with
  | nil => simp at hi
  | cons a l =>
    obtain ⟨h1, h2⟩ := foldl_max_ge l a
    change i < l.foldl max a + 1
    rcases List.mem_cons.mp hi with rfl | hi
    · omega
    · have := h2 i hi; omega

theorem nextEffectId_nonneg {ids : List Int} (h : ∀ i ∈ ids, 0 ≤ i) : 0 ≤ nextEffectId ids := by
  cases ids with
  | nil => simp [nextEffectId]
  | cons a l =>
    have h1 := c20_next (a :: l) a (by simp)
    have h2 := h a (by simp)
    omega

/-- The identifiers given to the effects of a band, one after the other. -/
def assignAll : List Int → List Effect → List Effect × List Int
  | ids, [] => ([], ids)
  | ids, e :: es =>
    let r := assignId ids e
    let s := assignAll r.2 es
    (r.1 :: s.1, s.2)

theorem assignId_ids_nonneg {ids : List Int} {e : Effect} (h : ∀ i ∈ ids, 0 ≤ i) :
    ∀ i ∈ (assignId ids e).2, 0 ≤ i := by
  unfold assignId
  split
  · intro i hi
    rcases List.mem_append.mp hi with hi | hi
    · exact h i hi
    · rw [List.mem_singleton] at hi
      rw [hi]
      exact nextEffectId_nonneg h
  · exact h

theorem assignId_id_ne {ids : List Int} {e : Effect} (h : ∀ i ∈ ids, 0 ≤ i) :
    (assignId ids e).1.id ≠ -1 := by
  unfold assignId
  split
  · have := nextEffectId_nonneg h
    simp only [ne_eq]
    omega
  · assumption

/-- Assigning twice is assigning once. -/
theorem assignId_idem {ids : List Int} {e : Effect} (h : ∀ i ∈ ids, 0 ≤ i) :
    assignId (assignId ids e).2 (assignId ids e).1 = assignId ids e := by
  have := assignId_id_ne (e := e) h
  generalize assignId ids e = r at *
  rw [assignId, if_neg this]

theorem assignId_same (ids : List Int) (e : Effect) :
    (assignId ids e).1 = { e with id := (assignId ids e).1.id } := by
  unfold assignId
  split
  · rfl
  · cases e; rfl

theorem assignAll_mono (es : List Effect) (ids : List Int) (i : Int) (h : i ∈ ids) :
    i ∈ (assignAll ids es).2 := by
  induction es generalizing ids with
  | nil => exact h
  | cons e es ih =>
    apply ih
    unfold assignId
    split
    · exact List.mem_append_left _ h
    · exact h

theorem assignId_mem (e : Effect) (ids : List Int) (hin : e.id = -1 ∨ e.id ∈ ids) :
    (assignId ids e).1.id ∈ (assignId ids e).2 := by
  unfold assignId
  split
  · simp
  · rename_i hne
    exact hin.resolve_left hne

theorem assignId_mono (e : Effect) (ids : List Int) : ∀ i ∈ ids, i ∈ (assignId ids e).2 := by
  intro i hi
  unfold assignId
  split
  · exact List.mem_append_left _ hi
  · exact hi

theorem assignAll_append (a b : List Effect) (ids : List Int) :
    assignAll ids (a ++ b) = ((assignAll ids a).1 ++ (assignAll (assignAll ids a).2 b).1,
      (assignAll (assignAll ids a).2 b).2) := by
  induction a generalizing ids with
  | nil => rfl
  | cons e a ih => simp only [List.cons_append, assignAll, ih]

/-- **C20** Among the effects of a band – with the identifiers in use containing those of the band – an
effect that had no identifier gets one that differs from every identifier in use and from those of all
other effects of the band; an effect that had one keeps it. -/
theorem c20_band (es : List Effect) (ids : List Int) (hin : ∀ e ∈ es, e.id = -1 ∨ e.id ∈ ids) :
    (assignAll ids es).1.length = es.length ∧
    (∀ k (hk : k < es.length), ∃ e', (assignAll ids es).1[k]? = some e' ∧
      (es[k].id ≠ -1 → e' = es[k]) ∧
      (es[k].id = -1 → e' = { es[k] with id := e'.id } ∧ e'.id ∉ ids)) ∧
    (List.zip es (assignAll ids es).1).Pairwise (fun x y => y.1.id = -1 ∨ x.1.id = -1 → x.2.id ≠ y.2.id) := by
  induction es generalizing ids with
  | nil => simp [assignAll]
  | cons e es ih =>
    have hsub := assignId_mono e ids
    have hin' : ∀ x ∈ es, x.id = -1 ∨ x.id ∈ (assignId ids e).2 := fun x hx => by
      rcases hin x (by simp [hx]) with h | h
      · exact .inl h
      · exact .inr (hsub _ h)
    obtain ⟨h0, h1, h2⟩ := ih (assignId ids e).2 hin'
    have hme := assignId_mem e ids (hin e (by simp))
    refine ⟨by simp [assignAll, h0], ?_, ?_⟩
    · intro k hk
      cases k with
      | zero =>
        refine ⟨(assignId ids e).1, rfl, ?_, ?_⟩
        · intro hne
          simp only [List.getElem_cons_zero] at hne ⊢
          unfold assignId; rw [if_neg hne]
        · intro heq
          simp only [List.getElem_cons_zero] at heq
          refine ⟨assignId_same ids e, fun hc => ?_⟩
          unfold assignId at hc
          rw [if_pos heq] at hc
          have := c20_next ids _ hc
          simp at this
      | succ k =>
        obtain ⟨e', a, b, c⟩ := h1 k (by simpa using hk)
        exact ⟨e', a, b, fun hh => ⟨(c hh).1, fun hc => (c hh).2 (hsub _ hc)⟩⟩
    · simp only [assignAll, List.zip_cons_cons, List.pairwise_cons]
      refine ⟨?_, h2⟩
      intro y hy hor
      obtain ⟨k, hk, hy⟩ := List.getElem_of_mem hy
      rw [List.length_zip, h0, Nat.min_self] at hk
      obtain ⟨e', a, b, c⟩ := h1 k hk
      rw [List.getElem_zip] at hy
      have hk2 : k < (assignAll (assignId ids e).2 es).1.length := by rw [h0]; exact hk
      have a' : (assignAll (assignId ids e).2 es).1[k] = e' := by
        rw [List.getElem?_eq_getElem hk2] at a; injection a
      rw [a'] at hy
      subst hy
      simp only at hor ⊢
      by_cases hk1 : es[k].id = -1
      · intro hc
        exact (c hk1).2 (hc ▸ hme)
      · rw [b hk1]
        have he : e.id = -1 := hor.resolve_left hk1
        have hmem : es[k].id ∈ ids := (hin es[k] (by simp)).resolve_left hk1
        have : (assignId ids e).1.id = nextEffectId ids := by
          unfold assignId; rw [if_pos he]
        rw [this]
        have := c20_next ids _ hmem
        omega

/-- The identifiers looked at before packetising are those of all effects directly in a band. -/
theorem c20_ids_in_use (h : Experience) (p : Perception) (hp : p ∈ h.perceptions) (c : Channel)
    (hc : c ∈ p.channels) (b : Band) (hb : b ∈ c.bands) (e : Effect) (he : e ∈ b.effects) :
    e.id = -1 ∨ e.id ∈ getEffectsId h := by
  by_cases hid : e.id = -1
  · exact .inl hid
  · right
    unfold getEffectsId
    rw [List.mem_filter]
    refine ⟨?_, by simpa using hid⟩
    simp only [List.mem_flatMap, List.mem_map]
    exact ⟨p, hp, c, hc, b, hb, e, he, rfl⟩

/-- **C20** for an experience without composite effects: an effect without identifier gets one that no
effect of any band of the experience has, whatever has been given out before (`given`). -/
theorem c20_experience_partial (h : Experience) (given : List Int) (e : Effect) (he : e.id = -1)
    (p : Perception) (hp : p ∈ h.perceptions) (c : Channel) (hc : c ∈ p.channels) (b : Band)
    (hb : b ∈ c.bands) (x : Effect) (hx : x ∈ b.effects) (hxid : 0 ≤ x.id) :
    (assignId (getEffectsId h ++ given) e).1.id ≠ x.id ∧
      (assignId (getEffectsId h ++ given) e).1.id ∉ given := by
  have hfresh : (assignId (getEffectsId h ++ given) e).1.id = nextEffectId (getEffectsId h ++ given) := by
    unfold assignId; rw [if_pos he]
  rw [hfresh]
  constructor
  · have hin := (c20_ids_in_use h p hp c hc b hb x hx).resolve_left (by omega)
    have := c20_next (getEffectsId h ++ given) x.id (List.mem_append_left _ hin)
    omega
  · intro hc
    have := c20_next (getEffectsId h ++ given) _ (List.mem_append_right _ hc)
    omega

example : (assignAll [4, 9] [{ id := 9 }, { }, { id := 4 }, { }]).1.map (·.id) = [9, 10, 4, 11] := by
  decide +kernel

/-- An experience with one band: a composite effect containing an effect with identifier 0, and an
effect without identifier. -/
def compositeExperience : Experience :=
  { perceptions := [{ channels := [{ bands := [{ effects :=
      [{ effectType := EffectType.Composite, timeline := [{ id := 0, keyframes := [{ relativePosition := some 0 }] }] },
       { position := 10, keyframes := [{ relativePosition := some 0 }] }] }] }] }] }

/-- **C20, violated for composite effects.**  Effects inside a composite effect are not looked at when
identifiers are given out, though they are sent as effects of the band: in `compositeExperience` the
second effect gets the identifier of the first, and the receiver takes its keyframes for those of the
first effect. -/
theorem c20_negation :
    (assignAll (getEffectsId compositeExperience)
      (leaves (((compositeExperience.perceptions.flatMap (·.channels)).flatMap (·.bands)).flatMap
        (·.effects)))).1.map (·.id) = [0, 0] := by
  decide +kernel

/-! ## C18 – order of packets -/

theorem insertPacket_spec (ts : Bits → Int) (p : Bits) (out : List Bits)
    (h : ∀ x ∈ p :: out, readPacketTS x = .ok (ts x)) (hs : out.Pairwise (fun a b => ts a ≤ ts b)) :
    ∃ out', insertPacket p out = .ok out' ∧ out'.Perm (p :: out) ∧
      out'.Pairwise (fun a b => ts a ≤ ts b) ∧
      ∀ t, out'.filter (fun x => ts x == t)
        = out.filter (fun x => ts x == t) ++ [p].filter (fun x => ts x == t) := by
  induction out with
  | nil => exact ⟨[p], rfl, List.Perm.refl _, by simp, by simp⟩
  | cons x out ih =>
    rw [List.pairwise_cons] at hs
    obtain ⟨o, h1, h2, h3, h4⟩ := ih (fun y hy => h y (by
      rcases List.mem_cons.mp hy with rfl | hy <;> simp_all)) hs.2
    simp only [insertPacket, h x (by simp), h p (by simp)]
    by_cases hlt : ts x > ts p
    · rw [if_pos hlt]
      refine ⟨_, rfl, List.Perm.refl _, ?_, ?_⟩
      · rw [List.pairwise_cons, List.pairwise_cons]
        refine ⟨fun y hy => ?_, hs⟩
        rcases List.mem_cons.mp hy with rfl | hy
        · omega
        · have := hs.1 y hy; omega
      · intro t
        rw [List.filter_cons (x := p) (xs := x :: out), List.filter_singleton]
        by_cases hpt : ts p = t
        · have : (x :: out).filter (fun y => ts y == t) = [] := by
            rw [List.filter_eq_nil_iff]
            intro y hy
            rw [beq_iff_eq]
            rcases List.mem_cons.mp hy with rfl | hy
            · omega
            · have := hs.1 y hy; omega
          simp [this, hpt]
        · have hb : (ts p == t) = false := by simpa using hpt
          simp [hb]
    · rw [if_neg hlt, h1]
      refine ⟨x :: o, rfl, (h2.cons x).trans (List.Perm.swap p x out), ?_, ?_⟩
      · rw [List.pairwise_cons]
        refine ⟨fun y hy => ?_, h3⟩
        rcases List.mem_cons.mp (h2.mem_iff.mp hy) with rfl | hy
        · omega
        · exact hs.1 y hy
      · intro t
        rw [List.filter_cons, List.filter_cons (x := x) (xs := out), h4]
        split <;> rfl

theorem insertPackets_spec (ts : Bits → Int) (l : List Bits) : ∀ out : List Bits,
    (∀ x ∈ l ++ out, readPacketTS x = .ok (ts x)) → out.Pairwise (fun a b => ts a ≤ ts b) →
    ∃ out', insertPackets l out = .ok out' ∧ out'.Perm (out ++ l) ∧
      out'.Pairwise (fun a b => ts a ≤ ts b) ∧
      ∀ t, out'.filter (fun x => ts x == t) = (out ++ l).filter (fun x => ts x == t) := by
  induction l with
  | nil => intro out _ hs; exact ⟨out, rfl, by simp, hs, by simp⟩
  | cons p l ih =>
    intro out h hs
    obtain ⟨o, h1, h2, h3, h4⟩ := insertPacket_spec ts p out (fun y hy => h y (by
      rcases List.mem_cons.mp hy with rfl | hy <;> simp_all)) hs
    obtain ⟨o', g1, g2, g3, g4⟩ := ih o (fun y hy => h y (by
      rcases List.mem_append.mp hy with hy | hy
      · simp [hy]
      · rcases List.mem_cons.mp (h2.mem_iff.mp hy) with rfl | hy <;> simp_all)) h3
    refine ⟨o', by simp only [insertPackets, h1, g1], g2.trans ?_, g3, fun t => ?_⟩
    · refine (h2.append_right l).trans ?_
      rw [List.cons_append]
      exact List.perm_middle.symm
    · rw [g4, List.filter_append, h4, List.filter_append, List.append_assoc, ← List.filter_append,
        List.singleton_append]

/-- **C18** If every packet starts with a timestamp below 2^31, sorting succeeds; the result is a
permutation of the packets, in the order of timestamps, and packets with equal timestamps stay in their
original order. -/
theorem c18_sort (ts : Bits → Int) (bands : List (List Bits))
    (h : ∀ b ∈ bands, ∀ x ∈ b, readPacketTS x = .ok (ts x)) :
    ∃ out, sortPacket bands = .ok out ∧ out.Perm bands.flatten ∧
      out.Pairwise (fun a b => ts a ≤ ts b) ∧
      ∀ t, out.filter (fun x => ts x == t) = bands.flatten.filter (fun x => ts x == t) := by
  obtain ⟨o, h1, h2, h3, h4⟩ := insertPackets_spec ts bands.flatten [] (by
    intro x hx
    rw [List.append_nil, List.mem_flatten] at hx
    obtain ⟨b, hb, hx⟩ := hx
    exact h b hb x hx) List.Pairwise.nil
  exact ⟨o, h1, h2, h3, h4⟩

/-- What the first 32 bits of a packet mean, without the packet reader. -/
def timestampOf (packet : Bits) : Int := bitsVal (packet.take 32)

theorem readPacketTS_timestampOf (x : Bits) (h : 32 ≤ x.length) (h2 : timestampOf x < 2 ^ 31) :
    readPacketTS x = .ok (timestampOf x) := by
  unfold readPacketTS timestampOf at *
  rw [if_neg (by simp only [DB_DURATION]; omega)]
  simp only [DB_DURATION]
  rw [if_pos (by exact_mod_cast h2)]

/-- **C18** for the timestamps in the packets. -/
theorem c18_timestamps (bands : List (List Bits))
    (h : ∀ b ∈ bands, ∀ x ∈ b, 32 ≤ x.length ∧ timestampOf x < 2 ^ 31) :
    ∃ out, sortPacket bands = .ok out ∧ out.Perm bands.flatten ∧
      out.Pairwise (fun a b => timestampOf a ≤ timestampOf b) ∧
      ∀ t, out.filter (fun x => timestampOf x == t) = bands.flatten.filter (fun x => timestampOf x == t) :=
  c18_sort timestampOf bands (fun b hb x hx =>
    readPacketTS_timestampOf x (h b hb x hx).1 (h b hb x hx).2)

example : sortPacket [[writeNBits 32 0 ++ [true], writeNBits 32 128], [writeNBits 32 0 ++ [false]]]
    = .ok [writeNBits 32 0 ++ [true], writeNBits 32 0 ++ [false], writeNBits 32 128] := by decide +kernel

/-- **C18, at its limit**: a timestamp of 2^31 or more ends the program with an exception as soon as
there is another packet. -/
theorem c18_throws (x y : Bits) (h : 32 ≤ x.length) (hx : 2 ^ 31 ≤ timestampOf x) :
    sortPacket [[x, y]] = .error .throw := by
  unfold timestampOf at hx
  have : readPacketTS x = .error .throw := by
    unfold readPacketTS
    rw [if_neg (by simp only [DB_DURATION]; omega)]
    simp only [DB_DURATION]
    rw [if_neg (by
      have : (2 : Int) ^ 31 ≤ ((bitsVal (x.take 32) : Nat) : Int) := hx
      have : 2 ^ 31 ≤ bitsVal (x.take 32) := by exact_mod_cast this
      omega)]
  simp only [sortPacket, List.flatten_cons, List.flatten_nil, List.append_nil, insertPackets, insertPacket,
    this]

end Haptics
