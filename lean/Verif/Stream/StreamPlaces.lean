import Verif.Stream.PropsInit
import Verif.Stream.PropsTransmit

/-
Lemmas for C57: the bands of an experience as a list, in the order in which they are numbered in a stream.
-/
namespace Haptics

/-- The bands of some perceptions. -/
def flatBands (ps : List Perception) : List Band := ps.flatMap (fun p => p.channels.flatMap (·.bands))

/-- A channel whose bands are forgotten, but for their number. -/
def Channel.bare (c : Channel) : Channel := { c with bands := c.bands.map (fun _ => {}) }

def Perception.bare (p : Perception) : Perception := { p with channels := p.channels.map Channel.bare }

/-- Bands taken from a list. -/
def Channel.fill (L : List Band) (c : Channel) : Channel × List Band :=
  ({ c with bands := L.take c.bands.length }, L.drop c.bands.length)

def Perception.fill (L : List Band) (p : Perception) : Perception × List Band :=
  ({ p with channels := (mapAccum Channel.fill L p.channels).1 }, (mapAccum Channel.fill L p.channels).2)

theorem fill_channels (cs : List Channel) : ∀ rest : List Band,
    mapAccum Channel.fill (cs.flatMap (·.bands) ++ rest) (cs.map Channel.bare) = (cs, rest) := by
  induction cs with
  | nil => intro rest; rfl
  | cons c cs ih =>
    intro rest
    have e : c.bare.fill (c.bands ++ (cs.flatMap (·.bands) ++ rest)) = (c, cs.flatMap (·.bands) ++ rest) := by
      unfold Channel.fill Channel.bare
      simp
    simp only [List.flatMap_cons, List.map_cons, mapAccum, List.append_assoc, e, ih]

theorem fill_perceptions (ps : List Perception) : ∀ rest : List Band,
    mapAccum Perception.fill (flatBands ps ++ rest) (ps.map Perception.bare) = (ps, rest) := by
  induction ps with
  | nil => intro rest; rfl
  | cons p ps ih =>
    intro rest
    have e : p.bare.fill (p.channels.flatMap (·.bands) ++ (flatBands ps ++ rest))
        = (p, flatBands ps ++ rest) := by
      unfold Perception.fill Perception.bare
      simp only [fill_channels]
    have e2 : flatBands (p :: ps) = p.channels.flatMap (·.bands) ++ flatBands ps := rfl
    simp only [e2, List.map_cons, mapAccum, List.append_assoc, e, ih]

/-- Perceptions are determined by their bands and the rest. -/
theorem eq_of_bare {ps qs : List Perception} (h1 : ps.map Perception.bare = qs.map Perception.bare)
    (h2 : flatBands ps = flatBands qs) : ps = qs := by
  have e1 := fill_perceptions ps []
  have e2 := fill_perceptions qs []
  rw [h1, h2, e2] at e1
  exact (congrArg Prod.fst e1).symm

theorem flatMap_locate {α β : Type} (f : α → List β) (l : List α) : ∀ n, n < (l.flatMap f).length →
    ∃ l1 x l2 m, l = l1 ++ x :: l2 ∧ m < (f x).length ∧ n = (l1.flatMap f).length + m := by
  induction l with
  | nil => intro n hn; simp at hn
  | cons a l ih =>
    intro n hn
    rw [List.flatMap_cons, List.length_append] at hn
    by_cases h : n < (f a).length
    · exact ⟨[], a, l, n, rfl, h, by simp⟩
    · obtain ⟨l1, x, l2, m, h1, h2, h3⟩ := ih (n - (f a).length) (by omega)
      refine ⟨a :: l1, x, l2, m, by rw [h1]; rfl, h2, ?_⟩
      rw [List.flatMap_cons, List.length_append]
      omega

/-- Where the band with number `n` is. -/
structure BandAt (ps : List Perception) (n : Nat) (P1 : List Perception) (p : Perception)
    (P2 : List Perception) (C1 : List Channel) (c : Channel) (C2 : List Channel) (B1 : List Band) (b : Band)
    (B2 : List Band) : Prop where
  perceptions : ps = P1 ++ p :: P2
  channels : p.channels = C1 ++ c :: C2
  bands : c.bands = B1 ++ b :: B2
  number : n = (flatBands P1).length + ((C1.flatMap (·.bands)).length + B1.length)

theorem bandAt_exists (ps : List Perception) (n : Nat) (h : n < (flatBands ps).length) :
    ∃ P1 p P2 C1 c C2 B1 b B2, BandAt ps n P1 p P2 C1 c C2 B1 b B2 := by
  obtain ⟨P1, p, P2, m, h1, h2, h3⟩ := flatMap_locate _ ps n h
  obtain ⟨C1, c, C2, k, h4, h5, h6⟩ := flatMap_locate _ p.channels m h2
  refine ⟨P1, p, P2, C1, c, C2, c.bands.take k, c.bands[k], c.bands.drop (k + 1), h1, h4, ?_, ?_⟩
  · rw [List.getElem_cons_drop, List.take_append_drop]
  · rw [h3, h6, List.length_take, Nat.min_eq_left (by omega)]
    rfl

section
variable {ps P1 P2 : List Perception} {p : Perception} {C1 C2 : List Channel} {c : Channel}
  {B1 B2 : List Band} {b : Band} {n : Nat}

/-- A list built up by going through all bands of all channels of all perceptions. -/
theorem BandAt.get {β : Type} (h : BandAt ps n P1 p P2 C1 c C2 B1 b B2)
    (f : Perception → Channel → List β) (hf : ∀ p c, (f p c).length = c.bands.length) :
    (ps.flatMap (fun p => p.channels.flatMap (fun c => f p c)))[n]? = (f p c)[B1.length]? := by
  obtain ⟨h1, h2, h3, h4⟩ := h
  have l1 : ∀ (p : Perception) (cs : List Channel), (cs.flatMap (fun c => f p c)).length
      = (cs.flatMap (·.bands)).length := by
    intro p cs
    simp only [List.length_flatMap, hf]
  have l2 : ∀ (qs : List Perception), (qs.flatMap (fun p => p.channels.flatMap (fun c => f p c))).length
      = (flatBands qs).length := by
    intro qs
    simp only [flatBands, List.length_flatMap, hf]
  rw [h1, List.flatMap_append, List.flatMap_cons, h2, List.flatMap_append, List.flatMap_cons, h4,
    List.getElem?_append_right (by rw [l2]; omega), l2, Nat.add_sub_cancel_left,
    List.getElem?_append_left, List.getElem?_append_right (by rw [l1]; omega), l1, Nat.add_sub_cancel_left,
    List.getElem?_append_left]
  · rw [hf, h3]; simp
  · rw [List.length_append, List.length_append, hf, h3, l1]; simp; omega

theorem BandAt.triple (h : BandAt ps n P1 p P2 C1 c C2 B1 b B2) : (triples ps)[n]? = some (p, c, b) := by
  have := h.get (fun p c => c.bands.map (fun b => (p, c, b))) (by simp)
  unfold triples
  rw [this, h.bands]
  simp

theorem BandAt.flat (h : BandAt ps n P1 p P2 C1 c C2 B1 b B2) :
    flatBands ps = (flatBands P1 ++ (C1.flatMap (·.bands) ++ B1)) ++ b ::
      (B2 ++ (C2.flatMap (·.bands) ++ flatBands P2)) := by
  obtain ⟨h1, h2, h3, h4⟩ := h
  rw [flatBands, h1, List.flatMap_append, List.flatMap_cons, h2, List.flatMap_append, List.flatMap_cons, h3]
  simp [flatBands]

theorem modifyBand_split {h : Experience} (hb : BandAt h.perceptions n P1 p P2 C1 c C2 B1 b B2)
    (f : Band → Band) : (h.modifyBand P1.length C1.length B1.length f).perceptions
      = P1 ++ { p with channels := C1 ++ { c with bands := B1 ++ f b :: B2 } :: C2 } :: P2 := by
  obtain ⟨h1, h2, h3, h4⟩ := hb
  unfold Experience.modifyBand
  dsimp only
  rw [h1, modify_split, h2, modify_split, h3, modify_split]

theorem modifyBand_bare {h : Experience} (hb : BandAt h.perceptions n P1 p P2 C1 c C2 B1 b B2)
    (f : Band → Band) : (h.modifyBand P1.length C1.length B1.length f).perceptions.map Perception.bare
      = h.perceptions.map Perception.bare := by
  rw [modifyBand_split hb, hb.perceptions]
  simp only [List.map_append, List.map_cons]
  congr 2
  unfold Perception.bare
  rw [hb.channels]
  simp only [List.map_append, List.map_cons]
  congr 3
  unfold Channel.bare
  rw [hb.bands]
  simp

theorem modifyBand_flat {h : Experience} (hb : BandAt h.perceptions n P1 p P2 C1 c C2 B1 b B2)
    (f : Band → Band) : flatBands (h.modifyBand P1.length C1.length B1.length f).perceptions
      = (flatBands h.perceptions).modify n f := by
  have h2 : BandAt (h.modifyBand P1.length C1.length B1.length f).perceptions n P1
      { p with channels := C1 ++ { c with bands := B1 ++ f b :: B2 } :: C2 } P2 C1
      { c with bands := B1 ++ f b :: B2 } C2 B1 (f b) B2 := ⟨modifyBand_split hb f, rfl, rfl, hb.number⟩
  rw [h2.flat, hb.flat]
  have e : n = (flatBands P1 ++ (C1.flatMap (·.bands) ++ B1)).length := by
    rw [hb.number]; simp
  rw [e, modify_split]

end

/-! ### Addresses -/

/-- The identifiers of perception and channel of each band. -/
def bandIds (ps : List Perception) : List (Int × Int) :=
  ps.flatMap (fun p => p.channels.flatMap (fun c => c.bands.map (fun _ => (p.id, c.id))))

/-- The place of each band in its channel. -/
def bandPlaces (ps : List Perception) : List Nat :=
  ps.flatMap (fun p => p.channels.flatMap (fun c => List.range c.bands.length))

theorem bandIds_bare (ps : List Perception) : bandIds (ps.map Perception.bare) = bandIds ps := by
  simp only [bandIds, List.flatMap_map, Perception.bare, Channel.bare, List.map_map]
  rfl

theorem bandPlaces_bare (ps : List Perception) : bandPlaces (ps.map Perception.bare) = bandPlaces ps := by
  simp only [bandPlaces, List.flatMap_map, Perception.bare, Channel.bare, List.length_map]

theorem bandIds_withBands (ps : List Perception) : bandIds (ps.map Perception.withBands) = bandIds ps := by
  simp only [bandIds, List.flatMap_map, Perception.withBands, Channel.withBands, List.map_map]
  rfl

theorem bandPlaces_withBands (ps : List Perception) :
    bandPlaces (ps.map Perception.withBands) = bandPlaces ps := by
  simp only [bandPlaces, List.flatMap_map, Perception.withBands, Channel.withBands, List.length_map]

theorem clear_of_bare {h h' : Experience} (hc : h.Clear)
    (hb : h'.perceptions.map Perception.bare = h.perceptions.map Perception.bare) : h'.Clear := by
  refine clear_of_perceptions hc ?_
  have := congrArg (List.map (fun p : Perception => (p.id, p.channels.map (·.id)))) hb
  simpa only [List.map_map, Function.comp_def, Perception.bare, Channel.bare] using this

theorem clear_withBands {h : Experience} (hc : h.Clear) (old : Experience) : (h.withBands old).Clear := by
  refine clear_of_perceptions hc ?_
  simp only [Experience.withBands, List.map_map, Function.comp_def, Perception.withBands, Channel.withBands]
  rfl

theorem streams_find (L : List Nat) : ∀ (m n : Nat), ((streams m L).find? (fun x => x.1 == ((m + n : Nat) : Int))).map (·.2)
    = L[n]? := by
  induction L with
  | nil => intro m n; rfl
  | cons k L ih =>
    intro m n
    rw [streams, List.find?_cons]
    cases n with
    | zero => simp
    | succ n =>
      have : (((m : Int), k).1 == ((m + (n + 1) : Nat) : Int)) = false := by
        rw [beq_eq_false_iff_ne]; push_cast; omega
      rw [this]
      have := ih (m + 1) n
      rw [show m + 1 + n = m + (n + 1) by omega] at this
      simpa using this

theorem numbered_get (l : List (Perception × Channel × Band)) : ∀ (m n : Nat),
    (numbered m l)[n]? = l[n]?.map (fun x => ⟨⟨x.1.id, x.2.1.id, ((m + n : Nat) : Int)⟩,
      isSpatial x.1.perceptionModality, x.2.2⟩) := by
  induction l with
  | nil => intro m n; rfl
  | cons x l ih =>
    intro m n
    cases n with
    | zero => simp [numbered]
    | succ n =>
      have := ih (m + 1) n
      rw [show m + 1 + n = m + (n + 1) by omega] at this
      simpa [numbered] using this

/-- A receiver that knows the components of `g` finds the band with number `n`. -/
theorem hasBand_of (g old : Experience) (hg : g.Clear) (r : Reader)
    (h1 : r.haptic.perceptions.map Perception.bare = (g.withBands old).perceptions.map Perception.bare)
    (h2 : r.bandStreams = g.streams) (n : Nat) (x : AddressedBand) (hx : (bandsOf g)[n]? = some x) :
    ∃ P1 p P2 C1 c C2 B1 b B2, BandAt r.haptic.perceptions n P1 p P2 C1 c C2 B1 b B2 ∧
      x.addr.bandId = n ∧ HasBand r x.addr P1.length C1.length B1.length b := by
  have hids : bandIds r.haptic.perceptions = bandIds g.perceptions := by
    rw [← bandIds_bare, h1, bandIds_bare]
    exact bandIds_withBands _
  have hpl : bandPlaces r.haptic.perceptions = bandPlaces g.perceptions := by
    rw [← bandPlaces_bare, h1, bandPlaces_bare]
    exact bandPlaces_withBands _
  rw [bandsOf_eq, numbered_get] at hx
  obtain ⟨t, ht, rfl⟩ := Option.map_eq_some_iff.1 hx
  have hn : n < (flatBands r.haptic.perceptions).length := by
    have e : ∀ ps, (bandIds ps).length = (flatBands ps).length := by
      intro ps; simp [bandIds, flatBands, List.length_flatMap]
    have e2 : ∀ ps, (triples ps).length = (bandIds ps).length := by
      intro ps; simp [bandIds, triples, List.length_flatMap]
    rw [← e, hids, ← e2]
    exact (List.getElem?_eq_some_iff.1 ht).1
  obtain ⟨P1, p, P2, C1, c, C2, B1, b, B2, hb⟩ := bandAt_exists _ n hn
  have hid : (bandIds r.haptic.perceptions)[n]? = some (p.id, c.id) := by
    unfold bandIds
    rw [hb.get (fun p c => c.bands.map (fun _ => (p.id, c.id))) (by simp), hb.bands]
    simp
  have hid2 : (bandIds g.perceptions)[n]? = some (t.1.id, t.2.1.id) := by
    have e : bandIds g.perceptions = (triples g.perceptions).map (fun t => (t.1.id, t.2.1.id)) := by
      simp only [bandIds, triples, List.map_flatMap, List.map_map]
      rfl
    rw [e, List.getElem?_map, ht]
    rfl
  rw [hids, hid2, Option.some.injEq, Prod.mk.injEq] at hid
  have hpl2 : (bandPlaces g.perceptions)[n]? = some B1.length := by
    rw [← hpl]
    unfold bandPlaces
    rw [hb.get (fun p c => List.range c.bands.length) (by simp), hb.bands]
    simp
  have hclear := clear_of_bare (clear_withBands hg old) h1
  refine ⟨P1, p, P2, C1, c, C2, B1, b, B2, hb, by simp, ?_, ?_, ?_, ?_⟩
  · rw [hid.1]; exact searchPerception_split hclear hb.perceptions
  · rw [hid.2]; exact searchChannel_split hclear hb.perceptions hb.channels
  · rw [h2]
    exact (streams_find _ 0 n).trans hpl2
  · refine ⟨c, ?_, ?_⟩
    · rw [hb.perceptions]; simp [hb.channels]
    · rw [hb.bands]; simp

end Haptics
