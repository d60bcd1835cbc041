import Verif.Encoder.PropsInject

/-! C74: how many bands the effects of imported files need. -/

namespace Haptics

/-- The vectorial bands of a channel. -/
def vectorial (l : List Band) : List Band := l.filter (fun b => decide (b.bandType = BandType.VectorialWave))

theorem vectorial_modify (l : List Band) (j : Nat) (b : Band) (e : Effect) (h : l[j]? = some b)
    (ht : b.bandType = BandType.VectorialWave) :
    ((vectorial (l.modify j (·.addEffect e))).flatMap (·.effects)).Perm (e :: (vectorial l).flatMap (·.effects)) ∧
    (vectorial (l.modify j (·.addEffect e))).length = (vectorial l).length := by
  induction l generalizing j with
  | nil => simp at h
  | cons x l ih =>
    cases j with
    | zero =>
      simp only [List.getElem?_cons_zero, Option.some.injEq] at h
      subst h
      have h1 : (x.addEffect e).bandType = BandType.VectorialWave := ht
      simp only [List.modify_zero_cons, vectorial, List.filter_cons, ht, h1, decide_true, if_true, List.flatMap_cons,
        List.length_cons, and_true]
      exact (insertEffect_perm e x.effects).append_right _
    | succ j =>
      obtain ⟨i1, i2⟩ := ih j (by simpa using h)
      simp only [vectorial] at i1 i2
      simp only [List.modify_succ_cons, vectorial, List.filter_cons]
      by_cases hx : x.bandType = BandType.VectorialWave
      · simp only [hx, decide_true, if_true, List.flatMap_cons, List.length_cons, i2, and_true]
        exact (i1.append_left _).trans List.perm_middle
      · simp only [hx, decide_false]
        exact ⟨i1, i2⟩

theorem inject_vectorial (lo hi : Int) (c d : Channel) (e : Effect) (hc : Laid c) (he : e.Timed)
    (h : c.inject lo hi e = .ok d) :
    ((vectorial d.bands).flatMap (·.effects)).Perm (e :: (vectorial c.bands).flatMap (·.effects)) ∧
    ((vectorial d.bands).length = (vectorial c.bands).length ∧ d.bands.length = c.bands.length ∨
      (vectorial d.bands).length = (vectorial c.bands).length + 1 ∧ d.bands.length = c.bands.length + 1 ∧
      ∀ b ∈ vectorial c.bands, ∃ x ∈ b.effects, x.Overlaps e) := by
  obtain ⟨g1, g2, -⟩ := timed_last he
  unfold Channel.inject at h
  simp only [g1] at h
  split at h
  · cases h
  · rename_i j hj
    obtain ⟨b, hb, ht, -⟩ := c30_found c _ _ _ j hj
    obtain rfl := Except.ok.inj h
    obtain ⟨k1, k2⟩ := vectorial_modify c.bands j b e hb ht
    exact ⟨k1, Or.inl ⟨k2, by simp⟩⟩
  · rename_i hn
    obtain rfl := Except.ok.inj h
    have hmem : ∀ b ∈ vectorial c.bands, b ∈ c.bands ∧ b.bandType = BandType.VectorialWave := by
      intro b hb
      obtain ⟨h1, h2⟩ := List.mem_filter.mp hb
      exact ⟨h1, by simpa using h2⟩
    refine ⟨?_, Or.inr ⟨?_, by simp, fun b hb => ?_⟩⟩
    · simp only [vectorial, List.filter_append, List.flatMap_append]
      simp [Band.addEffect, insertEffect]
    · simp [vectorial, List.filter_append, Band.addEffect]
    · obtain ⟨hb1, hb2⟩ := hmem b hb
      have := c30_none c _ _ _ g2 ?_ hn b hb1 hb2
      · obtain ⟨x, hx, len, hlen, t, ⟨t1, t2⟩, t3, t4⟩ := this
        rw [(timed_last ((hc b hb1 hb2).2 x hx)).2.2.1] at hlen
        obtain rfl := Except.ok.inj hlen
        refine ⟨x, hx, ?_, ?_⟩
        · have := le_trans t1 t4; exact_mod_cast this
        · have := le_trans t3 t2; exact_mod_cast this
      · intro b hb hbt x hx len hlen
        rw [(timed_last ((hc b hb hbt).2 x hx)).2.2.1] at hlen
        obtain rfl := Except.ok.inj hlen
        exact_mod_cast (timed_last ((hc b hb hbt).2 x hx)).2.1

theorem playing_perm (t : Int) {l m : List Effect} (h : l.Perm m) : playing t l = playing t m := h.countP_eq _

theorem playing_append (t : Int) (l m : List Effect) : playing t (l ++ m) = playing t l + playing t m :=
  List.countP_append

/-- One band plays one effect at a time. -/
theorem playing_sequential (t : Int) (l : List Effect) (h : l.Pairwise (fun x y => x.position + x.length < y.position)) :
    playing t l ≤ 1 := by
  induction l with
  | nil => simp [playing]
  | cons e l ih =>
    obtain ⟨h1, h2⟩ := List.pairwise_cons.mp h
    unfold playing
    rw [List.countP_cons]
    split
    · rename_i he
      have he : e.position ≤ t ∧ t ≤ e.position + e.length := by simpa using he
      have : l.countP (fun e => decide (e.position ≤ t ∧ t ≤ e.position + e.length)) = 0 := by
        rw [List.countP_eq_zero]
        intro x hx
        have := h1 x hx
        simp only [decide_eq_true_eq]
        omega
      omega
    · exact ih h2

theorem playing_flatMap_le (t : Int) (bs : List Band) (h : ∀ b ∈ bs, b.Sequential) :
    playing t (bs.flatMap (·.effects)) ≤ bs.length := by
  induction bs with
  | nil => simp [playing]
  | cons b bs ih =>
    rw [List.flatMap_cons, playing_append, List.length_cons]
    have h1 := playing_sequential t b.effects (h b List.mem_cons_self)
    have h2 := ih (fun x hx => h x (List.mem_cons_of_mem _ hx))
    omega

theorem le_playing_flatMap (t : Int) (bs : List Band)
    (h : ∀ b ∈ bs, ∃ x ∈ b.effects, x.position ≤ t ∧ t ≤ x.position + x.length) :
    bs.length ≤ playing t (bs.flatMap (·.effects)) := by
  induction bs with
  | nil => simp
  | cons b bs ih =>
    rw [List.flatMap_cons, playing_append, List.length_cons]
    have h1 : 0 < playing t b.effects := by
      obtain ⟨x, hx, hp⟩ := h b List.mem_cons_self
      exact List.countP_pos_iff.mpr ⟨x, hx, by simpa using hp⟩
    have h2 := ih (fun x hx => h x (List.mem_cons_of_mem _ hx))
    omega

theorem vectorial_laid {c : Channel} (h : Laid c) : ∀ b ∈ vectorial c.bands, b.Sequential := by
  intro b hb
  obtain ⟨h1, h2⟩ := List.mem_filter.mp hb
  exact (h b h1 (by simpa using h2)).1

/-- The vectorial bands, as the effects `es` come after the effects `ds`. -/
theorem injectAll_vectorial (lo hi : Int) (es : List Effect) (he : ∀ e ∈ es, e.Timed) (c d : Channel) (hc : Laid c)
    (ds : List Effect) (hds : ((vectorial c.bands).flatMap (·.effects)).Perm ds) (h : c.injectAll lo hi es = .ok d) :
    Laid d ∧ ((vectorial d.bands).flatMap (·.effects)).Perm (ds ++ es) ∧
    d.bands.length + (vectorial c.bands).length = c.bands.length + (vectorial d.bands).length ∧
    (∀ m, (vectorial c.bands).length ≤ m → (ds ++ es).Pairwise (fun x y => x.position ≤ y.position) →
      (∀ t, playing t (ds ++ es) ≤ m) → (vectorial d.bands).length ≤ m) := by
  induction es generalizing c ds with
  | nil =>
    obtain rfl := Except.ok.inj h
    rw [List.append_nil]
    exact ⟨hc, hds, rfl, fun m h _ _ => h⟩
  | cons e es ih =>
    obtain ⟨c', h1, h2, -⟩ := inject_step lo hi c e hc (he e List.mem_cons_self)
    obtain ⟨k1, k2⟩ := inject_vectorial lo hi c c' e hc (he e List.mem_cons_self) h1
    rw [Channel.injectAll, h1] at h
    have hp : ((vectorial c'.bands).flatMap (·.effects)).Perm (ds ++ [e]) :=
      k1.trans ((hds.cons e).trans (List.perm_append_singleton e ds).symm)
    obtain ⟨i1, i2, i3, i4⟩ := ih (fun x hx => he x (List.mem_cons_of_mem _ hx)) c' h2 (ds ++ [e]) hp h
    rw [List.append_assoc, List.singleton_append] at i2 i4
    refine ⟨i1, i2, ?_, fun m hm hs hpl => i4 m ?_ hs hpl⟩
    · rcases k2 with ⟨a, b⟩ | ⟨a, b, -⟩ <;> omega
    · rcases k2 with ⟨a, -⟩ | ⟨a, -, k3⟩
      · omega
      · have hle : (vectorial c.bands).length ≤ playing e.position ((vectorial c.bands).flatMap (·.effects)) := by
          refine le_playing_flatMap _ _ (fun b hb => ?_)
          obtain ⟨x, hx, o1, o2⟩ := k3 b hb
          refine ⟨x, hx, ?_, o2⟩
          have hxd : x ∈ ds := hds.mem_iff.mp (List.mem_flatMap.mpr ⟨b, hb, hx⟩)
          exact (List.pairwise_append.mp hs).2.2 x hxd e List.mem_cons_self
        rw [playing_perm _ hds] at hle
        have hpe := hpl e.position
        have hpos : 1 ≤ playing e.position [e] := by
          have := (timed_last (he e List.mem_cons_self)).2.1
          simp [playing, this]
        rw [show ds ++ e :: es = ds ++ ([e] ++ es) from rfl, playing_append, playing_append] at hpe
        omega

theorem vectorial_nil {l : List Band} (h : ∀ b ∈ l, b.bandType ≠ BandType.VectorialWave) : vectorial l = [] := by
  unfold vectorial
  rw [List.filter_eq_nil_iff]
  intro b hb
  simpa using h b hb

/-- **C74.** No channel gets by with fewer new bands than effects play at once, at any instant. -/
theorem c74_bands_needed (lower upper : Int) (c d : Channel) (es : List Effect)
    (hc : ∀ b ∈ c.bands, b.bandType ≠ BandType.VectorialWave) (he : ∀ e ∈ es, e.Timed)
    (h : c.injectAll lower upper es = .ok d) (t : Int) : c.bands.length + playing t es ≤ d.bands.length := by
  have hv := vectorial_nil hc
  obtain ⟨i1, i2, i3, -⟩ := injectAll_vectorial lower upper es he c d (fun b hb ht => absurd ht (hc b hb)) []
    (by rw [hv]; rfl) h
  have := playing_flatMap_le t _ (vectorial_laid i1)
  rw [playing_perm t i2, List.nil_append] at this
  rw [hv, List.length_nil] at i3
  omega

/-- **C74.** Effects that come in the order of their positions get just as many new bands as they need: as many as
there are effects playing at once. -/
theorem c74_bands_enough (lower upper : Int) (c d : Channel) (es : List Effect)
    (hc : ∀ b ∈ c.bands, b.bandType ≠ BandType.VectorialWave) (he : ∀ e ∈ es, e.Timed)
    (hs : es.Pairwise (fun x y => x.position ≤ y.position)) (h : c.injectAll lower upper es = .ok d) (m : Nat) :
    d.bands.length ≤ c.bands.length + m ↔ ∀ t, playing t es ≤ m := by
  constructor
  · intro hm t
    have := c74_bands_needed lower upper c d es hc he h t
    omega
  · intro hm
    have hv := vectorial_nil hc
    obtain ⟨-, -, i3, i4⟩ := injectAll_vectorial lower upper es he c d (fun b hb ht => absurd ht (hc b hb)) []
      (by rw [hv]; rfl) h
    have := i4 m (by rw [hv]; exact Nat.zero_le _) hs hm
    rw [hv, List.length_nil] at i3
    omega

/-- An effect of a position and a length. -/
def lasting (p l : Int) : Effect := { position := p, keyframes := [⟨some 0, some 1, none⟩, ⟨some l, some 1, none⟩] }

theorem lasting_timed (p l : Int) (h : 0 ≤ l) : (lasting p l).Timed := ⟨l, rfl, h⟩

/-- In the order of their positions; three of them play at 10. -/
example : let es := [lasting 0 10, lasting 3 9, lasting 10 5, lasting 14 2]
    (∀ e ∈ es, e.Timed) ∧ es.Pairwise (fun x y => x.position ≤ y.position) ∧ playing 10 es = 3 ∧
    (({} : Channel).injectAll 0 1000 es).toOption.map (fun d => d.bands.length) = some 3 :=
  ⟨by
    intro e he
    simp only [List.mem_cons, List.not_mem_nil, or_false] at he
    rcases he with rfl | rfl | rfl | rfl <;> exact lasting_timed _ _ (by decide), by decide +kernel⟩

/-- Two effects, one after the other, then two that overlap in the gap between them. -/
def unordered : List Effect := [lasting 0 10, lasting 30 10, lasting 5 12, lasting 15 20]

/-- **C74, what does not hold.** In another order they may get more: at most two of these play at once, and they get
three bands. -/
theorem c74_bands_negation : ∃ (es : List Effect) (d : Channel), (∀ e ∈ es, e.Timed) ∧
    ({} : Channel).injectAll 0 1000 es = .ok d ∧ d.bands.length = 3 ∧ ∀ t, playing t es ≤ 2 := by
  have ht : ∀ e ∈ unordered, e.Timed := by
    intro e he
    simp only [unordered, List.mem_cons, List.not_mem_nil, or_false] at he
    rcases he with rfl | rfl | rfl | rfl <;> exact lasting_timed _ _ (by decide)
  obtain ⟨d, hd, -⟩ := c74_distributed 0 1000 {} unordered (fun b hb => by cases hb) ht
  refine ⟨unordered, d, ht, hd, ?_, fun t => ?_⟩
  · have h1 : (({} : Channel).injectAll 0 1000 unordered).toOption.map (fun d => d.bands.length) = some 3 := by
      decide +kernel
    rw [hd] at h1
    exact Option.some.inj h1
  · simp only [playing, unordered, List.countP_cons, List.countP_nil, lasting, Effect.length, List.getLast?_cons_cons,
      List.getLast?_singleton, Option.bind_some, Option.getD_some, decide_eq_true_eq]
    split_ifs <;> omega

end Haptics
