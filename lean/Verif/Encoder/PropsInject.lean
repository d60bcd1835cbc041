import Verif.Encoder.Inject
import Verif.Encoder.SpecInject
import Verif.Types.PropsOps

/-! C74: effects of imported files and the bands they go to. -/

namespace Haptics

theorem timed_last {e : Effect} (h : e.Timed) :
    e.lastKeyframePosition = .ok e.length ∧ 0 ≤ e.length ∧
    e.timeLength BandType.VectorialWave 22 = .ok (e.length : ℚ) ∧
    ∃ k ∈ e.keyframes, k.relativePosition ≠ none := by
  obtain ⟨p, hp, h0⟩ := h
  unfold Effect.length Effect.lastKeyframePosition
  obtain ⟨k, hk, hkp⟩ := Option.bind_eq_some_iff.mp hp
  have hne : e.keyframes ≠ [] := by rintro h; simp [h] at hk
  obtain ⟨l, hl⟩ : ∃ l, e.keyframes = l ++ [k] := by
    refine ⟨e.keyframes.dropLast, ?_⟩
    rw [List.getLast?_eq_getLast_of_ne_nil hne] at hk
    injection hk with hk
    rw [← hk, List.dropLast_append_getLast]
  refine ⟨by rw [hk]; simp [hkp], by rw [hk]; simpa [hkp] using h0, ?_, k, by simp [hl], by simp [hkp]⟩
  unfold Effect.timeLength
  simp [hl, hkp]

theorem insertEffect_sublist (n : Effect) (l : List Effect) : l.Sublist (insertEffect n l) := by
  induction l with
  | nil => simp [insertEffect]
  | cons e l ih =>
    simp only [insertEffect]
    split
    · exact List.sublist_cons_self _ _
    · exact ih.cons₂ e

theorem insertEffect_sequential (n : Effect) (l : List Effect) (hn : 0 ≤ n.length)
    (hl : l.Pairwise (fun x y => x.position + x.length < y.position))
    (h : ∀ e ∈ l, 0 ≤ e.length ∧ (e.position + e.length < n.position ∨ n.position + n.length < e.position)) :
    (insertEffect n l).Pairwise (fun x y => x.position + x.length < y.position) := by
  induction l with
  | nil => simp [insertEffect]
  | cons e l ih =>
    obtain ⟨h1, h2⟩ := List.pairwise_cons.mp hl
    have he := h e List.mem_cons_self
    simp only [insertEffect]
    split
    · refine List.pairwise_cons.mpr ⟨fun x hx => ?_, hl⟩
      rcases List.mem_cons.mp hx with rfl | hx
      · omega
      · have := h1 x hx; omega
    · refine List.pairwise_cons.mpr ⟨fun x hx => ?_, ih h2 (fun x hx => h x (List.mem_cons_of_mem _ hx))⟩
      have := (insertEffect_perm n l).mem_iff.mp hx
      rcases List.mem_cons.mp this with hx | hx
      · subst hx; omega
      · exact h1 x hx

theorem Extends.refl (lo hi : Int) (c : Channel) : Extends lo hi c c :=
  ⟨rfl, fun i b h => ⟨b, h, rfl, List.Sublist.refl _, fun _ => rfl⟩, fun i b h1 h2 => by
    rw [List.getElem?_eq_none h1] at h2; cases h2⟩

theorem sameType {b b' : Band} (h : { b' with effects := [] } = { b with effects := [] }) :
    b'.bandType = b.bandType := by
  injection h

theorem Extends.trans {lo hi : Int} {c d e : Channel} (h : Extends lo hi c d) (k : Extends lo hi d e) :
    Extends lo hi c e := by
  refine ⟨k.same.trans h.same, fun i b hb => ?_, fun i b hi hb => ?_⟩
  · obtain ⟨b', h1, h2, h3, h4⟩ := h.old i b hb
    obtain ⟨b'', k1, k2, k3, k4⟩ := k.old i b' h1
    have ht : b'.bandType = b.bandType := sameType h2
    exact ⟨b'', k1, k2.trans h2, h3.trans k3, fun hn => (k4 (ht ▸ hn)).trans (h4 hn)⟩
  · rcases Nat.lt_or_ge i d.bands.length with hl | hl
    · obtain ⟨b', k1, k2, -, -⟩ := k.old i d.bands[i] (List.getElem?_eq_getElem hl)
      rw [hb] at k1
      injection k1 with k1
      subst k1
      exact k2.trans (h.new i _ hi (List.getElem?_eq_getElem hl))
    · exact k.new i b hl hb

/-- One band plays one effect at a time, so far. -/
def Laid (c : Channel) : Prop :=
  ∀ b ∈ c.bands, b.bandType = BandType.VectorialWave → b.Sequential ∧ ∀ e ∈ b.effects, e.Timed

theorem flatMap_modify (l : List Band) (j : Nat) (b : Band) (e : Effect) (h : l[j]? = some b) :
    ((l.modify j (·.addEffect e)).flatMap (·.effects)).Perm (e :: l.flatMap (·.effects)) := by
  induction l generalizing j with
  | nil => simp at h
  | cons x l ih =>
    cases j with
    | zero =>
      simp only [List.modify_zero_cons, List.flatMap_cons, Band.addEffect]
      exact (insertEffect_perm e x.effects).append_right _
    | succ j =>
      simp only [List.modify_succ_cons, List.flatMap_cons]
      exact ((ih j (by simpa using h)).append_left _).trans List.perm_middle

theorem inject_step (lo hi : Int) (c : Channel) (e : Effect) (hc : Laid c) (he : e.Timed) :
    ∃ d, c.inject lo hi e = .ok d ∧ Laid d ∧ Extends lo hi c d ∧ d.effects.Perm (e :: c.effects) := by
  obtain ⟨h1, h2, h3, k, hk, hkp⟩ := timed_last he
  obtain ⟨r, hr⟩ := c30_safe c e.position e.length BandType.VectorialWave (fun b hb ht x hx => by
    obtain ⟨-, -, -, k, hk, hkp⟩ := timed_last ((hc b hb ht).2 x hx)
    exact Or.inr ⟨k, hk, hkp⟩)
  unfold Channel.inject
  simp only [h1, hr]
  cases r with
  | none =>
    refine ⟨_, rfl, ?_, ⟨rfl, fun i b hb => ⟨b, ?_, rfl, List.Sublist.refl _, fun _ => rfl⟩, fun i b hi hb => ?_⟩, ?_⟩
    · intro b hb ht
      rcases List.mem_append.mp hb with hb | hb
      · exact hc b hb ht
      · rw [List.mem_singleton] at hb
        subst hb
        refine ⟨by simp [Band.Sequential, Band.addEffect, insertEffect], fun x hx => ?_⟩
        simp only [Band.addEffect, insertEffect, List.mem_singleton] at hx
        exact hx ▸ he
    · show (c.bands ++ _)[i]? = _
      rw [List.getElem?_append_left (List.getElem?_eq_some_iff.mp hb).1]
      exact hb
    · have hb : (c.bands ++ _)[i]? = some b := hb
      rw [List.getElem?_append_right hi] at hb
      have := List.mem_of_getElem? hb
      rw [List.mem_singleton] at this
      subst this
      rfl
    · simp only [Channel.effects, List.flatMap_append, List.flatMap_singleton, Band.addEffect, insertEffect]
      exact List.perm_append_singleton _ _
  | some j =>
    obtain ⟨b, hb, ht, hf⟩ := c30_found c _ _ _ j hr
    have hmem := List.mem_of_getElem? hb
    refine ⟨_, rfl, ?_, ⟨rfl, fun i b' hb' => ?_, fun i b' hi hb' => ?_⟩, flatMap_modify _ _ _ _ hb⟩
    · intro x hx hxt
      obtain ⟨i, hi⟩ := List.getElem?_of_mem hx
      by_cases hij : j = i
      · subst hij
        have hi : (c.bands.modify j _)[j]? = some x := hi
        rw [List.getElem?_modify_eq, hb] at hi
        injection hi with hi
        subst hi
        obtain ⟨s1, s2⟩ := hc b hmem ht
        refine ⟨insertEffect_sequential e _ h2 s1 (fun y hy => ?_), fun y hy => ?_⟩
        · obtain ⟨-, y2, y3, -⟩ := timed_last (s2 y hy)
          obtain ⟨len, hl, hm⟩ := hf y hy
          rw [y3] at hl
          injection hl with hl
          subst hl
          refine ⟨y2, ?_⟩
          by_contra hcon
          push Not at hcon
          refine hm ⟨max (y.position : ℚ) e.position, ⟨le_max_left _ _, ?_⟩, le_max_right _ _, ?_⟩
          · refine max_le ?_ ?_
            · exact_mod_cast Int.le_add_of_nonneg_right y2
            · exact_mod_cast hcon.1
          · refine max_le ?_ ?_
            · exact_mod_cast hcon.2
            · exact_mod_cast Int.le_add_of_nonneg_right h2
        · rcases List.mem_cons.mp ((insertEffect_perm e b.effects).mem_iff.mp hy) with rfl | hy
          · exact he
          · exact s2 y hy
      · have hi : (c.bands.modify j _)[i]? = some x := hi
        rw [List.getElem?_modify_ne _ _ hij] at hi
        exact hc x (List.mem_of_getElem? hi) hxt
    · show ∃ x, (c.bands.modify j _)[i]? = some x ∧ _
      by_cases hij : j = i
      · subst hij
        rw [hb] at hb'
        injection hb' with hb'
        subst hb'
        refine ⟨b.addEffect e, by rw [List.getElem?_modify_eq, hb]; rfl, rfl, insertEffect_sublist e _,
          fun hn => absurd ht hn⟩
      · exact ⟨b', by rw [List.getElem?_modify_ne _ _ hij]; exact hb', rfl, List.Sublist.refl _, fun _ => rfl⟩
    · have hb' : (c.bands.modify j _)[i]? = some b' := hb'
      rw [List.getElem?_eq_none (by simpa using hi)] at hb'
      cases hb'

/-- **C74.** Effects with keyframes can always be distributed.  All of them are in the channel afterwards, with
those that were there, and nothing else; the bands that were there keep their parameters and effects; and in no
vectorial band an effect begins before the one before it is over. -/
theorem c74_distributed (lower upper : Int) (c : Channel) (es : List Effect)
    (hc : ∀ b ∈ c.bands, b.bandType = BandType.VectorialWave → b.Sequential ∧ ∀ e ∈ b.effects, e.Timed)
    (he : ∀ e ∈ es, e.Timed) :
    ∃ d, c.injectAll lower upper es = .ok d ∧ Extends lower upper c d ∧ d.effects.Perm (c.effects ++ es) ∧
      ∀ b ∈ d.bands, b.bandType = BandType.VectorialWave → b.Sequential := by
  induction es generalizing c with
  | nil => exact ⟨c, rfl, Extends.refl _ _ c, by simp, fun b hb ht => (hc b hb ht).1⟩
  | cons e es ih =>
    obtain ⟨d, h1, h2, h3, h4⟩ := inject_step lower upper c e hc (he e List.mem_cons_self)
    obtain ⟨d', k1, k2, k3, k4⟩ := ih d h2 (fun x hx => he x (List.mem_cons_of_mem _ hx))
    refine ⟨d', by rw [Channel.injectAll, h1]; exact k1, h3.trans k2, ?_, k4⟩
    refine k3.trans ((h4.append_right es).trans ?_)
    exact List.perm_middle.symm

/-- Two effects have an instant in common. -/
def Effect.Overlaps (a b : Effect) : Prop :=
  a.position ≤ b.position + b.length ∧ b.position ≤ a.position + a.length
instance (a b : Effect) : Decidable (a.Overlaps b) := inferInstanceAs (Decidable (_ ∧ _))

/-- **C74.** Effects that do not overlap share one band. -/
theorem c74_one_band (lower upper : Int) (es : List Effect) (he : ∀ e ∈ es, e.Timed)
    (ho : es.Pairwise (fun a b => ¬ a.Overlaps b)) (c d : Channel) (hc : c.bands = [])
    (hd : c.injectAll lower upper es = .ok d) : d.bands.length ≤ 1 := by
  suffices H : ∀ (es : List Effect) (c : Channel), (∀ e ∈ es, e.Timed) → es.Pairwise (fun a b => ¬ a.Overlaps b) →
      Laid c → c.bands.length ≤ 1 → (∀ b ∈ c.bands, b.bandType = BandType.VectorialWave) →
      (∀ a ∈ c.effects, ∀ b ∈ es, ¬ a.Overlaps b) →
      c.injectAll lower upper es = .ok d → d.bands.length ≤ 1 by
    refine H es c he ho (fun b hb => by simp [hc] at hb) (by simp [hc]) (fun b hb => by simp [hc] at hb)
      (fun a ha => by simp [Channel.effects, hc] at ha) hd
  intro es
  induction es with
  | nil => rintro c - - - h1 - - h; injection h with h; exact h ▸ h1
  | cons e es ih =>
    intro c he ho hc hl ht hno h
    obtain ⟨d', h1, h2, h3, h4⟩ := inject_step lower upper c e hc (he e List.mem_cons_self)
    rw [Channel.injectAll, h1] at h
    obtain ⟨o1, o2⟩ := List.pairwise_cons.mp ho
    have hd' : d'.bands.length ≤ 1 := by
      obtain ⟨g1, g2, -⟩ := timed_last (he e List.mem_cons_self)
      unfold Channel.inject at h1
      simp only [g1] at h1
      split at h1
      · cases h1
      · injection h1 with h1; subst h1; simpa using hl
      · rename_i hn
        injection h1 with h1
        subst h1
        have := c30_none c _ _ _ g2 ?_ hn
        · rcases hb : c.bands with _ | ⟨b, l⟩
          · simp
          · obtain ⟨x, hx, len, hlen, t, ⟨t1, t2⟩, t3, t4⟩ := this b (by simp [hb]) (ht b (by simp [hb]))
            have hxt := (hc b (by simp [hb]) (ht b (by simp [hb]))).2 x hx
            rw [(timed_last hxt).2.2.1] at hlen
            injection hlen with hlen
            subst hlen
            refine absurd ?_ (hno x (List.mem_flatMap.mpr ⟨b, by simp [hb], hx⟩) e List.mem_cons_self)
            constructor
            · have := le_trans t1 t4; exact_mod_cast this
            · have := le_trans t3 t2; exact_mod_cast this
        · intro b hb _ x hx len hlen
          rw [(timed_last ((hc b hb (ht b hb)).2 x hx)).2.2.1] at hlen
          injection hlen with hlen
          subst hlen
          exact_mod_cast (timed_last ((hc b hb (ht b hb)).2 x hx)).2.1
    have ht' : ∀ b ∈ d'.bands, b.bandType = BandType.VectorialWave := by
      intro b hb
      obtain ⟨i, hi⟩ := List.getElem?_of_mem hb
      rcases Nat.lt_or_ge i c.bands.length with hl | hl
      · obtain ⟨b', k1, k2, -⟩ := h3.old i _ (List.getElem?_eq_getElem hl)
        rw [hi] at k1
        injection k1 with k1
        subst k1
        exact (sameType k2).trans (ht _ (List.getElem_mem hl))
      · exact congrArg Band.bandType (h3.new i b hl hi)
    refine ih d' (fun x hx => he x (List.mem_cons_of_mem _ hx)) o2 h2 hd' ht' ?_ h
    intro a ha b hb
    rcases List.mem_cons.mp (h4.mem_iff.mp ha) with rfl | ha
    · exact o1 b hb
    · exact hno a ha b (List.mem_cons_of_mem _ hb)

/-- Three effects, the second of which overlaps the first: two bands. -/
example :
    let e := fun p l : Int => ({ position := p, keyframes := [⟨some 0, some 1, none⟩, ⟨some l, some 1, none⟩] } : Effect)
    (({} : Channel).injectAll 0 1000 [e 0 10, e 10 5, e 11 20]).toOption.map (fun c => c.bands.map (fun b =>
      b.effects.map (fun x => (x.position, x.length)))) = some [[(0, 10), (11, 20)], [(10, 5)]] := by
  decide +kernel

example : ∀ e ∈ [({ position := 3, keyframes := [⟨some 0, some 1, none⟩, ⟨some 7, some 1, none⟩] } : Effect)],
    e.Timed := by
  intro e he
  rw [List.mem_singleton] at he
  subst he
  exact ⟨7, rfl, by decide⟩

end Haptics
