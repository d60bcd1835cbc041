import Verif.Types.SpecOps

/-
C31: linearising and refactoring the effect library.
-/
namespace Haptics

/-! ### Linearising -/

theorem linearizeEffect_resolved (lib : List Effect) (e : Effect) : Resolved lib e (linearizeEffect lib e) := by
  unfold linearizeEffect getEffectById
  split
  · rename_i ht
    split
    swap
    · rename_i hf
      refine Resolved.dangling ht ?_
      intro r hr hid
      have := List.find?_eq_none.mp hf r hr
      simp [hid] at this
    · rename_i r hf
      obtain ⟨hp, pre, post, hl, hpre⟩ := List.find?_eq_some_iff_append.mp hf
      refine Resolved.found pre r post ht hl ?_ (by simpa using hp)
      intro x hx
      simpa using hpre x hx
  · rename_i ht
    exact Resolved.other ht

theorem forall₂_map_self {α : Type} {R : α → α → Prop} (f : α → α) (h : ∀ a, R a (f a)) (l : List α) :
    List.Forall₂ R l (l.map f) := by
  induction l with
  | nil => exact List.Forall₂.nil
  | cons a l ih => exact List.Forall₂.cons (h a) ih

/-- **C31 (linearise).** Linearising empties the library, keeps every channel and band with its
parameters and the number and order of their effects, keeps all positions, and makes of each effect what
`Resolved` says. -/
theorem c31_linearize (p : Perception) :
    p.linearizeLibrary.effectLibrary = [] ∧
    { p.linearizeLibrary with channels := [], effectLibrary := [] }
      = { p with channels := [], effectLibrary := [] } ∧
    EffectsRelated (fun e e' => Resolved p.effectLibrary e e' ∧ e'.position = e.position)
      p.channels p.linearizeLibrary.channels := by
  refine ⟨rfl, rfl, ?_⟩
  refine forall₂_map_self _ (fun c => ⟨rfl, ?_⟩) p.channels
  refine forall₂_map_self _ (fun b => ⟨rfl, ?_⟩) c.bands
  refine forall₂_map_self _ (fun e => ⟨linearizeEffect_resolved _ e, ?_⟩) b.effects
  unfold linearizeEffect
  split
  · split <;> rfl
  · rfl

/-- Effects of the bands after linearising. -/
theorem mem_effectsOf_linearize (p : Perception) (e : Effect) (h : e ∈ effectsOf p.linearizeLibrary.channels) :
    ∃ e₀ ∈ effectsOf p.channels, e = linearizeEffect p.effectLibrary e₀ := by
  simp only [effectsOf, Perception.linearizeLibrary, List.mem_flatMap, List.mem_map] at h
  obtain ⟨c, ⟨c₀, hc₀, rfl⟩, b, hb, he⟩ := h
  obtain ⟨b₀, hb₀, rfl⟩ := List.mem_map.mp hb
  obtain ⟨e₀, he₀, rfl⟩ := List.mem_map.mp he
  exact ⟨e₀, List.mem_flatMap.mpr ⟨c₀, hc₀, List.mem_flatMap.mpr ⟨b₀, hb₀, he₀⟩⟩, rfl⟩

/-- **C31 (linearise), partial.** If no library entry is itself a reference, no reference whose
identifier is in the library is left in a band, and if all references resolve, none is left at all.
Missing from the full property: references inside composite effects (`c31_composite_negation`) and
library entries that are references (`c31_chain_negation`). -/
theorem c31_no_reference_partial (p : Perception)
    (hlib : ∀ r ∈ p.effectLibrary, r.effectType ≠ EffectType.Reference) :
    (∀ e ∈ effectsOf p.linearizeLibrary.channels, e.effectType = EffectType.Reference →
      ∀ r ∈ p.effectLibrary, r.id ≠ e.id) ∧
    (ReferencesResolve p.effectLibrary p.channels →
      ∀ e ∈ effectsOf p.linearizeLibrary.channels, e.effectType ≠ EffectType.Reference) := by
  have key : ∀ e₀, (linearizeEffect p.effectLibrary e₀).effectType = EffectType.Reference →
      linearizeEffect p.effectLibrary e₀ = e₀ ∧ e₀.effectType = EffectType.Reference ∧
        ∀ r ∈ p.effectLibrary, r.id ≠ e₀.id := by
    intro e₀ ht
    have hr := linearizeEffect_resolved p.effectLibrary e₀
    generalize linearizeEffect p.effectLibrary e₀ = e at ht hr
    cases hr with
    | other h => exact absurd ht h
    | dangling h1 h2 => exact ⟨rfl, h1, h2⟩
    | found pre r post h1 h2 h3 h4 =>
      exact absurd ht (hlib r (by rw [h2]; simp))
  constructor
  · intro e he ht
    obtain ⟨e₀, _, rfl⟩ := mem_effectsOf_linearize p e he
    obtain ⟨h1, _, h3⟩ := key e₀ ht
    rw [h1]; exact h3
  · intro hres e he ht
    obtain ⟨e₀, he₀, rfl⟩ := mem_effectsOf_linearize p e he
    obtain ⟨_, h2, h3⟩ := key e₀ ht
    obtain ⟨r, hr, hid⟩ := hres e₀ he₀ h2
    exact h3 r hr hid

/-- One band with a reference, and its library. -/
example :
    let lib : List Effect := [{ id := 4, phase := some 1, keyframes := [⟨some 0, some 1, none⟩] }]
    let p : Perception := { channels := [{ bands := [{ effects := [{ id := 4, position := 70,
                                                                     effectType := 1 }] }] }],
                            effectLibrary := lib }
    (∀ r ∈ p.effectLibrary, r.effectType ≠ EffectType.Reference) ∧
    (effectsOf p.linearizeLibrary.channels).map Effect.signal
      = [(70, 0, some 1, none, [⟨some 0, some 1, none⟩])] := by
  refine ⟨by simp, ?_⟩
  decide +kernel

/-- **C31, negation (chains).** A library entry that refers to another entry is copied as it is, and
what it refers to is thrown away with the library. -/
theorem c31_chain_negation : ∃ p : Perception,
    (∀ e ∈ effectsOf p.channels, e.effectType = EffectType.Reference → ∃ r ∈ p.effectLibrary, r.id = e.id) ∧
    (effectsOf p.linearizeLibrary.channels).map (fun e => (e.effectType, e.id, e.keyframes))
      = [(EffectType.Reference, -1, [])] ∧ p.linearizeLibrary.effectLibrary.length = 0 := by
  refine ⟨{ channels := [{ bands := [{ effects := [{ id := 1, effectType := 1 }] }] }],
            effectLibrary := [{ id := 1, effectType := 1 }, { id := 2 }] }, ?_, by decide +kernel, rfl⟩
  intro e he _
  simp [effectsOf] at he
  subst he
  exact ⟨_, List.mem_cons_self, rfl⟩

/-- **C31, negation (composites).** A reference inside a composite effect is left as it is although the
library it refers to is emptied. -/
theorem c31_composite_negation : ∃ p : Perception,
    (effectsOf p.linearizeLibrary.channels).map (fun e => e.timeline.map (fun t => (t.effectType, t.id)))
      = [[(EffectType.Reference, 1)]] ∧ p.effectLibrary.map (·.id) = [1] ∧
    p.linearizeLibrary.effectLibrary.length = 0 :=
  ⟨{ channels := [{ bands := [{ effects := [{ effectType := 2,
                                                timeline := [{ id := 1, effectType := 1 }] }] }] }],
     effectLibrary := [{ id := 1 }] }, by decide +kernel, by decide +kernel, rfl⟩

/-! ### Refactoring -/

theorem isEquivalent_iff (a b : Effect) : a.isEquivalent b = true ↔
    a.effectType = EffectType.Basis ∧ b.effectType = EffectType.Basis ∧ a.phase = b.phase ∧
      a.baseSignal = b.baseSignal ∧ a.keyframes = b.keyframes := by
  simp only [Effect.isEquivalent, Bool.and_eq_true, beq_iff_eq, and_assoc]

theorem Band.SameSignal.refl (b : Band) : b.SameSignal b := by
  refine ⟨rfl, ?_⟩
  split <;> rfl

theorem Band.SameSignal.trans {a b c : Band} (h : a.SameSignal b) (h' : b.SameSignal c) :
    a.SameSignal c := by
  have ht : a.bandType = b.bandType := by injection h.1
  refine ⟨h.1.trans h'.1, ?_⟩
  have h2 := h.2
  have h2' := h'.2
  rw [← ht] at h2'
  split at h2 <;> rename_i hw
  · rw [if_pos hw] at h2' ⊢; exact h2.trans h2'
  · rw [if_neg hw] at h2' ⊢; exact h2.trans h2'

theorem Forall₂_trans {α : Type} {R : α → α → Prop} (ht : ∀ a b c, R a b → R b c → R a c)
    {x y z : List α} (h : List.Forall₂ R x y) (h' : List.Forall₂ R y z) : List.Forall₂ R x z := by
  induction h generalizing z with
  | nil => exact h'
  | cons hab _ ih => cases h' with
    | cons hbc hl => exact List.Forall₂.cons (ht _ _ _ hab hbc) (ih hl)

theorem Channel.SameSignal.trans {a b c : Channel} (h : a.SameSignal b) (h' : b.SameSignal c) :
    a.SameSignal c :=
  ⟨h.1.trans h'.1, Forall₂_trans (R := Band.SameSignal) (fun _ _ _ x y => x.trans y) h.2 h'.2⟩

theorem Forall₂_refl {α : Type} {R : α → α → Prop} (hr : ∀ a, R a a) (l : List α) :
    List.Forall₂ R l l := by
  induction l with
  | nil => exact List.Forall₂.nil
  | cons a l ih => exact List.Forall₂.cons (hr a) ih

theorem Channel.SameSignal.refl (c : Channel) : c.SameSignal c :=
  ⟨rfl, Forall₂_refl Band.SameSignal.refl _⟩

theorem mem_effectsOf {cs : List Channel} {e : Effect} :
    e ∈ effectsOf cs ↔ ∃ c ∈ cs, ∃ b ∈ c.bands, e ∈ b.effects := by
  simp [effectsOf, List.mem_flatMap]

/-- What holds of the library and the channels while refactoring. -/
structure RefactorInv (p : Perception) : Prop where
  numbered : LibraryNumbered p.effectLibrary
  resolve : ReferencesResolve p.effectLibrary p.channels
  apart : WaveletsApart p.channels

/-- The replacement made by one step in one effect. -/
def refStep (r : Effect) (n : Int) (e : Effect) : Effect := if r.isEquivalent e then referenceTo n e else e

/-- The replacement made by one step in one channel. -/
def refStepC (r : Effect) (n : Int) (c : Channel) : Channel :=
  { c with bands := c.bands.map (fun b => { b with effects := b.effects.map (refStep r n) }) }

theorem refactorStep_eq (i : Nat) (p : Perception) (r : Effect) :
    refactorStep i p r = p ∨ ((∃ x ∈ effectsOf p.channels, r.isEquivalent x = true) ∧ refactorStep i p r
      = { p with channels := p.channels.take i ++ (p.channels.drop i).map
                   (refStepC r p.effectLibrary.length)
                 effectLibrary := p.effectLibrary ++ [{ r with id := p.effectLibrary.length,
                                                               position := 0 }] }) := by
  unfold refactorStep
  split
  · rename_i h
    refine Or.inr ⟨?_, rfl⟩
    rcases hl : (effectsOf (p.channels.drop i)).filter (r.isEquivalent ·) with _ | ⟨x, xs⟩
    · rw [hl] at h; simp at h
    · have hx : x ∈ (effectsOf (p.channels.drop i)).filter (r.isEquivalent ·) := by rw [hl]; simp
      obtain ⟨h1, h2⟩ := List.mem_filter.mp hx
      obtain ⟨c, hc, b, hb, he⟩ := mem_effectsOf.mp h1
      exact ⟨x, mem_effectsOf.mpr ⟨c, List.mem_of_mem_drop hc, b, hb, he⟩, h2⟩
  · exact Or.inl rfl

theorem find_append_new (lib : List Effect) (x : Effect) (id : Int) (r : Effect)
    (h : getEffectById lib id = some r) : getEffectById (lib ++ [x]) id = some r := by
  unfold getEffectById at *
  rw [List.find?_append, h]; rfl

theorem find_new (lib : List Effect) (r : Effect) (hn : LibraryNumbered lib) :
    getEffectById (lib ++ [{ r with id := lib.length, position := 0 }]) lib.length
      = some { r with id := lib.length, position := 0 } := by
  unfold getEffectById
  rw [List.find?_append, List.find?_eq_none.mpr]
  · simp
  · intro x hx
    have := hn x hx
    simp only [beq_iff_eq]
    omega

/-- Resolving after a step gives the same signal as before. -/
theorem linearize_refStep (lib : List Effect) (r e : Effect) (hn : LibraryNumbered lib)
    (hres : e.effectType = EffectType.Reference → ∃ x ∈ lib, x.id = e.id) :
    (linearizeEffect (lib ++ [{ r with id := lib.length, position := 0 }])
      (refStep r lib.length e)).signal = (linearizeEffect lib e).signal := by
  unfold refStep
  by_cases h : r.isEquivalent e = true
  · rw [if_pos h]
    obtain ⟨h1, h2, h3, h4, h5⟩ := (isEquivalent_iff r e).mp h
    have e1 : linearizeEffect lib e = e := by simp [linearizeEffect, h2]
    have e2 : linearizeEffect (lib ++ [{ r with id := lib.length, position := 0 }])
        (referenceTo lib.length e) = { r with id := -1, position := e.position } := by
      unfold linearizeEffect
      have hnew := find_new lib r hn
      rw [if_pos (show (referenceTo lib.length e).effectType = EffectType.Reference from rfl)]
      rw [show (referenceTo lib.length e).id = lib.length from rfl, hnew]
      rfl
    rw [e1, e2]
    simp [Effect.signal, h1, h2, h3, h4, h5]
  · rw [if_neg h]
    by_cases ht : e.effectType = EffectType.Reference
    · obtain ⟨x, hx, hid⟩ := hres ht
      have : ∃ r', getEffectById lib e.id = some r' := by
        rcases hf : getEffectById lib e.id with _ | r'
        · have := List.find?_eq_none.mp hf x hx
          simp [hid] at this
        · exact ⟨r', rfl⟩
      obtain ⟨r', hr'⟩ := this
      simp only [linearizeEffect, if_pos ht, hr', find_append_new lib _ e.id r' hr']
    · simp only [linearizeEffect, if_neg ht]

theorem linearize_keep (lib : List Effect) (x e : Effect)
    (hres : e.effectType = EffectType.Reference → ∃ x ∈ lib, x.id = e.id) :
    linearizeEffect (lib ++ [x]) e = linearizeEffect lib e := by
  by_cases ht : e.effectType = EffectType.Reference
  · obtain ⟨y, hy, hid⟩ := hres ht
    have : ∃ r', getEffectById lib e.id = some r' := by
      rcases hf : getEffectById lib e.id with _ | r'
      · have := List.find?_eq_none.mp hf y hy
        simp [hid] at this
      · exact ⟨r', rfl⟩
    obtain ⟨r', hr'⟩ := this
    simp only [linearizeEffect, if_pos ht, hr', find_append_new lib x e.id r' hr']
  · simp only [linearizeEffect, if_neg ht]

/-- Channels after linearising with a given library. -/
def linC (lib : List Effect) (c : Channel) : Channel :=
  { c with bands := c.bands.map (fun b => { b with effects := b.effects.map (linearizeEffect lib) }) }

theorem linC_keep (lib : List Effect) (x : Effect) (c : Channel)
    (hres : ∀ b ∈ c.bands, ∀ e ∈ b.effects, e.effectType = EffectType.Reference → ∃ x ∈ lib, x.id = e.id) :
    linC (lib ++ [x]) c = linC lib c := by
  unfold linC
  congr 1
  refine List.map_congr_left (fun b hb => ?_)
  congr 1
  exact List.map_congr_left (fun e he => linearize_keep lib x e (hres b hb e he))

theorem linC_refStep (lib : List Effect) (r : Effect) (c : Channel) (hn : LibraryNumbered lib)
    (hres : ∀ b ∈ c.bands, ∀ e ∈ b.effects, e.effectType = EffectType.Reference → ∃ x ∈ lib, x.id = e.id)
    (hw : ∀ b ∈ c.bands, b.bandType = BandType.WaveletWave → ∀ e ∈ b.effects, r.isEquivalent e = false) :
    (linC lib c).SameSignal (linC (lib ++ [{ r with id := lib.length, position := 0 }])
      (refStepC r lib.length c)) := by
  refine ⟨rfl, ?_⟩
  simp only [linC, refStepC, List.map_map]
  rw [List.forall₂_map_left_iff, List.forall₂_map_right_iff, List.forall₂_same]
  intro b hb
  refine ⟨rfl, ?_⟩
  simp only [Function.comp_apply, List.map_map]
  split
  · rename_i hwt
    refine List.map_congr_left (fun e he => ?_)
    have : refStep r lib.length e = e := by simp [refStep, hw b hb hwt e he]
    simp only [Function.comp_apply, this]
    exact (linearize_keep lib _ e (hres b hb e he)).symm
  · refine List.map_congr_left (fun e he => ?_)
    simp only [Function.comp_apply]
    exact (linearize_refStep lib r e hn (hres b hb e he)).symm

/-- Effects after one step. -/
theorem mem_refStepC {r : Effect} {n : Int} {c : Channel} {b : Band}
    (hb : b ∈ (refStepC r n c).bands) : ∃ b₀ ∈ c.bands, b = { b₀ with effects := b₀.effects.map (refStep r n) } := by
  obtain ⟨b₀, h1, h2⟩ := List.mem_map.mp hb
  exact ⟨b₀, h1, h2.symm⟩

/-- Effects of wavelet bands. -/
def IsWavelet (cs : List Channel) (e : Effect) : Prop :=
  ∃ c ∈ cs, ∃ b ∈ c.bands, b.bandType = BandType.WaveletWave ∧ e ∈ b.effects

/-- A step keeps the invariant, the wavelet effects and the signal. -/
theorem refactorStep_inv (i : Nat) (p : Perception) (r : Effect) (h : RefactorInv p)
    (hw : ∀ e, IsWavelet p.channels e → r.isEquivalent e = false) :
    RefactorInv (refactorStep i p r) ∧
    (∀ e, IsWavelet (refactorStep i p r).channels e → IsWavelet p.channels e) ∧
    List.Forall₂ Channel.SameSignal (p.channels.map (linC p.effectLibrary))
      ((refactorStep i p r).channels.map (linC (refactorStep i p r).effectLibrary)) := by
  rcases refactorStep_eq i p r with he | ⟨_, he⟩
  · rw [he]
    exact ⟨h, fun _ h => h, Forall₂_refl Channel.SameSignal.refl _⟩
  rw [he]
  have hres : ∀ c ∈ p.channels, ∀ b ∈ c.bands, ∀ e ∈ b.effects,
      e.effectType = EffectType.Reference → ∃ x ∈ p.effectLibrary, x.id = e.id := by
    intro c hc b hb e he
    exact h.resolve e (mem_effectsOf.mpr ⟨c, hc, b, hb, he⟩)
  have hmem : ∀ c' ∈ p.channels.take i ++ (p.channels.drop i).map (refStepC r p.effectLibrary.length),
      c' ∈ p.channels ∨ ∃ c ∈ p.channels, c' = refStepC r p.effectLibrary.length c := by
    intro c' hc'
    rcases List.mem_append.mp hc' with hc' | hc'
    · exact Or.inl (List.mem_of_mem_take hc')
    · obtain ⟨c, hc, rfl⟩ := List.mem_map.mp hc'
      exact Or.inr ⟨c, List.mem_of_mem_drop hc, rfl⟩
  have hold : ∀ e, IsWavelet (p.channels.take i ++ (p.channels.drop i).map
      (refStepC r p.effectLibrary.length)) e → IsWavelet p.channels e := by
    rintro e' ⟨c', hc', b', hb', hw', he'⟩
    rcases hmem c' hc' with h0 | ⟨c₀, hc₀, rfl⟩
    · exact ⟨c', h0, b', hb', hw', he'⟩
    · obtain ⟨b₀, hb₀, rfl⟩ := mem_refStepC hb'
      obtain ⟨e₀, he₀, rfl⟩ := List.mem_map.mp he'
      have : refStep r p.effectLibrary.length e₀ = e₀ := by
        simp [refStep, hw e₀ ⟨c₀, hc₀, b₀, hb₀, hw', he₀⟩]
      exact ⟨c₀, hc₀, b₀, hb₀, hw', by rw [this]; exact he₀⟩
  refine ⟨⟨?_, ?_, ?_⟩, hold, ?_⟩
  · intro e he
    rcases List.mem_append.mp he with he | he
    · have := h.numbered e he
      simp only [List.length_append, List.length_singleton]
      omega
    · rw [List.mem_singleton.mp he]
      simp only [List.length_append, List.length_singleton]
      omega
  · intro e he ht
    obtain ⟨c', hc', b, hb, heb⟩ := mem_effectsOf.mp he
    have old : (∃ x ∈ p.effectLibrary, x.id = e.id) → ∃ x ∈ p.effectLibrary ++
        [{ r with id := (p.effectLibrary.length : Int), position := 0 }], x.id = e.id := by
      rintro ⟨x, hx, hid⟩
      exact ⟨x, List.mem_append_left _ hx, hid⟩
    rcases hmem c' hc' with hc | ⟨c, hc, rfl⟩
    · exact old (hres c' hc b hb e heb ht)
    · obtain ⟨b₀, hb₀, rfl⟩ := mem_refStepC hb
      obtain ⟨e₀, he₀, rfl⟩ := List.mem_map.mp heb
      by_cases hq : r.isEquivalent e₀ = true
      · refine ⟨_, List.mem_append_right _ (List.mem_singleton.mpr rfl), ?_⟩
        simp [refStep, hq, referenceTo]
      · simp only [refStep, if_neg hq] at ht old ⊢
        exact old (hres c hc b₀ hb₀ e₀ he₀ ht)
  · intro c hc b hb hnw e he c' hc' b' hb' hw' e' he'
    obtain ⟨c₀, hc₀, b₀, hb₀, hw₀, he₀⟩ := hold e' ⟨c', hc', b', hb', hw', he'⟩
    rcases hmem c hc with h0 | ⟨c₁, hc₁, rfl⟩
    · exact h.apart c h0 b hb hnw e he c₀ hc₀ b₀ hb₀ hw₀ e' he₀
    · obtain ⟨b₁, hb₁, rfl⟩ := mem_refStepC hb
      obtain ⟨e₁, he₁, rfl⟩ := List.mem_map.mp he
      by_cases hq : r.isEquivalent e₁ = true
      · simp only [refStep, if_pos hq]; simp [referenceTo, Effect.isEquivalent]
      · simp only [refStep, if_neg hq]
        exact h.apart c₁ hc₁ b₁ hb₁ hnw e₁ he₁ c₀ hc₀ b₀ hb₀ hw₀ e' he₀
  · simp only
    rw [List.map_append]
    have hsplit : p.channels.map (linC p.effectLibrary) = (p.channels.take i).map (linC p.effectLibrary)
        ++ (p.channels.drop i).map (linC p.effectLibrary) := by
      rw [← List.map_append, List.take_append_drop]
    rw [hsplit]
    refine List.rel_append ?_ ?_
    · rw [List.forall₂_map_left_iff, List.forall₂_map_right_iff, List.forall₂_same]
      intro c hc
      rw [linC_keep _ _ c (fun b hb e he => hres c (List.mem_of_mem_take hc) b hb e he)]
      exact Channel.SameSignal.refl _
    · rw [List.map_map, List.forall₂_map_left_iff, List.forall₂_map_right_iff, List.forall₂_same]
      intro c hc
      have hc' := List.mem_of_mem_drop hc
      exact linC_refStep _ r c h.numbered (fun b hb e he => hres c hc' b hb e he)
        (fun b hb hbt e he => hw e ⟨c, hc', b, hb, hbt, he⟩)

theorem refactorSteps_inv (i : Nat) (es : List Effect) (p : Perception) (h : RefactorInv p)
    (hw : ∀ r ∈ es, ∀ e, IsWavelet p.channels e → r.isEquivalent e = false) :
    RefactorInv (es.foldl (refactorStep i) p) ∧
    List.Forall₂ Channel.SameSignal (p.channels.map (linC p.effectLibrary))
      ((es.foldl (refactorStep i) p).channels.map (linC (es.foldl (refactorStep i) p).effectLibrary)) := by
  induction es generalizing p with
  | nil => exact ⟨h, Forall₂_refl Channel.SameSignal.refl _⟩
  | cons r es ih =>
    obtain ⟨h1, h2, h3⟩ := refactorStep_inv i p r h (hw r List.mem_cons_self)
    obtain ⟨h4, h5⟩ := ih (refactorStep i p r) h1
      (fun r' hr' e he => hw r' (List.mem_cons_of_mem _ hr') e (h2 e he))
    exact ⟨h4, Forall₂_trans (R := Channel.SameSignal) (fun _ _ _ x y => x.trans y) h3 h5⟩

theorem refactorChannel_inv (i : Nat) (p : Perception) (h : RefactorInv p) :
    RefactorInv (refactorChannel p i) ∧
    List.Forall₂ Channel.SameSignal (p.channels.map (linC p.effectLibrary))
      ((refactorChannel p i).channels.map (linC (refactorChannel p i).effectLibrary)) := by
  unfold refactorChannel
  rcases hc : p.channels[i]? with _ | c
  · exact ⟨h, Forall₂_refl Channel.SameSignal.refl _⟩
  · refine refactorSteps_inv i _ p h ?_
    intro r hr e ⟨c', hc', b', hb', hw', he'⟩
    obtain ⟨b, hb, hrb⟩ := List.mem_flatMap.mp hr
    obtain ⟨hb1, hb2⟩ := List.mem_filter.mp hb
    exact h.apart c (List.mem_of_getElem? hc) b hb1 (by simpa using hb2) r hrb c' hc' b' hb' hw' e he'

/-- **C31 (refactor), partial.** Refactoring and then linearising renders the same signal as linearising
alone: every channel and band keeps its parameters and every effect its position, keyframes, phase and
base signal (wavelet effects are not touched), provided that the library is numbered below its size
(an empty one, say), all references resolve, and no wavelet effect looks like an effect of another band.
Missing from the full property: libraries with larger identifiers (`c31_collision_negation`) and
keyframe-less effects beside wavelets (`c31_wavelet_negation`). -/
theorem c31_refactor_linearize_partial (p : Perception) (h1 : LibraryNumbered p.effectLibrary)
    (h2 : ReferencesResolve p.effectLibrary p.channels) (h3 : WaveletsApart p.channels) :
    List.Forall₂ Channel.SameSignal p.linearizeLibrary.channels
      p.refactorEffects.linearizeLibrary.channels := by
  show List.Forall₂ Channel.SameSignal (p.channels.map (linC p.effectLibrary))
    (p.refactorEffects.channels.map (linC p.refactorEffects.effectLibrary))
  have key : ∀ (is : List Nat) (q : Perception), RefactorInv q →
      List.Forall₂ Channel.SameSignal (q.channels.map (linC q.effectLibrary))
        ((is.foldl refactorChannel q).channels.map (linC (is.foldl refactorChannel q).effectLibrary)) := by
    intro is
    induction is with
    | nil => intro q _; exact Forall₂_refl Channel.SameSignal.refl _
    | cons i is ih =>
      intro q hq
      obtain ⟨h4, h5⟩ := refactorChannel_inv i q hq
      exact Forall₂_trans (R := Channel.SameSignal) (fun _ _ _ x y => x.trans y) h5 (ih _ h4)
  exact key _ p ⟨h1, h2, h3⟩

/-- Two equal effects in two channels become references to one library entry. -/
example :
    let e (t : Int) : Effect := { position := t, keyframes := [⟨some 0, some 1, some 90⟩] }
    let p : Perception := { channels := [{ bands := [{ effects := [e 10, e 40] }] },
                                         { bands := [{ effects := [e 5] }] }] }
    (effectsOf p.refactorEffects.channels).map (fun e => (e.id, e.position, e.effectType))
      = [(0, 10, 1), (0, 40, 1), (0, 5, 1)] ∧
    p.refactorEffects.effectLibrary.map (fun e => (e.id, e.position, e.keyframes))
      = [(0, 0, [⟨some 0, some 1, some 90⟩])] ∧
    LibraryNumbered p.effectLibrary ∧ ReferencesResolve p.effectLibrary p.channels ∧
    WaveletsApart p.channels := by
  refine ⟨by decide +kernel, by decide +kernel, by simp [LibraryNumbered], ?_, ?_⟩
  · intro e he
    simp only [mem_effectsOf] at he
    obtain ⟨c, hc, b, hb, he⟩ := he
    simp at hc
    rcases hc with rfl | rfl <;> simp at hb <;> subst hb <;> simp at he
    · rcases he with rfl | rfl <;> simp
    · subst he; simp
  · intro c hc b hb _ e he c' hc' b' hb' hw'
    simp at hc'
    rcases hc' with rfl | rfl <;> simp at hb' <;> subst hb' <;> cases hw'

/-- **C31, negation (identifier collision).** The new library entry gets the library size as identifier,
which an entry may have already: the references then resolve to that other entry. -/
theorem c31_collision_negation : ∃ p : Perception,
    ReferencesResolve p.effectLibrary p.channels ∧ WaveletsApart p.channels ∧
    (effectsOf p.linearizeLibrary.channels).map (·.keyframes) = [[⟨some 0, some 1, none⟩],
      [⟨some 0, some 1, none⟩]] ∧
    (effectsOf p.refactorEffects.linearizeLibrary.channels).map (·.keyframes) = [[], []] := by
  refine ⟨{ channels := [{ bands := [{ effects := [{ keyframes := [⟨some 0, some 1, none⟩] },
              { position := 9, keyframes := [⟨some 0, some 1, none⟩] }] }] }],
            effectLibrary := [{ id := 1 }] }, ?_, ?_, by decide +kernel, by decide +kernel⟩
  · intro e he
    simp [effectsOf] at he
    rcases he with rfl | rfl <;> simp
  · intro c hc b hb _ e he c' hc' b' hb' hw'
    simp at hc'
    subst hc'
    simp at hb'
    subst hb'
    cases hw'

/-- **C31, negation (wavelets).** An effect without keyframes is "equivalent" to every wavelet effect:
the wavelet effect is replaced by a reference and its payload is lost. -/
theorem c31_wavelet_negation : ∃ p : Perception, p.effectLibrary = [] ∧
    ReferencesResolve p.effectLibrary p.channels ∧
    (effectsOf p.linearizeLibrary.channels).map (·.waveletBitstream) = [[], [1, 2, 3]] ∧
    (effectsOf p.refactorEffects.linearizeLibrary.channels).map (·.waveletBitstream) = [[], []] := by
  refine ⟨{ channels := [{ bands := [{ effects := [{}] },
              { bandType := 3, effects := [{ waveletBitstream := [1, 2, 3] }] }] }] }, rfl, ?_,
    by decide +kernel, by decide +kernel⟩
  intro e he
  simp [effectsOf] at he
  rcases he with rfl | rfl <;> simp

end Haptics
