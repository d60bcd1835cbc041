import Verif.Types.SpecOps
import Mathlib.Tactic.Linarith
import Mathlib.Tactic.NormNum

/-
Properties of the operations of the data model: C26–C31.
-/
namespace Haptics

/-! ### C26: effects stay in time order -/

theorem insertEffect_perm (n : Effect) (l : List Effect) : (insertEffect n l).Perm (n :: l) := by
  induction l with
  | nil => exact List.Perm.refl _
  | cons e l ih =>
    simp only [insertEffect]
    split
    · exact List.Perm.refl _
    · exact (List.Perm.cons e ih).trans (List.Perm.swap n e l)

theorem insertEffect_ordered (n : Effect) (l : List Effect) (h : TimeOrdered l) :
    TimeOrdered (insertEffect n l) := by
  induction l with
  | nil => simp [insertEffect, TimeOrdered]
  | cons e l ih =>
    have ⟨h1, h2⟩ := List.pairwise_cons.mp h
    simp only [insertEffect]
    split
    · rename_i hgt
      refine List.pairwise_cons.mpr ⟨?_, h⟩
      intro x hx
      rcases List.mem_cons.mp hx with rfl | hx
      · omega
      · have := h1 x hx; omega
    · rename_i hgt
      refine List.pairwise_cons.mpr ⟨?_, ih h2⟩
      intro x hx
      rcases List.mem_cons.mp ((insertEffect_perm n l).mem_iff.mp hx) with rfl | hx
      · omega
      · exact h1 x hx

/-- In time order, the effects at one instant come out in the order they were added. -/
theorem insertEffect_filter (n : Effect) (l : List Effect) (h : TimeOrdered l) (p : Int) :
    (insertEffect n l).filter (fun e => e.position == p)
      = l.filter (fun e => e.position == p) ++ [n].filter (fun e => e.position == p) := by
  induction l with
  | nil => simp [insertEffect]
  | cons e l ih =>
    have ⟨h1, h2⟩ := List.pairwise_cons.mp h
    simp only [insertEffect]
    split
    · rename_i hgt
      by_cases hn : n.position = p
      · have hnone : (e :: l).filter (fun e => e.position == p) = [] := by
          rw [List.filter_eq_nil_iff]
          intro x hx
          rcases List.mem_cons.mp hx with rfl | hx
          · simp only [beq_iff_eq]; omega
          · have := h1 x hx
            simp only [beq_iff_eq]; omega
        rw [List.filter_cons, hnone]
        simp [hn]
      · rw [List.filter_cons]
        simp [hn]
    · rw [List.filter_cons, ih h2, List.filter_cons (x := e)]
      split <;> simp

/-- **C26.** After any sequence of `addEffect` calls on a band in time order (an empty one, say) the
effects are in time order, they are exactly the old and the added ones, and at each instant the older
ones come first, in the order of addition. -/
theorem c26_addEffect (b : Band) (added : List Effect) (h : TimeOrdered b.effects) :
    TimeOrdered (added.foldl Band.addEffect b).effects ∧
    (added.foldl Band.addEffect b).effects.Perm (b.effects ++ added) ∧
    (∀ p, (added.foldl Band.addEffect b).effects.filter (fun e => e.position == p)
      = (b.effects ++ added).filter (fun e => e.position == p)) ∧
    { added.foldl Band.addEffect b with effects := [] } = { b with effects := [] } := by
  induction added generalizing b with
  | nil => simp [h]
  | cons n l ih =>
    have hs : TimeOrdered (b.addEffect n).effects := insertEffect_ordered n _ h
    obtain ⟨h1, h2, h3, h4⟩ := ih (b.addEffect n) hs
    refine ⟨h1, ?_, ?_, h4⟩
    · refine h2.trans ?_
      have := (insertEffect_perm n b.effects).append_right l
      refine this.trans ?_
      exact (List.perm_middle (a := n) (l₁ := b.effects) (l₂ := l)).symm
    · intro p
      rw [List.foldl_cons, h3 p, List.filter_append]
      show (insertEffect n b.effects).filter _ ++ _ = _
      rw [insertEffect_filter n _ h p]
      rw [List.append_assoc, ← List.filter_append, List.singleton_append, ← List.filter_append]

/-- Three effects, added out of order, with a tie. -/
example : (([⟨1, 20, none, none, [], none, 0, [], []⟩, ⟨2, 10, none, none, [], none, 0, [], []⟩,
    ⟨3, 10, none, none, [], none, 0, [], []⟩] : List Effect).foldl Band.addEffect {}).effects.map
      (fun e => (e.id, e.position)) = [(2, 10), (3, 10), (1, 20)] := by decide

/-- The order is needed: `addEffect` puts a new effect before a later one even if an equal one comes
after it. -/
example : ((({ effects := [⟨1, 20, none, none, [], none, 0, [], []⟩,
    ⟨2, 10, none, none, [], none, 0, [], []⟩] } : Band).addEffect
      ⟨3, 10, none, none, [], none, 0, [], []⟩).effects.map (·.id)) = [3, 1, 2] := by decide

/-! ### C27: amplitude and frequency keyframes -/

theorem notBefore_iff (k : Keyframe) (p : Int) :
    k.notBefore p = true ↔ ∃ q, k.relativePosition = some q ∧ p ≤ q := by
  unfold Keyframe.notBefore
  cases k.relativePosition with
  | none => simp
  | some q => simp

/-- What `addAmplitudeAt` does: the keyframes before the first one at or after `position` stay; then the
new value is stored in that one, or in a new keyframe. -/
theorem addAmplitudeKf_shape (a : Option ℚ) (p : Int) (ov : Bool) (l : List Keyframe) :
    ∃ pre post, l = pre ++ post ∧ (∀ k ∈ pre, k.notBefore p = false) ∧
      ((∃ k rest, post = k :: rest ∧ k.relativePosition = some p ∧
          addAmplitudeKf a p ov l = if ov then pre ++ { k with amplitudeModulation := a } :: rest
            else pre ++ k :: ⟨some p, a, none⟩ :: rest) ∨
       ((∀ k ∈ post.head?, ∃ q, k.relativePosition = some q ∧ p < q) ∧
          addAmplitudeKf a p ov l = pre ++ ⟨some p, a, none⟩ :: post)) := by
  induction l with
  | nil => exact ⟨[], [], rfl, by simp, Or.inr ⟨by simp, rfl⟩⟩
  | cons k l ih =>
    by_cases hb : k.notBefore p = true
    · refine ⟨[], k :: l, rfl, by simp, ?_⟩
      by_cases he : k.relativePosition = some p
      · refine Or.inl ⟨k, l, rfl, he, ?_⟩
        simp only [addAmplitudeKf, hb, he, if_true, List.nil_append]
      · refine Or.inr ⟨?_, ?_⟩
        · intro k' hk'
          simp only [List.head?_cons, Option.mem_def, Option.some.injEq] at hk'
          subst hk'
          obtain ⟨q, hq, hle⟩ := (notBefore_iff _ _).mp hb
          refine ⟨q, hq, ?_⟩
          rcases lt_or_eq_of_le hle with h | h
          · exact h
          · subst h; exact absurd hq he
        · simp only [addAmplitudeKf, hb, he, if_true, if_false, List.nil_append]
    · obtain ⟨pre, post, h1, h2, h3⟩ := ih
      have hb' : k.notBefore p = false := by simpa using hb
      refine ⟨k :: pre, post, by rw [h1]; rfl, ?_, ?_⟩
      · intro x hx
        rcases List.mem_cons.mp hx with rfl | hx
        · exact hb'
        · exact h2 x hx
      · rcases h3 with ⟨k', rest, e1, e2, e3⟩ | ⟨e1, e2⟩
        · refine Or.inl ⟨k', rest, e1, e2, ?_⟩
          simp only [addAmplitudeKf, hb', Bool.false_eq_true, if_false, e3]
          cases ov <;> rfl
        · refine Or.inr ⟨e1, ?_⟩
          simp only [addAmplitudeKf, hb', Bool.false_eq_true, if_false, e2]
          rfl

theorem addFrequencyKf_shape (a : Option Int) (p : Int) (l : List Keyframe) :
    ∃ pre post, l = pre ++ post ∧ (∀ k ∈ pre, k.notBefore p = false) ∧
      ((∃ k rest, post = k :: rest ∧ k.relativePosition = some p ∧
          addFrequencyKf a p l = pre ++ { k with frequencyModulation := a } :: rest) ∨
       ((∀ k ∈ post.head?, ∃ q, k.relativePosition = some q ∧ p < q) ∧
          addFrequencyKf a p l = pre ++ ⟨some p, none, a⟩ :: post)) := by
  induction l with
  | nil => exact ⟨[], [], rfl, by simp, Or.inr ⟨by simp, rfl⟩⟩
  | cons k l ih =>
    by_cases hb : k.notBefore p = true
    · refine ⟨[], k :: l, rfl, by simp, ?_⟩
      by_cases he : k.relativePosition = some p
      · refine Or.inl ⟨k, l, rfl, he, ?_⟩
        simp only [addFrequencyKf, hb, he, if_true, List.nil_append]
      · refine Or.inr ⟨?_, ?_⟩
        · intro k' hk'
          simp only [List.head?_cons, Option.mem_def, Option.some.injEq] at hk'
          subst hk'
          obtain ⟨q, hq, hle⟩ := (notBefore_iff _ _).mp hb
          refine ⟨q, hq, ?_⟩
          rcases lt_or_eq_of_le hle with h | h
          · exact h
          · subst h; exact absurd hq he
        · simp only [addFrequencyKf, hb, he, if_true, if_false, List.nil_append]
    · obtain ⟨pre, post, h1, h2, h3⟩ := ih
      have hb' : k.notBefore p = false := by simpa using hb
      refine ⟨k :: pre, post, by rw [h1]; rfl, ?_, ?_⟩
      · intro x hx
        rcases List.mem_cons.mp hx with rfl | hx
        · exact hb'
        · exact h2 x hx
      · rcases h3 with ⟨k', rest, e1, e2, e3⟩ | ⟨e1, e2⟩
        · refine Or.inl ⟨k', rest, e1, e2, ?_⟩
          simp only [addFrequencyKf, hb', Bool.false_eq_true, if_false, e3]
          rfl
        · refine Or.inr ⟨e1, ?_⟩
          simp only [addFrequencyKf, hb', Bool.false_eq_true, if_false, e2]
          rfl

/-- Inserting a position between the smaller ones and a not smaller one keeps the order. -/
theorem pairwise_insert_mid (pre post : List Int) (p : Int) (h : (pre ++ post).Pairwise (· ≤ ·))
    (h1 : ∀ q ∈ pre, q < p) (h2 : ∀ q ∈ post.head?, p ≤ q) : (pre ++ p :: post).Pairwise (· ≤ ·) := by
  rw [List.pairwise_append] at h ⊢
  obtain ⟨ha, hb, hc⟩ := h
  refine ⟨ha, List.pairwise_cons.mpr ⟨?_, hb⟩, ?_⟩
  · intro q hq
    cases post with
    | nil => simp at hq
    | cons x xs =>
      have hx : p ≤ x := h2 x rfl
      rcases List.mem_cons.mp hq with rfl | hq
      · exact hx
      · exact le_trans hx ((List.pairwise_cons.mp hb).1 q hq)
  · intro a ha' b hb'
    rcases List.mem_cons.mp hb' with rfl | hb'
    · exact (h1 a ha').le
    · exact hc a ha' b hb'

theorem positions_lt {pre : List Keyframe} {p : Int} (h : ∀ k ∈ pre, k.notBefore p = false) :
    ∀ q ∈ pre.filterMap (·.relativePosition), q < p := by
  intro q hq
  obtain ⟨k, hk, hkq⟩ := List.mem_filterMap.mp hq
  have := h k hk
  rw [Keyframe.notBefore, hkq] at this
  simpa using this

theorem head_position {post : List Keyframe} {p : Int}
    (h : ∀ k ∈ post.head?, ∃ q, k.relativePosition = some q ∧ p < q) :
    ∀ q ∈ (post.filterMap (·.relativePosition)).head?, p ≤ q := by
  cases post with
  | nil => simp
  | cons k l =>
    obtain ⟨q, hq, hlt⟩ := h k rfl
    intro q' hq'
    rw [List.filterMap_cons, hq] at hq'
    simp only [List.head?_cons, Option.mem_def, Option.some.injEq] at hq'
    omega

theorem find_prefix (pre : List Keyframe) (p : Int) (h : ∀ k ∈ pre, k.notBefore p = false)
    (rest : List Keyframe) : (pre ++ rest).find? (fun k => k.relativePosition == some p)
      = rest.find? (fun k => k.relativePosition == some p) := by
  rw [List.find?_append, List.find?_eq_none.mpr, Option.none_or]
  intro k hk
  have := h k hk
  intro hc
  have hc' : k.relativePosition = some p := by simpa using hc
  simp [Keyframe.notBefore, hc'] at this

/-- **C27 (amplitude).** `addAmplitudeAt` keeps keyframes in time order; all keyframes that were there
keep their positions and frequencies, in order, and their amplitudes unless overridden; and there is a
keyframe at the position with the requested amplitude.  With `override`, the first keyframe at that
position, which is the one a reader finds, carries it, and no second keyframe is put on an occupied
position. -/
theorem c27_addAmplitudeAt (e : Effect) (a : Option ℚ) (p : Int) (ov : Bool) :
    (KfOrdered e.keyframes → KfOrdered (e.addAmplitudeAt a p ov).keyframes) ∧
    (∃ k ∈ (e.addAmplitudeAt a p ov).keyframes,
      k.relativePosition = some p ∧ k.amplitudeModulation = a) ∧
    (ov = true → ∃ k, (e.addAmplitudeAt a p ov).keyframes.find? (fun k => k.relativePosition == some p)
      = some k ∧ k.amplitudeModulation = a) ∧
    ((∃ pre k post, e.keyframes = pre ++ k :: post ∧ k.relativePosition = some p ∧
        (e.addAmplitudeAt a p ov).keyframes
          = if ov then pre ++ { k with amplitudeModulation := a } :: post
            else pre ++ k :: ⟨some p, a, none⟩ :: post) ∨
     (∃ pre post, e.keyframes = pre ++ post ∧
        (KfOrdered e.keyframes → ∀ k ∈ e.keyframes, k.relativePosition ≠ some p) ∧
        (e.addAmplitudeAt a p ov).keyframes = pre ++ ⟨some p, a, none⟩ :: post)) := by
  show (_ → KfOrdered (addAmplitudeKf a p ov e.keyframes)) ∧ _
  simp only [Effect.addAmplitudeAt]
  obtain ⟨pre, post, h1, h2, h3⟩ := addAmplitudeKf_shape a p ov e.keyframes
  rcases h3 with ⟨k, rest, e1, e2, e3⟩ | ⟨e1, e2⟩
  · rw [h1, e1] at *
    refine ⟨?_, ?_, ?_, Or.inl ⟨pre, k, rest, rfl, e2, e3⟩⟩
    · intro ho
      rw [e3]
      unfold KfOrdered at *
      cases ov
      · rw [if_neg (by simp)]
        rw [List.filterMap_append, List.filterMap_cons, e2] at ho
        rw [List.filterMap_append, List.filterMap_cons, e2, List.filterMap_cons]
        refine pairwise_insert_mid _ _ p ho (positions_lt h2) ?_
        simp
      · rw [if_pos rfl]
        simpa [List.filterMap_append, List.filterMap_cons, e2] using ho
    · rw [e3]
      cases ov
      · exact ⟨⟨some p, a, none⟩, by simp, rfl, rfl⟩
      · exact ⟨{ k with amplitudeModulation := a }, by simp, e2, rfl⟩
    · intro hov
      subst hov
      rw [e3, if_pos rfl, find_prefix pre p h2]
      refine ⟨{ k with amplitudeModulation := a }, ?_, rfl⟩
      rw [List.find?_cons_of_pos (by simp [e2])]
  · refine ⟨?_, ?_, ?_, Or.inr ⟨pre, post, h1, ?_, e2⟩⟩
    · intro ho
      rw [e2]
      unfold KfOrdered at *
      rw [h1, List.filterMap_append] at ho
      rw [List.filterMap_append, List.filterMap_cons]
      exact pairwise_insert_mid _ _ p ho (positions_lt h2) (head_position e1)
    · rw [e2]
      exact ⟨⟨some p, a, none⟩, by simp, rfl, rfl⟩
    · intro _
      rw [e2, find_prefix pre p h2]
      exact ⟨⟨some p, a, none⟩, List.find?_cons_of_pos (by simp), rfl⟩
    · intro ho k hk hkp
      unfold KfOrdered at ho
      rw [h1, List.filterMap_append] at ho
      rw [h1] at hk
      rcases List.mem_append.mp hk with hk | hk
      · have := h2 k hk
        simp [Keyframe.notBefore, hkp] at this
      · have hb := (List.pairwise_append.mp ho).2.1
        cases post with
        | nil => simp at hk
        | cons x xs =>
          obtain ⟨q, hq, hlt⟩ := e1 x rfl
          rw [List.filterMap_cons, hq] at hb
          rcases List.mem_cons.mp hk with rfl | hk
          · rw [hkp] at hq; injection hq with hq; omega
          · have := (List.pairwise_cons.mp hb).1 p (List.mem_filterMap.mpr ⟨k, hk, hkp⟩)
            omega

/-- **C27 (frequency).** The same for `addFrequencyAt`, which always overrides. -/
theorem c27_addFrequencyAt (e : Effect) (f : Option Int) (p : Int) :
    (KfOrdered e.keyframes → KfOrdered (e.addFrequencyAt f p).keyframes) ∧
    (∃ k, (e.addFrequencyAt f p).keyframes.find? (fun k => k.relativePosition == some p) = some k ∧
      k.frequencyModulation = f) ∧
    ((∃ pre k post, e.keyframes = pre ++ k :: post ∧ k.relativePosition = some p ∧
        (e.addFrequencyAt f p).keyframes = pre ++ { k with frequencyModulation := f } :: post) ∨
     (∃ pre post, e.keyframes = pre ++ post ∧
        (KfOrdered e.keyframes → ∀ k ∈ e.keyframes, k.relativePosition ≠ some p) ∧
        (e.addFrequencyAt f p).keyframes = pre ++ ⟨some p, none, f⟩ :: post)) := by
  simp only [Effect.addFrequencyAt]
  obtain ⟨pre, post, h1, h2, h3⟩ := addFrequencyKf_shape f p e.keyframes
  rcases h3 with ⟨k, rest, e1, e2, e3⟩ | ⟨e1, e2⟩
  · rw [h1, e1] at *
    refine ⟨?_, ?_, Or.inl ⟨pre, k, rest, rfl, e2, e3⟩⟩
    · intro ho
      rw [e3]
      unfold KfOrdered at *
      simpa [List.filterMap_append, List.filterMap_cons, e2] using ho
    · rw [e3, find_prefix pre p h2]
      refine ⟨{ k with frequencyModulation := f }, ?_, rfl⟩
      rw [List.find?_cons_of_pos (by simp [e2])]
  · refine ⟨?_, ?_, Or.inr ⟨pre, post, h1, ?_, e2⟩⟩
    · intro ho
      rw [e2]
      unfold KfOrdered at *
      rw [h1, List.filterMap_append] at ho
      rw [List.filterMap_append, List.filterMap_cons]
      exact pairwise_insert_mid _ _ p ho (positions_lt h2) (head_position e1)
    · rw [e2, find_prefix pre p h2]
      exact ⟨⟨some p, none, f⟩, List.find?_cons_of_pos (by simp), rfl⟩
    · intro ho k hk hkp
      unfold KfOrdered at ho
      rw [h1, List.filterMap_append] at ho
      rw [h1] at hk
      rcases List.mem_append.mp hk with hk | hk
      · have := h2 k hk
        simp [Keyframe.notBefore, hkp] at this
      · have hb := (List.pairwise_append.mp ho).2.1
        cases post with
        | nil => simp at hk
        | cons x xs =>
          obtain ⟨q, hq, hlt⟩ := e1 x rfl
          rw [List.filterMap_cons, hq] at hb
          rcases List.mem_cons.mp hk with rfl | hk
          · rw [hkp] at hq; injection hq with hq; omega
          · have := (List.pairwise_cons.mp hb).1 p (List.mem_filterMap.mpr ⟨k, hk, hkp⟩)
            omega

/-- Amplitude, then frequency at the same place, then a later amplitude: one keyframe holds both. -/
example : (((({} : Effect).addAmplitudeAt (some 1) 5).addFrequencyAt (some 80) 5).addAmplitudeAt
    (some 0) 9).keyframes = [⟨some 5, some 1, some 80⟩, ⟨some 9, some 0, none⟩] := by decide
/-- With `override = false` the position is duplicated, as asked. -/
example : ((({} : Effect).addAmplitudeAt (some 1) 5).addAmplitudeAt (some 0) 5 false).keyframes
    = [⟨some 5, some 1, none⟩, ⟨some 5, some 0, none⟩] := by decide

/-! ### C28: replace and remove by index -/

/-- **C28 (replace).** -/
theorem c28_replaceAt {α : Type} (l : List α) (i : Int) (x : α) :
    ((replaceAt l i x).1 = true ↔ 0 ≤ i ∧ i < l.length) ∧
    ((replaceAt l i x).1 = false → (replaceAt l i x).2 = l) ∧
    ((replaceAt l i x).1 = true → (replaceAt l i x).2.length = l.length ∧
      (replaceAt l i x).2[i.toNat]? = some x ∧
      ∀ j : Nat, j ≠ i.toNat → (replaceAt l i x).2[j]? = l[j]?) := by
  unfold replaceAt
  split
  · rename_i h
    refine ⟨by simp; omega, fun _ => rfl, by simp⟩
  · rename_i h
    push Not at h
    refine ⟨by simp; omega, by simp, fun _ => ⟨by simp, ?_, ?_⟩⟩
    · rw [List.getElem?_set_self (by omega)]
    · intro j hj
      rw [List.getElem?_set_ne (Ne.symm hj)]

/-- **C28 (remove).** -/
theorem c28_removeAt {α : Type} (l : List α) (i : Int) :
    ((removeAt l i).1 = true ↔ 0 ≤ i ∧ i < l.length) ∧
    ((removeAt l i).1 = false → (removeAt l i).2 = l) ∧
    ((removeAt l i).1 = true → ∃ pre x post, l = pre ++ x :: post ∧ pre.length = i.toNat ∧
      (removeAt l i).2 = pre ++ post) := by
  unfold removeAt
  split
  · rename_i h
    refine ⟨by simp; omega, fun _ => rfl, by simp⟩
  · rename_i h
    push Not at h
    refine ⟨by simp; omega, by simp, fun _ => ?_⟩
    have hlt : i.toNat < l.length := by omega
    refine ⟨l.take i.toNat, l[i.toNat], l.drop (i.toNat + 1), ?_, by simp; omega, ?_⟩
    · rw [List.getElem_cons_drop, List.take_append_drop]
    · exact List.eraseIdx_eq_take_drop_succ ..

/-- **C28.** All ten operations of the data model are these two on their container and leave the rest of
the object alone. -/
theorem c28_operations (e : Effect) (b : Band) (c : Channel) (p : Perception) (h : Experience) (i : Int)
    (k' : Keyframe) (e' : Effect) (b' : Band) (c' : Channel) (p' : Perception) :
    e.replaceKeyframeAt i k' = ((replaceAt e.keyframes i k').1,
      { e with keyframes := (replaceAt e.keyframes i k').2 }) ∧
    e.removeKeyframeAt i = ((removeAt e.keyframes i).1, { e with keyframes := (removeAt e.keyframes i).2 }) ∧
    b.replaceEffectAt i e' = ((replaceAt b.effects i e').1,
      { b with effects := (replaceAt b.effects i e').2 }) ∧
    b.removeEffectAt i = ((removeAt b.effects i).1, { b with effects := (removeAt b.effects i).2 }) ∧
    c.replaceBandAt i b' = ((replaceAt c.bands i b').1, { c with bands := (replaceAt c.bands i b').2 }) ∧
    c.removeBandAt i = ((removeAt c.bands i).1, { c with bands := (removeAt c.bands i).2 }) ∧
    p.replaceChannelAt i c' = ((replaceAt p.channels i c').1,
      { p with channels := (replaceAt p.channels i c').2 }) ∧
    p.removeChannelAt i = ((removeAt p.channels i).1, { p with channels := (removeAt p.channels i).2 }) ∧
    h.replacePerceptionAt i p' = ((replaceAt h.perceptions i p').1,
      { h with perceptions := (replaceAt h.perceptions i p').2 }) ∧
    h.removePerceptionAt i = ((removeAt h.perceptions i).1,
      { h with perceptions := (removeAt h.perceptions i).2 }) :=
  ⟨rfl, rfl, rfl, rfl, rfl, rfl, rfl, rfl, rfl, rfl⟩

example : replaceAt [10, 20, 30] 1 99 = (true, [10, 99, 30]) ∧ replaceAt [10, 20, 30] 3 99 = (false, [10, 20, 30])
    ∧ replaceAt [10, 20, 30] (-1) 99 = (false, [10, 20, 30]) ∧ removeAt [10, 20, 30] 0 = (true, [20, 30])
    ∧ removeAt [10, 20, 30] 3 = (false, [10, 20, 30]) := by decide

/-! ### C29: replacing perception metadata -/

/-- **C29, partial.** An invalid index changes nothing; a valid one changes only that perception, keeps
its channels and priority, and copies identifier, description, modality, reference devices and library,
and the exponents and scheme with their defaults filled in.  Missing from the full property: the avatar
identifier, see `c29_negation`. -/
theorem c29_replaceMetadata_partial (h : Experience) (i : Int) (p : Perception) :
    ((h.replacePerceptionMetadataAt i p).1 = true ↔ 0 ≤ i ∧ i < h.perceptions.length) ∧
    ((h.replacePerceptionMetadataAt i p).1 = false → (h.replacePerceptionMetadataAt i p).2 = h) ∧
    ((h.replacePerceptionMetadataAt i p).1 = true →
      (h.replacePerceptionMetadataAt i p).2.perceptions.length = h.perceptions.length ∧
      (∀ j : Nat, j ≠ i.toNat →
        (h.replacePerceptionMetadataAt i p).2.perceptions[j]? = h.perceptions[j]?) ∧
      ∃ old new, h.perceptions[i.toNat]? = some old ∧
        (h.replacePerceptionMetadataAt i p).2.perceptions[i.toNat]? = some new ∧
        new.channels = old.channels ∧ new.priority = old.priority ∧
        new.id = p.id ∧ new.description = p.description ∧
        new.perceptionModality = p.perceptionModality ∧
        new.referenceDevices = p.referenceDevices ∧ new.effectLibrary = p.effectLibrary ∧
        new.unitExponentOrDefault = p.unitExponentOrDefault ∧
        new.perceptionUnitExponentOrDefault = p.perceptionUnitExponentOrDefault ∧
        new.effectSemanticScheme.getD DEFAULT_SEMANTIC_SCHEME
          = p.effectSemanticScheme.getD DEFAULT_SEMANTIC_SCHEME) := by
  unfold Experience.replacePerceptionMetadataAt
  by_cases hi : 0 ≤ i ∧ i < h.perceptions.length
  · have hlt : i.toNat < h.perceptions.length := by omega
    rw [if_neg (by omega), List.getElem?_eq_getElem hlt]
    refine ⟨by simp; omega, by simp, fun _ => ⟨by simp, ?_, ?_⟩⟩
    · intro j hj
      simp only
      rw [List.getElem?_set_ne (Ne.symm hj)]
    · refine ⟨h.perceptions[i.toNat], (h.perceptions[i.toNat]).replaceMetadata p, rfl, ?_, rfl, rfl, rfl,
        rfl, rfl, rfl, rfl, rfl, rfl, rfl⟩
      simp only
      rw [List.getElem?_set_self hlt]
  · have : (if i < 0 then none else h.perceptions[i.toNat]?) = none := by
      by_cases h0 : i < 0
      · rw [if_pos h0]
      · rw [if_neg h0]
        exact List.getElem?_eq_none (by omega)
    rw [this]
    refine ⟨by simp; omega, fun _ => rfl, by simp⟩

/-- **C29, negation.** The avatar identifier is not copied: it becomes the perception identifier
(Haptics.cpp:78), whenever these differ. -/
theorem c29_negation :
    ∃ (h : Experience) (p : Perception), (h.replacePerceptionMetadataAt 0 p).1 = true ∧
      (h.replacePerceptionMetadataAt 0 p).2.perceptions.map (·.avatarId) ≠ [p.avatarId] :=
  ⟨{ perceptions := [{}] }, { id := 3, avatarId := 7 }, by decide, by decide⟩

/-- Exactly when the avatar identifier comes out wrong. -/
theorem c29_avatar (old p : Perception) :
    (old.replaceMetadata p).avatarId = p.avatarId ↔ p.id = p.avatarId := Iff.rfl

/-! ### C61: replacing channel and band metadata -/

/-- **C61, partial (channels).** An invalid index changes nothing; a valid one changes only that channel,
keeps its bands and copies every metadata field of the new channel.  Missing from the full property: the
priority, and a reference device identifier that the new channel does not have, see
`c61_channel_negation`. -/
theorem c61_channel_partial (p : Perception) (i : Int) (c : Channel) :
    ((p.replaceChannelMetadataAt i c).1 = true ↔ 0 ≤ i ∧ i < p.channels.length) ∧
    ((p.replaceChannelMetadataAt i c).1 = false → (p.replaceChannelMetadataAt i c).2 = p) ∧
    ((p.replaceChannelMetadataAt i c).1 = true →
      (p.replaceChannelMetadataAt i c).2
        = { p with channels := (p.replaceChannelMetadataAt i c).2.channels } ∧
      (p.replaceChannelMetadataAt i c).2.channels.length = p.channels.length ∧
      (∀ j : Nat, j ≠ i.toNat → (p.replaceChannelMetadataAt i c).2.channels[j]? = p.channels[j]?) ∧
      ∃ old, p.channels[i.toNat]? = some old ∧
        (c.referenceDeviceId.isSome ∨ old.referenceDeviceId = none →
          (p.replaceChannelMetadataAt i c).2.channels[i.toNat]?
            = some { c with bands := old.bands, priority := old.priority })) := by
  unfold Perception.replaceChannelMetadataAt
  by_cases hi : 0 ≤ i ∧ i < p.channels.length
  · have hlt : i.toNat < p.channels.length := by omega
    rw [if_neg (by omega), List.getElem?_eq_getElem hlt]
    refine ⟨by simp; omega, by simp, fun _ => ⟨rfl, by simp, ?_, ?_⟩⟩
    · intro j hj
      simp only
      rw [List.getElem?_set_ne (Ne.symm hj)]
    · refine ⟨p.channels[i.toNat], rfl, fun hr => ?_⟩
      simp only
      rw [List.getElem?_set_self hlt]
      unfold Channel.replaceMetadata
      have : c.referenceDeviceId.orElse (fun _ => p.channels[i.toNat].referenceDeviceId)
          = c.referenceDeviceId := by
        cases hc : c.referenceDeviceId with
        | some x => rfl
        | none =>
          rw [hc] at hr
          simpa using hr
      rw [this]
  · have : (if i < 0 then none else p.channels[i.toNat]?) = none := by
      by_cases h0 : i < 0
      · rw [if_pos h0]
      · rw [if_neg h0]
        exact List.getElem?_eq_none (by omega)
    rw [this]
    refine ⟨by simp; omega, fun _ => rfl, by simp⟩

/-- **C61, negation (channels).** The priority is not copied, and a channel cannot lose its reference
device. -/
theorem c61_channel_negation :
    ∃ (p : Perception) (c : Channel), (p.replaceChannelMetadataAt 0 c).1 = true ∧
      (p.replaceChannelMetadataAt 0 c).2.channels.map (·.priority) ≠ [c.priority] ∧
      (p.replaceChannelMetadataAt 0 c).2.channels.map (·.referenceDeviceId) ≠ [c.referenceDeviceId] :=
  ⟨{ channels := [{ priority := some 1, referenceDeviceId := some 4 }] }, { priority := some 2 },
    by decide, by decide, by decide⟩

/-- **C61, partial (bands).** An invalid index changes nothing; a valid one changes only that band, keeps
its effects and copies type and frequency limits, and the curve type of a curve band and the block length
of a wavelet band, defaults filled in.  Missing: a band that stops being a curve or wavelet band keeps
its old curve type or block length, see `c61_band_negation`. -/
theorem c61_band_partial (c : Channel) (i : Int) (b : Band) :
    ((c.replaceBandMetadataAt i b).1 = true ↔ 0 ≤ i ∧ i < c.bands.length) ∧
    ((c.replaceBandMetadataAt i b).1 = false → (c.replaceBandMetadataAt i b).2 = c) ∧
    ((c.replaceBandMetadataAt i b).1 = true →
      (c.replaceBandMetadataAt i b).2 = { c with bands := (c.replaceBandMetadataAt i b).2.bands } ∧
      (c.replaceBandMetadataAt i b).2.bands.length = c.bands.length ∧
      (∀ j : Nat, j ≠ i.toNat → (c.replaceBandMetadataAt i b).2.bands[j]? = c.bands[j]?) ∧
      ∃ old new, c.bands[i.toNat]? = some old ∧ (c.replaceBandMetadataAt i b).2.bands[i.toNat]? = some new ∧
        new.effects = old.effects ∧ new.bandType = b.bandType ∧
        new.lowerFrequencyLimit = b.lowerFrequencyLimit ∧
        new.upperFrequencyLimit = b.upperFrequencyLimit ∧
        (b.bandType = BandType.Curve → new.curveTypeOrDefault = b.curveTypeOrDefault) ∧
        (b.bandType = BandType.WaveletWave → new.blockLengthOrDefault = b.blockLengthOrDefault)) := by
  unfold Channel.replaceBandMetadataAt
  by_cases hi : 0 ≤ i ∧ i < c.bands.length
  · have hlt : i.toNat < c.bands.length := by omega
    rw [if_neg (by omega), List.getElem?_eq_getElem hlt]
    refine ⟨by simp; omega, by simp, fun _ => ⟨rfl, by simp, ?_, ?_⟩⟩
    · intro j hj
      simp only
      rw [List.getElem?_set_ne (Ne.symm hj)]
    · refine ⟨c.bands[i.toNat], (c.bands[i.toNat]).replaceMetadata b, rfl, ?_, rfl, rfl, rfl, rfl, ?_, ?_⟩
      · simp only
        rw [List.getElem?_set_self hlt]
      · intro h
        unfold Band.replaceMetadata
        simp only [h, if_true]
        rfl
      · intro h
        unfold Band.replaceMetadata
        simp only [h, if_true]
        rfl
  · have : (if i < 0 then none else c.bands[i.toNat]?) = none := by
      by_cases h0 : i < 0
      · rw [if_pos h0]
      · rw [if_neg h0]
        exact List.getElem?_eq_none (by omega)
    rw [this]
    refine ⟨by simp; omega, fun _ => rfl, by simp⟩

/-- **C61, negation (bands).** -/
theorem c61_band_negation :
    ∃ (c : Channel) (b : Band), (c.replaceBandMetadataAt 0 b).1 = true ∧
      (c.replaceBandMetadataAt 0 b).2.bands.map (·.curveType) ≠ [b.curveType] :=
  ⟨{ bands := [{ bandType := BandType.Curve, curveType := some 2 }] }, { bandType := BandType.Transient },
    by decide, by decide⟩

/-! ### C30: finding a free band -/

theorem isFree_iff (b : Band) (s t : Int) (l : List Effect) (r : Bool) (h : b.isFree s t l = .ok r) :
    r = true ↔ ∀ e ∈ l, b.isOverlapping e s t = .ok false := by
  induction l with
  | nil => simp [Band.isFree] at h; simp [← h]
  | cons e l ih =>
    simp only [Band.isFree] at h
    rcases hb : b.isOverlapping e s t with x | ov
    · rw [hb] at h; cases h
    · rw [hb] at h
      cases ov
      · simp only at h
        rw [ih h]
        simp [hb]
      · simp only [Except.ok.injEq] at h
        simp [← h, hb]

/-- Intersection of intervals is one of the four cases of `isOverlapping`. -/
theorem overlap_of_meet (pos len start stop : ℚ) (h : Meet pos (pos + len) start stop) :
    (pos ≤ start ∧ pos + len ≥ start) ∨ (pos ≤ stop ∧ pos + len ≥ stop)
      ∨ (pos ≥ start ∧ pos + len ≤ stop) ∨ (pos ≤ start ∧ pos + len ≥ stop) := by
  obtain ⟨t, ⟨a, b⟩, c, d⟩ := h
  by_cases hs : pos ≤ start
  · exact Or.inl ⟨hs, by linarith⟩
  · push Not at hs
    by_cases he : pos + len ≤ stop
    · exact Or.inr (Or.inr (Or.inl ⟨hs.le, he⟩))
    · push Not at he
      exact Or.inr (Or.inl ⟨by linarith, he.le⟩)

/-- Each of the four cases is an intersection, if the intervals are not empty. -/
theorem meet_of_overlap (pos len start stop : ℚ) (h1 : 0 ≤ len) (h2 : start ≤ stop)
    (h : (pos ≤ start ∧ pos + len ≥ start) ∨ (pos ≤ stop ∧ pos + len ≥ stop)
      ∨ (pos ≥ start ∧ pos + len ≤ stop) ∨ (pos ≤ start ∧ pos + len ≥ stop)) :
    Meet pos (pos + len) start stop := by
  rcases h with ⟨a, b⟩ | ⟨a, b⟩ | ⟨a, b⟩ | ⟨a, b⟩
  · exact ⟨start, ⟨a, b⟩, le_refl _, h2⟩
  · exact ⟨stop, ⟨a, b⟩, h2, le_refl _⟩
  · exact ⟨pos, ⟨le_refl _, by linarith⟩, a, by linarith⟩
  · exact ⟨start, ⟨a, by linarith⟩, le_refl _, h2⟩

theorem isOverlapping_false (b : Band) (e : Effect) (s t : Int) (h : b.isOverlapping e s t = .ok false)
    (len : ℚ) (hlen : e.timeLength b.bandType TRANSIENT_DURATION_MS = .ok len) :
    ¬ Meet e.position (e.position + len) s t := by
  unfold Band.isOverlapping at h
  rw [hlen] at h
  simp only [Except.ok.injEq] at h
  intro hm
  have := overlap_of_meet _ _ _ _ hm
  simp only [Bool.or_eq_false_iff, Bool.and_eq_false_iff, decide_eq_false_iff_not] at h
  tauto

theorem isOverlapping_true (b : Band) (e : Effect) (s t : Int) (h : b.isOverlapping e s t = .ok true)
    (hst : s ≤ t) : ∃ len, e.timeLength b.bandType TRANSIENT_DURATION_MS = .ok len ∧
      (0 ≤ len → Meet e.position (e.position + len) s t) := by
  unfold Band.isOverlapping at h
  rcases hl : e.timeLength b.bandType TRANSIENT_DURATION_MS with x | len
  · rw [hl] at h; cases h
  · rw [hl] at h
    refine ⟨len, rfl, fun h0 => meet_of_overlap _ _ _ _ h0 (by exact_mod_cast hst) ?_⟩
    simpa only [Except.ok.injEq, Bool.or_eq_true, Bool.and_eq_true, decide_eq_true_eq, or_assoc] using h

theorem isFree_false (b : Band) (s t : Int) (l : List Effect) (h : b.isFree s t l = .ok false) :
    ∃ e ∈ l, b.isOverlapping e s t = .ok true := by
  induction l with
  | nil => simp [Band.isFree] at h
  | cons e l ih =>
    simp only [Band.isFree] at h
    rcases hb : b.isOverlapping e s t with x | ov
    · rw [hb] at h; cases h
    · cases ov
      · rw [hb] at h
        obtain ⟨e', he', ho⟩ := ih h
        exact ⟨e', List.mem_cons_of_mem _ he', ho⟩
      · exact ⟨e, List.mem_cons_self, hb⟩

theorem findBandAvailable_some (pos dur : Int) (t i : Nat) (l : List Band) (j : Nat)
    (h : findBandAvailable pos dur t i l = .ok (some j)) :
    ∃ k b, j = i + k ∧ l[k]? = some b ∧ b.bandType = t ∧
        b.isFree pos (pos + dur) b.effects = .ok true := by
  induction l generalizing i with
  | nil => simp [findBandAvailable] at h
  | cons b l ih =>
    simp only [findBandAvailable] at h
    have next : findBandAvailable pos dur t (i + 1) l = .ok (some j) →
        ∃ k b', j = i + k ∧ (b :: l)[k]? = some b' ∧ b'.bandType = t ∧
          b'.isFree pos (pos + dur) b'.effects = .ok true := by
      intro h
      obtain ⟨k, b', h1, h2⟩ := ih (i + 1) h
      exact ⟨k + 1, b', by omega, by simpa using h2⟩
    split at h
    · exact next h
    · rename_i ht
      rcases hf : b.isFree pos (pos + dur) b.effects with x | f
      · rw [hf] at h; cases h
      · rw [hf] at h
        cases f
        · exact next h
        · simp only [Except.ok.injEq, Option.some.injEq] at h
          exact ⟨0, b, by omega, rfl, not_not.mp ht, hf⟩

theorem findBandAvailable_none (pos dur : Int) (t i : Nat) (l : List Band)
    (h : findBandAvailable pos dur t i l = .ok none) :
    ∀ b ∈ l, b.bandType = t → b.isFree pos (pos + dur) b.effects = .ok false := by
  induction l generalizing i with
  | nil => simp
  | cons b l ih =>
    simp only [findBandAvailable] at h
    intro b' hb' ht'
    split at h
    · rename_i ht
      rcases List.mem_cons.mp hb' with rfl | hb'
      · exact absurd ht' ht
      · exact ih _ h b' hb' ht'
    · rcases hf : b.isFree pos (pos + dur) b.effects with x | f
      · rw [hf] at h; cases h
      · rw [hf] at h
        cases f
        · rcases List.mem_cons.mp hb' with rfl | hb'
          · exact hf
          · exact ih _ h b' hb' ht'
        · cases h

/-- **C30.** A band that is returned has the requested type and none of its effects shares an instant
with the requested interval.  A transient lasts 22. -/
theorem c30_found (c : Channel) (pos dur : Int) (t j : Nat)
    (h : c.findBandAvailable pos dur t = .ok (some j)) :
    ∃ b, c.bands[j]? = some b ∧ b.bandType = t ∧ ∀ e ∈ b.effects, ∃ len,
      e.timeLength t 22 = .ok len ∧
      ¬ Meet e.position (e.position + len) pos (pos + dur : Int) := by
  obtain ⟨k, b, h1, h2, h3, h4⟩ := findBandAvailable_some pos dur t 0 c.bands j h
  refine ⟨b, by rw [h1, Nat.zero_add]; exact h2, h3, fun e he => ?_⟩
  have := (isFree_iff b _ _ _ _ h4).mp rfl e he
  rcases hl : e.timeLength b.bandType TRANSIENT_DURATION_MS with x | len
  · simp [Band.isOverlapping, hl] at this
  · exact ⟨len, h3 ▸ hl, isOverlapping_false b e _ _ this len hl⟩

/-- **C30.** If none is returned, every band of that type has an effect that shares an instant with the
(not empty) interval; effects of negative length are not considered. -/
theorem c30_none (c : Channel) (pos dur : Int) (t : Nat) (hdur : 0 ≤ dur)
    (hlen : ∀ b ∈ c.bands, b.bandType = t → ∀ e ∈ b.effects, ∀ len,
      e.timeLength t 22 = .ok len → 0 ≤ len)
    (h : c.findBandAvailable pos dur t = .ok none) :
    ∀ b ∈ c.bands, b.bandType = t → ∃ e ∈ b.effects, ∃ len,
      e.timeLength t 22 = .ok len ∧
      Meet e.position (e.position + len) pos (pos + dur : Int) := by
  intro b hb ht
  obtain ⟨e, he, ho⟩ := isFree_false b _ _ _ (findBandAvailable_none pos dur t 0 c.bands h b hb ht)
  obtain ⟨len, hl, hm⟩ := isOverlapping_true b e _ _ ho (by omega)
  rw [ht] at hl
  exact ⟨e, he, len, hl, hm (hlen b hb ht e he len hl)⟩

theorem isFree_ok (b : Band) (s t : Int) (l : List Effect)
    (h : ∀ e ∈ l, e.keyframes = [] ∨ ∃ k ∈ e.keyframes, k.relativePosition ≠ none) :
    ∃ r, b.isFree s t l = .ok r := by
  induction l with
  | nil => exact ⟨true, rfl⟩
  | cons e l ih =>
    obtain ⟨r, hr⟩ := ih (fun e he => h e (List.mem_cons_of_mem _ he))
    have : ∃ ov, b.isOverlapping e s t = .ok ov := by
      unfold Band.isOverlapping Effect.timeLength
      rcases h e List.mem_cons_self with h0 | ⟨k, hk, hp⟩
      · rw [h0]; exact ⟨_, rfl⟩
      · rcases hlast : (e.keyframes.filterMap Keyframe.relativePosition).getLast? with _ | p
        · rw [List.getLast?_eq_none_iff] at hlast
          obtain ⟨q, hq⟩ := Option.ne_none_iff_exists'.mp hp
          have := List.mem_filterMap.mpr ⟨k, hk, hq⟩
          rw [hlast] at this
          cases this
        · by_cases hi : e.keyframes.isEmpty
          · rw [if_pos hi]; exact ⟨_, rfl⟩
          · rw [if_neg hi]
            split
            · rename_i x hx; exact (by split at hx <;> cases hx)
            · exact ⟨_, rfl⟩
    obtain ⟨ov, hov⟩ := this
    simp only [Band.isFree, hov]
    cases ov
    · exact ⟨r, hr⟩
    · exact ⟨false, rfl⟩

/-- **C30.** The search is safe as long as every effect, of the bands of that type, that has keyframes has one with
a position. -/
theorem c30_safe (c : Channel) (pos dur : Int) (t : Nat)
    (h : ∀ b ∈ c.bands, b.bandType = t → ∀ e ∈ b.effects, e.keyframes = [] ∨ ∃ k ∈ e.keyframes, k.relativePosition ≠ none) :
    ∃ r, c.findBandAvailable pos dur t = .ok r := by
  unfold Channel.findBandAvailable
  generalize 0 = i
  generalize c.bands = l at h
  induction l generalizing i with
  | nil => exact ⟨none, rfl⟩
  | cons b l ih =>
    have next := ih (i + 1) (fun b hb => h b (List.mem_cons_of_mem _ hb))
    simp only [findBandAvailable]
    split
    · exact next
    · rename_i ht
      obtain ⟨r, hr⟩ := isFree_ok b pos (pos + dur) b.effects (h b List.mem_cons_self (not_not.mp ht))
      rw [hr]
      cases r
      · exact next
      · exact ⟨some i, rfl⟩

/-- **C30, negation of safety.** With a keyframe that has no position, `rend()` is dereferenced. -/
theorem c30_unsafe : ∃ c : Channel, c.findBandAvailable 0 10 BandType.Transient = .error .ub :=
  ⟨{ bands := [{ bandType := BandType.Transient, effects := [{ keyframes := [⟨none, some 1, none⟩] }] }] },
    rfl⟩

/-- A transient at 100 lasts 22: an effect at 122 needs the second band, one at 123 does not. -/
example :
    let e : Effect := { position := 100, keyframes := [⟨some 0, some 1, none⟩] }
    let c : Channel := { bands := [{ bandType := 0, effects := [e] }, { bandType := 1 }, { bandType := 0 }] }
    c.findBandAvailable 122 5 0 = .ok (some 2) ∧ c.findBandAvailable 123 5 0 = .ok (some 0) := by
  decide +kernel

end Haptics
