import Verif.Stream.SpecPacketize
import Verif.Stream.Data

/-
C19, receiving side: the receiver puts the parts of effects together again.
-/
namespace Haptics

theorem windowOf_append (lo hi : Int) (a b : List Effect) :
    windowOf lo hi (a ++ b) = windowOf lo hi a ++ windowOf lo hi b := by
  simp [windowOf]

theorem windowOf_nil (lo hi : Int) : windowOf lo hi [] = [] := rfl

theorem windowOf_cons (lo hi : Int) (e : Effect) (l : List Effect) :
    windowOf lo hi (e :: l)
      = (if e.occursIn lo hi then [e.slice lo hi] else []) ++ windowOf lo hi l := by
  unfold windowOf
  rw [List.filter_cons]
  split <;> simp

theorem windowOf_eq_nil {lo hi : Int} {l : List Effect}
    (h : ∀ e ∈ l, ∀ t ∈ e.eventTimes, ¬ (lo ≤ t ∧ t < hi)) : windowOf lo hi l = [] := by
  unfold windowOf
  rw [List.map_eq_nil_iff, List.filter_eq_nil_iff]
  intro e he
  simp only [Effect.occursIn, List.any_eq_true, decide_eq_true_eq, not_exists, not_and]
  intro t ht h1 h2
  exact h e he t ht ⟨h1, h2⟩

theorem occursIn_true {lo hi : Int} {e : Effect} :
    e.occursIn lo hi = true ↔ ∃ t ∈ e.eventTimes, lo ≤ t ∧ t < hi := by
  simp [Effect.occursIn]

theorem occursIn_false {lo hi : Int} {e : Effect} :
    e.occursIn lo hi = false ↔ ∀ t ∈ e.eventTimes, ¬ (lo ≤ t ∧ t < hi) := by
  simp only [Effect.occursIn, List.any_eq_false, decide_eq_true_eq]

@[simp] theorem slice_id (lo hi : Int) (e : Effect) : (e.slice lo hi).id = e.id := by
  unfold Effect.slice; split <;> rfl
@[simp] theorem slice_position (lo hi : Int) (e : Effect) : (e.slice lo hi).position = e.position := by
  unfold Effect.slice; split <;> rfl
@[simp] theorem slice_type (lo hi : Int) (e : Effect) : (e.slice lo hi).effectType = e.effectType := by
  unfold Effect.slice; split <;> rfl

theorem slice_congr {lo hi lo' hi' : Int} {e : Effect}
    (h : ∀ t ∈ e.eventTimes, (lo ≤ t ∧ t < hi) ↔ (lo' ≤ t ∧ t < hi')) :
    e.slice lo hi = e.slice lo' hi' := by
  unfold Effect.slice
  by_cases hb : e.effectType = EffectType.Basis
  · rw [if_pos hb, if_pos hb]
    congr 1
    apply List.filter_congr
    intro k hk
    rw [decide_eq_decide]
    exact h _ (by rw [Effect.eventTimes, if_pos hb]; exact List.mem_map_of_mem hk)
  · rw [if_neg hb, if_neg hb]

theorem occursIn_congr {lo hi lo' hi' : Int} {e : Effect}
    (h : ∀ t ∈ e.eventTimes, (lo ≤ t ∧ t < hi) ↔ (lo' ≤ t ∧ t < hi')) :
    e.occursIn lo hi = e.occursIn lo' hi' := by
  rw [Bool.eq_iff_iff, occursIn_true, occursIn_true]
  exact ⟨fun ⟨t, a, b⟩ => ⟨t, a, (h t a).mp b⟩, fun ⟨t, a, b⟩ => ⟨t, a, (h t a).mpr b⟩⟩

theorem insertEffect_append (n : Effect) (l : List Effect) (h : ∀ e ∈ l, e.position ≤ n.position) :
    insertEffect n l = l ++ [n] := by
  induction l with
  | nil => rfl
  | cons e l ih =>
    have h1 := h e (by simp)
    rw [insertEffect, if_neg (by omega), ih (fun x hx => h x (by simp [hx]))]
    rfl

theorem modify_last {α : Type} (l : List α) (x : α) (f : α → α) :
    (l ++ [x]).modify l.length f = l ++ [f x] := by
  induction l with
  | nil => rfl
  | cons a l ih => simp only [List.cons_append, List.length_cons, List.modify_succ_cons, ih]

/-- A sorted list splits at any threshold. -/
theorem filter_split {α : Type} (f : α → Int) (lo mid hi : Int) (h1 : lo ≤ mid) (h2 : mid ≤ hi) (l : List α)
    (h : (l.map f).Pairwise (· ≤ ·)) :
    l.filter (fun k => decide (lo ≤ f k ∧ f k < mid)) ++ l.filter (fun k => decide (mid ≤ f k ∧ f k < hi))
      = l.filter (fun k => decide (lo ≤ f k ∧ f k < hi)) := by
  induction l with
  | nil => rfl
  | cons k l ih =>
    simp only [List.map_cons, List.pairwise_cons, List.mem_map, forall_exists_index, and_imp,
      forall_apply_eq_imp_iff₂] at h
    have ih := ih h.2
    simp only [List.filter_cons]
    by_cases a : f k < mid
    · by_cases b : lo ≤ f k
      · have c : f k < hi := by omega
        have d : ¬ mid ≤ f k := by omega
        simp only [a, b, c, d, and_self, decide_true, if_true, false_and, decide_false,
          Bool.false_eq_true, if_false, List.cons_append, ih]
      · have d : ¬ mid ≤ f k := by omega
        simp only [b, d, false_and, decide_false, Bool.false_eq_true, if_false, ih]
    · have e : l.filter (fun k => decide (lo ≤ f k ∧ f k < mid)) = [] := by
        rw [List.filter_eq_nil_iff]
        intro x hx
        have := h.1 x hx
        simp only [decide_eq_true_eq]
        omega
      have b : lo ≤ f k := by omega
      have d : mid ≤ f k := by omega
      rw [e] at ih ⊢
      simp only [a, b, d, and_false, true_and, decide_false, Bool.false_eq_true, if_false,
        List.nil_append] at ih ⊢
      rw [ih]

/-- The parts of an effect before and after a moment make up the whole. -/
theorem slice_join {lo mid hi : Int} (h1 : lo ≤ mid) (h2 : mid ≤ hi) (e : Effect)
    (hb : e.effectType = EffectType.Basis) (hs : e.eventTimes.Pairwise (· ≤ ·)) :
    { e.slice lo mid with keyframes := (e.slice lo mid).keyframes ++ (e.slice mid hi).keyframes }
      = e.slice lo hi := by
  rw [Effect.eventTimes, if_pos hb] at hs
  have := filter_split e.timeOf lo mid hi h1 h2 e.keyframes hs
  simp only [Effect.slice, if_pos hb, this]

theorem mem_windowOf {lo hi : Int} {l : List Effect} {x : Effect} (h : x ∈ windowOf lo hi l) :
    ∃ e ∈ l, e.occursIn lo hi = true ∧ x = e.slice lo hi := by
  simp only [windowOf, List.mem_map, List.mem_filter] at h
  obtain ⟨e, ⟨h1, h2⟩, h3⟩ := h
  exact ⟨e, h1, h2, h3.symm⟩

/-- Receiving the window [T, T') after the window [lo, T): the general step, with `P` the effects
already dealt with. -/
theorem merge_step (lo T T' : Int) (h1 : lo ≤ T) (h2 : T ≤ T') (b : Band) (Q : List Effect) :
    ∀ P : List Effect, ((P ++ Q).flatMap Effect.eventTimes).Pairwise (· ≤ ·) → TimeOrdered (P ++ Q) →
      (∀ e ∈ P ++ Q, e.effectType = EffectType.Basis ∨ e.effectType = EffectType.Reference) →
      DistinctIds (P ++ Q) →
      (windowOf T T' Q).foldl mergeEffect { b with effects := windowOf lo T' P ++ windowOf lo T Q }
        = { b with effects := windowOf lo T' (P ++ Q) } := by
  induction Q with
  | nil => intro P _ _ _ _; simp [windowOf_nil]
  | cons e Q ih =>
    intro P ht ho hty hid
    have hassoc : P ++ e :: Q = (P ++ [e]) ++ Q := by simp
    have next := ih (P ++ [e]) (by rw [← hassoc]; exact ht) (by rw [← hassoc]; exact ho)
      (by rw [← hassoc]; exact hty) (by rw [← hassoc]; exact hid)
    rw [← hassoc] at next
    have hev : e.eventTimes.Pairwise (· ≤ ·) := by
      rw [List.flatMap_append, List.pairwise_append] at ht
      have := ht.2.1
      rw [List.flatMap_cons, List.pairwise_append] at this
      exact this.1
    by_cases hin : e.occursIn T T' = true
    · -- the effect has events in the new window: nothing of `Q` was received before
      obtain ⟨t, ht1, ht2, ht3⟩ := occursIn_true.mp hin
      have hQ : windowOf lo T Q = [] := by
        apply windowOf_eq_nil
        intro x hx s hs hc
        have : t ≤ s := by
          rw [List.flatMap_append, List.pairwise_append] at ht
          have := ht.2.1
          rw [List.flatMap_cons, List.pairwise_append] at this
          exact this.2.2 t ht1 s (List.mem_flatMap.mpr ⟨x, hx, hs⟩)
        omega
      have hpos : ∀ x ∈ windowOf lo T' P, x.position ≤ e.position := by
        intro x hx
        obtain ⟨y, hy, -, rfl⟩ := mem_windowOf hx
        rw [slice_position]
        rw [TimeOrdered, List.pairwise_append] at ho
        exact ho.2.2 y hy e (by simp)
      have hnid : e.effectType = EffectType.Basis → ∀ x ∈ windowOf lo T' P, x.id ≠ e.id := by
        intro hb x hx
        obtain ⟨y, hy, -, rfl⟩ := mem_windowOf hx
        rw [slice_id]
        rw [DistinctIds, List.pairwise_append] at hid
        exact hid.2.2 y hy e (by simp) hb
      have key : mergeEffect { b with effects := windowOf lo T' P ++ windowOf lo T (e :: Q) } (e.slice T T')
          = { b with effects := windowOf lo T' (P ++ [e]) ++ windowOf lo T Q } := by
        rw [windowOf_append, windowOf_cons lo T, windowOf_cons lo T', windowOf_nil, hQ, List.append_nil,
          List.append_nil, List.append_nil]
        have hin' : e.occursIn lo T' = true := occursIn_true.mpr ⟨t, ht1, by omega, ht3⟩
        rw [if_pos hin']
        by_cases hold : e.occursIn lo T = true
        · rw [if_pos hold]
          obtain ⟨s, hs1, hs2, hs3⟩ := occursIn_true.mp hold
          have hb : e.effectType = EffectType.Basis := by
            by_contra hb
            rw [Effect.eventTimes, if_neg hb, List.mem_singleton] at ht1 hs1
            omega
          have hfind : (windowOf lo T' P ++ [e.slice lo T]).findIdx? (fun x => x.id == (e.slice T T').id)
              = some (windowOf lo T' P).length := by
            rw [List.findIdx?_append, List.findIdx?_eq_none_iff.mpr]
            · simp
            · intro x hx
              simpa using hnid hb x hx
          unfold mergeEffect
          rw [if_pos (by rw [slice_type]; exact hb)]
          simp only [hfind]
          congr 1
          rw [modify_last, slice_join h1 h2 e hb hev]
        · rw [if_neg hold, List.append_nil]
          have hold' := occursIn_false.mp (Bool.not_eq_true _ ▸ hold)
          have hsl : e.slice T T' = e.slice lo T' := by
            apply slice_congr
            intro x hx
            have := hold' x hx
            omega
          have hadd : ({ b with effects := windowOf lo T' P } : Band).addEffect (e.slice T T')
              = { b with effects := windowOf lo T' P ++ [e.slice lo T'] } := by
            unfold Band.addEffect
            simp only
            rw [insertEffect_append _ _ (by simpa using hpos), hsl]
          unfold mergeEffect
          split
          · rename_i hb
            rw [slice_type] at hb
            rw [List.findIdx?_eq_none_iff.mpr]
            · exact hadd
            · intro x hx
              simpa using hnid hb x hx
          · exact hadd
      rw [windowOf_cons T T', if_pos hin, List.singleton_append, List.foldl_cons, key, next]
    · have hout := occursIn_false.mp (Bool.not_eq_true _ ▸ hin)
      rw [windowOf_cons T T', if_neg hin, List.nil_append, windowOf_cons lo T]
      have e1 : e.occursIn lo T = e.occursIn lo T' :=
        occursIn_congr (fun x hx => by have := hout x hx; omega)
      have e2 : e.slice lo T = e.slice lo T' :=
        slice_congr (fun x hx => by have := hout x hx; omega)
      rw [e1, e2]
      rw [windowOf_append, windowOf_cons lo T' e [], windowOf_nil, List.append_nil,
        List.append_assoc] at next
      exact next

/-- Nothing is lost by looking at a window that contains all events. -/
theorem windowOf_all {lo hi : Int} {l : List Effect}
    (hk : ∀ e ∈ l, e.effectType = EffectType.Basis → e.keyframes ≠ [])
    (h : ∀ e ∈ l, ∀ t ∈ e.eventTimes, lo ≤ t ∧ t < hi) : windowOf lo hi l = l := by
  induction l with
  | nil => rfl
  | cons e l ih =>
    have h1 := h e (by simp)
    have hk1 := hk e (by simp)
    rw [windowOf_cons, ih (fun x hx => hk x (by simp [hx])) (fun x hx => h x (by simp [hx]))]
    have hocc : e.occursIn lo hi = true := by
      rw [occursIn_true]
      by_cases hb : e.effectType = EffectType.Basis
      · obtain ⟨k, hk⟩ := List.exists_mem_of_ne_nil _ (hk1 hb)
        have hm : e.timeOf k ∈ e.eventTimes := by
          rw [Effect.eventTimes, if_pos hb]; exact List.mem_map_of_mem hk
        exact ⟨_, hm, h1 _ hm⟩
      · have hm : e.position ∈ e.eventTimes := by rw [Effect.eventTimes, if_neg hb]; simp
        exact ⟨_, hm, h1 _ hm⟩
    have hsl : e.slice lo hi = e := by
      unfold Effect.slice
      by_cases hb : e.effectType = EffectType.Basis
      · rw [if_pos hb]
        have : e.keyframes.filter (fun k => decide (lo ≤ e.timeOf k ∧ e.timeOf k < hi)) = e.keyframes := by
          rw [List.filter_eq_self]
          intro k hk
          rw [decide_eq_true_eq]
          exact h1 _ (by rw [Effect.eventTimes, if_pos hb]; exact List.mem_map_of_mem hk)
        rw [this]
        cases e
        rfl
      · rw [if_neg hb]
    rw [if_pos hocc, hsl]
    rfl

/-- All windows of a band from `lo` on, put together one after the other. -/
theorem merge_windows (d : Int) (hd : 0 ≤ d) (F : List Effect) (hs : Sequential F) (hid : DistinctIds F)
    (b : Band) (lo : Int) : ∀ (n : Nat) (time : Int), lo ≤ time →
      (windows d F n time).foldl (fun b w => w.2.foldl mergeEffect b)
        { b with effects := windowOf lo time F } = { b with effects := windowOf lo (time + n * d) F } := by
  intro n
  induction n with
  | zero => intro time _; simp [windows]
  | succ n ih =>
    intro time h
    have step := merge_step lo time (time + d) h (by omega) b F [] hs.times hs.ordered hs.types hid
    rw [List.nil_append, windowOf_nil, List.nil_append] at step
    rw [windows, List.foldl_cons, step, ih (time + d) (by omega)]
    congr 2
    push_cast
    ring

/-- Windows without content can be left out. -/
theorem foldl_packetsOf {β : Type} (g : β → Effect → β) (d : Int) (F : List Effect) (n : Nat) (time : Int)
    (b : β) : (packetsOf d F n time).foldl (fun b w => w.2.foldl g b) b
      = (windows d F n time).foldl (fun b w => w.2.foldl g b) b := by
  unfold packetsOf
  generalize windows d F n time = l
  induction l generalizing b with
  | nil => rfl
  | cons w l ih =>
    rw [List.filter_cons]
    split
    · rw [List.foldl_cons, List.foldl_cons, ih]
    · rename_i h
      have : w.2 = [] := by simpa using h
      rw [List.foldl_cons, this, ih]
      rfl

/-- **C19** (receiver) The packets of a band whose effects do not overlap, merged one after the other
into a band that had no effects, restore the effects of the band: all of them, each with all its
keyframes in order. -/
theorem c19_reassemble (d : Int) (hd : 0 ≤ d) (F : List Effect) (hs : Sequential F)
    (hid : DistinctIds F) (b : Band) (hb : b.effects = []) (n : Nat)
    (h : ∀ e ∈ F, ∀ t ∈ e.eventTimes, 0 ≤ t ∧ t < n * d) :
    (packetsOf d F n 0).foldl (fun b w => w.2.foldl mergeEffect b) b = { b with effects := F } := by
  rw [foldl_packetsOf]
  have e0 : windowOf 0 0 F = [] := windowOf_eq_nil (fun e he t ht => by omega)
  have := merge_windows d hd F hs hid b 0 n 0 (le_refl _)
  rw [e0, windowOf_all hs.keyframes (by simpa using h)] at this
  rw [← this]
  congr 1
  cases b
  simp_all

end Haptics
