import Verif.Stream.SpecStream
import Verif.Stream.PropsStream

/-! The identifiers that effects without identifiers get on streaming: 0, 1, 2, … -/

namespace Haptics

/-- The effects with the identifiers `n`, `n + 1`, … -/
def withIds : Nat → List Effect → List Effect
  | _, [] => []
  | n, e :: l => { e with id := (n : Int) } :: withIds (n + 1) l

def firstIds (n : Nat) : List Int := (List.range n).map Int.ofNat

theorem foldl_max_range (n : Nat) (a : Int) (ha : 0 ≤ a) :
    ((List.range n).map Int.ofNat).foldl max a = max a ((n : Int) - 1) := by
  induction n with
  | zero => simp; omega
  | succ n ih =>
    rw [List.range_succ, List.map_append, List.foldl_append, ih]
    simp only [List.map_cons, List.map_nil, List.foldl_cons, List.foldl_nil]
    have : Int.ofNat n = (n : Int) := rfl
    omega

theorem nextEffectId_first (n : Nat) : nextEffectId (firstIds n) = n := by
  unfold firstIds
  cases n with
  | zero => rfl
  | succ n =>
    rw [List.range_succ_eq_map, List.map_cons]
    show List.foldl max 0 _ + 1 = _
    have h1 := foldl_max_range (n + 1) 0 le_rfl
    rw [List.range_succ_eq_map, List.map_cons, List.foldl_cons] at h1
    rw [show max (0 : Int) (Int.ofNat 0) = 0 from rfl] at h1
    rw [h1]
    push_cast
    omega

theorem assignAll_fresh (es : List Effect) (h : ∀ e ∈ es, e.id = -1) (n : Nat) :
    assignAll (firstIds n) es = (withIds n es, firstIds (n + es.length)) := by
  induction es generalizing n with
  | nil => rfl
  | cons e es ih =>
    have he := h e List.mem_cons_self
    have ha : assignId (firstIds n) e = ({ e with id := (n : Int) }, firstIds (n + 1)) := by
      unfold assignId
      rw [if_pos he, nextEffectId_first]
      congr 1
      unfold firstIds
      rw [List.range_succ, List.map_append]
      rfl
    rw [assignAll]
    simp only [ha]
    rw [ih (fun x hx => h x (List.mem_cons_of_mem _ hx))]
    simp only [withIds, List.length_cons]
    congr 2
    omega

theorem renumber_fresh (es : List Effect) (n : Nat) :
    mapAccum renumber (firstIds n) es = (withIds n es, firstIds (n + es.length)) := by
  induction es generalizing n with
  | nil => rfl
  | cons e es ih =>
    have ha : renumber (firstIds n) e = ({ e with id := (n : Int) }, firstIds (n + 1)) := by
      unfold renumber
      rw [nextEffectId_first]
      congr 1
      unfold firstIds
      rw [List.range_succ, List.map_append]
      rfl
    rw [mapAccum, ha, ih]
    simp only [withIds, List.length_cons]
    congr 2
    omega

theorem identified_fresh (bt : Nat) (es : List Effect) (h : ∀ e ∈ es, e.id = -1) (n : Nat) :
    identified bt (firstIds n) es = (withIds n es, firstIds (n + es.length)) := by
  unfold identified
  split
  · exact renumber_fresh es n
  · exact assignAll_fresh es h n

theorem withIds_forall₂ (es : List Effect) (n : Nat) :
    List.Forall₂ (fun e x => ∃ i, n ≤ i ∧ i < n + es.length ∧ x = { e with id := (i : Int) }) es (withIds n es) := by
  induction es generalizing n with
  | nil => exact .nil
  | cons e es ih =>
    refine .cons ⟨n, le_refl _, by simp, rfl⟩ ((ih (n + 1)).imp ?_)
    rintro a b ⟨i, h1, h2, h3⟩
    exact ⟨i, by omega, by simp only [List.length_cons]; omega, h3⟩

theorem withIds_mem {es : List Effect} {n : Nat} {x : Effect} (hx : x ∈ withIds n es) :
    ∃ e ∈ es, ∃ i, n ≤ i ∧ i < n + es.length ∧ x = { e with id := (i : Int) } := by
  have := withIds_forall₂ es n
  obtain ⟨i, hi, rfl⟩ := List.mem_iff_getElem.mp hx
  rw [List.forall₂_iff_get] at this
  exact ⟨es[i]'(by have := this.1; omega), List.getElem_mem _, this.2 i (by have := this.1; omega) hi⟩

theorem withIds_length (es : List Effect) (n : Nat) : (withIds n es).length = es.length :=
  (withIds_forall₂ es n).length_eq.symm

theorem withIds_distinct (es : List Effect) (n : Nat) : DistinctIds (withIds n es) := by
  induction es generalizing n with
  | nil => exact .nil
  | cons e es ih =>
    refine List.pairwise_cons.mpr ⟨fun x hx _ => ?_, ih (n + 1)⟩
    obtain ⟨y, -, i, h1, -, rfl⟩ := withIds_mem hx
    show (n : Int) ≠ (i : Int)
    omega

/-- Bands whose effects have no identifiers: each gets the next ones. -/
theorem mapAccum_fresh (bs : List Band) (h : ∀ b ∈ bs, ∀ e ∈ b.effects, e.id = -1) (n : Nat) :
    List.Forall₂ (fun b b' => ∃ m, m + b.effects.length ≤ n + (bs.flatMap (·.effects)).length ∧
      b' = { b with effects := withIds m b.effects }) bs (mapAccum Band.assignIds (firstIds n) bs).1 := by
  induction bs generalizing n with
  | nil => exact .nil
  | cons b bs ih =>
    have hb := identified_fresh b.bandType b.effects (h b List.mem_cons_self) n
    have h2 : Band.assignIds (firstIds n) b =
        ({ b with effects := withIds n b.effects }, firstIds (n + b.effects.length)) := by
      unfold Band.assignIds
      rw [hb]
    rw [mapAccum, h2]
    refine .cons ⟨n, by simp, rfl⟩ ((ih (fun x hx => h x (List.mem_cons_of_mem _ hx)) _).imp ?_)
    rintro a b' ⟨m, h1, h2⟩
    exact ⟨m, by simp only [List.flatMap_cons, List.length_append]; omega, h2⟩

theorem mapAccum_fresh_state (bs : List Band) (h : ∀ b ∈ bs, ∀ e ∈ b.effects, e.id = -1) (n : Nat) :
    (mapAccum Band.assignIds (firstIds n) bs).2 = firstIds (n + (bs.flatMap (·.effects)).length) := by
  induction bs generalizing n with
  | nil => rfl
  | cons b bs ih =>
    have h2 : Band.assignIds (firstIds n) b =
        ({ b with effects := withIds n b.effects }, firstIds (n + b.effects.length)) := by
      unfold Band.assignIds
      rw [identified_fresh b.bandType b.effects (h b List.mem_cons_self) n]
    rw [mapAccum, h2]
    simp only
    rw [ih (fun x hx => h x (List.mem_cons_of_mem _ hx)), List.flatMap_cons, List.length_append]
    congr 1
    omega

/-- The same for channels. -/
theorem mapAccum_fresh_channels (cs : List Channel) (h : ∀ c ∈ cs, ∀ b ∈ c.bands, ∀ e ∈ b.effects, e.id = -1) (n : Nat) :
    List.Forall₂ (fun c c' => c' = { c with bands := c'.bands } ∧
      List.Forall₂ (fun b b' => ∃ m, m + b.effects.length ≤ n + ((cs.flatMap (·.bands)).flatMap (·.effects)).length ∧
        b' = { b with effects := withIds m b.effects }) c.bands c'.bands) cs
      (mapAccum Channel.assignIds (firstIds n) cs).1 := by
  induction cs generalizing n with
  | nil => exact .nil
  | cons c cs ih =>
    have hc := h c List.mem_cons_self
    rw [mapAccum]
    simp only [Channel.assignIds]
    rw [mapAccum_fresh_state c.bands hc n]
    refine .cons ⟨rfl, (mapAccum_fresh c.bands hc n).imp ?_⟩ ((ih (fun x hx => h x (List.mem_cons_of_mem _ hx)) _).imp ?_)
    · rintro a b' ⟨m, h1, h2⟩
      exact ⟨m, by simp only [List.flatMap_cons, List.flatMap_append, List.length_append]; omega, h2⟩
    · rintro a b' ⟨e1, e2⟩
      refine ⟨e1, e2.imp ?_⟩
      rintro a b' ⟨m, h1, h2⟩
      exact ⟨m, by simp only [List.flatMap_cons, List.flatMap_append, List.length_append]; omega, h2⟩

end Haptics
