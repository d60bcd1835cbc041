import Verif.Spiht.Model
import Mathlib.Tactic.Ring
import Mathlib.Tactic.Linarith

/-
The trees of coefficients, and what `initMaxDescendants` computes for them.
-/
namespace Haptics.Spiht

theorem larger_left (a b : Int) : a ≤ larger a b := by unfold larger; split <;> omega
theorem larger_right (a b : Int) : b ≤ larger a b := by unfold larger; split <;> omega

theorem getD_set_self {l : List Int} {i : Nat} (h : i < l.length) (v : Int) : (l.set i v).getD i 0 = v := by
  rw [List.getD_eq_getElem?_getD, List.getElem?_set_self h]; rfl

theorem getD_set_ne {l : List Int} {i j : Nat} (h : i ≠ j) (v : Int) : (l.set i v).getD j 0 = l.getD j 0 := by
  rw [List.getD_eq_getElem?_getD, List.getElem?_set_ne h, List.getD_eq_getElem?_getD]

theorem resize_length (l : List Int) (n : Nat) : (resize l n).length = n := by
  unfold resize
  rw [List.length_append, List.length_take, List.length_replicate]
  omega

theorem first_fold (x : List Int) (v : Nat) (md : List Int) (n : Nat) (hn : n ≤ v)
    (hl : 2 * v ≤ md.length) :
    ((List.range n).foldl (firstStep x (2 * v)) md).length = md.length ∧
    ∀ t, v ≤ t → t < v + n →
      magnitude x (2 * t) ≤ ((List.range n).foldl (firstStep x (2 * v)) md).getD t 0 ∧
      magnitude x (2 * t + 1) ≤ ((List.range n).foldl (firstStep x (2 * v)) md).getD t 0 := by
  induction n with
  | zero => exact ⟨rfl, fun t h1 h2 => by omega⟩
  | succ n ih =>
    obtain ⟨h1, h2⟩ := ih (by omega)
    rw [List.range_succ, List.foldl_append]
    simp only [List.foldl_cons, List.foldl_nil]
    generalize (List.range n).foldl (firstStep x (2 * v)) md = md' at h1 h2
    unfold firstStep
    refine ⟨by rw [List.length_set, h1], fun t ht1 ht2 => ?_⟩
    rw [show 2 * v / 2 = v by omega]
    by_cases he : v + n = t
    · rw [he, getD_set_self (by omega), show 2 * v + 2 * n = 2 * t by omega]
      exact ⟨larger_left _ _, larger_right _ _⟩
    · rw [getD_set_ne he]
      exact h2 t ht1 (by omega)

theorem level_fold (x : List Int) (v : Nat) (m : List Int × List Int) (n : Nat) (hn : n ≤ v)
    (hl1 : 2 * v ≤ m.1.length) (hl2 : 2 * v ≤ m.2.length) :
    ∀ m', m' = (List.range n).foldl (levelStep x (2 * v)) m →
    m'.1.length = m.1.length ∧ m'.2.length = m.2.length ∧
    (∀ t, t < v ∨ v + n ≤ t → m'.1.getD t 0 = m.1.getD t 0 ∧ m'.2.getD t 0 = m.2.getD t 0) ∧
    ∀ t, v ≤ t → t < v + n →
      m.1.getD (2 * t) 0 ≤ m'.2.getD t 0 ∧ m.1.getD (2 * t + 1) 0 ≤ m'.2.getD t 0 ∧
      m'.2.getD t 0 ≤ m'.1.getD t 0 ∧ magnitude x (2 * t) ≤ m'.1.getD t 0 ∧
      magnitude x (2 * t + 1) ≤ m'.1.getD t 0 := by
  induction n with
  | zero => rintro m' rfl; exact ⟨rfl, rfl, fun t _ => ⟨rfl, rfl⟩, fun t h1 h2 => by omega⟩
  | succ n ih =>
    rintro m' rfl
    obtain ⟨h1, h2, h3, h4⟩ := ih (by omega) _ rfl
    rw [List.range_succ, List.foldl_append]
    simp only [List.foldl_cons, List.foldl_nil]
    generalize (List.range n).foldl (levelStep x (2 * v)) m = m' at h1 h2 h3 h4
    have e1 := (h3 (2 * (v + n)) (by omega)).1
    have e2 := (h3 (2 * (v + n) + 1) (by omega)).1
    unfold levelStep
    simp only
    rw [show 2 * v / 2 = v by omega, show 2 * v + 2 * n = 2 * (v + n) by ring, e1, e2]
    refine ⟨by rw [List.length_set, h1], by rw [List.length_set, h2], fun t ht => ?_, fun t ht1 ht2 => ?_⟩
    · rw [getD_set_ne (by omega), getD_set_ne (by omega)]
      exact h3 t (by omega)
    · by_cases he : v + n = t
      · rw [he, getD_set_self (by omega), getD_set_self (by omega)]
        have l1 := larger_left (m.1.getD (2 * t) 0) (m.1.getD (2 * t + 1) 0)
        have l2 := larger_right (m.1.getD (2 * t) 0) (m.1.getD (2 * t + 1) 0)
        refine ⟨l1, l2, ?_, ?_, ?_⟩ <;> split <;> split <;> omega
      · rw [getD_set_ne he, getD_set_ne he]
        exact h4 t ht1 (by omega)

/-- What is known of the entries for a coefficient: they bound the children and, if there are
grandchildren, the entries of the children. -/
def Bound (x : List Int) (m : List Int × List Int) (t : Nat) : Prop :=
  magnitude x (2 * t) ≤ m.1.getD t 0 ∧ magnitude x (2 * t + 1) ≤ m.1.getD t 0 ∧
  (4 * t + 3 < x.length → m.2.getD t 0 ≤ m.1.getD t 0 ∧ m.1.getD (2 * t) 0 ≤ m.2.getD t 0 ∧
    m.1.getD (2 * t + 1) 0 ≤ m.2.getD t 0)

theorem levels_bound (x : List Int) (k : Nat) (hx : x.length = 4 * 2 ^ k) :
    ∀ (j : Nat), j ≤ k → ∀ m : List Int × List Int, m.1.length = 2 * 2 ^ k → m.2.length = 2 ^ k →
      (∀ t, 2 ^ j ≤ t → t < 2 * 2 ^ k → Bound x m t) →
      (levels x (2 ^ j) m).1.length = 2 * 2 ^ k ∧
      ∀ t, 2 ≤ t → t < 2 * 2 ^ k → Bound x (levels x (2 ^ j) m) t := by
  intro j
  induction j with
  | zero =>
    intro _ m h1 h2 hb
    unfold levels
    rw [if_neg (by norm_num)]
    exact ⟨h1, fun t ht1 ht2 => hb t (by simp; omega) ht2⟩
  | succ j ih =>
    intro hj m h1 h2 hb
    have hjk : 2 ^ (j + 1) ≤ 2 ^ k := Nat.pow_le_pow_right (by norm_num) hj
    have hp : 2 ^ (j + 1) = 2 * 2 ^ j := by ring
    unfold levels
    by_cases hj0 : 2 ^ (j + 1) / 2 > 1
    · rw [if_pos hj0]
      rw [show 2 ^ (j + 1) / 2 = 2 ^ j by omega]
      rw [hp] at hjk hb ⊢
      obtain ⟨f1, f2, f3, f4⟩ := level_fold x (2 ^ j) m (2 ^ j) le_rfl (by omega) (by omega) _ rfl
      refine ih (by omega) _ (by rw [f1, h1]) (by rw [f2, h2]) (fun t ht1 ht2 => ?_)
      generalize (List.range (2 ^ j)).foldl (levelStep x (2 * 2 ^ j)) m = m' at f1 f2 f3 f4
      by_cases ht : t < 2 ^ j + 2 ^ j
      · obtain ⟨g1, g2, g3, g4, g5⟩ := f4 t ht1 ht
        refine ⟨g4, g5, fun _ => ⟨g3, ?_, ?_⟩⟩
        · rw [(f3 (2 * t) (by omega)).1]; exact g1
        · rw [(f3 (2 * t + 1) (by omega)).1]; exact g2
      · obtain ⟨b1, b2, b3⟩ := hb t (by omega) ht2
        unfold Bound
        rw [(f3 t (by omega)).1, (f3 t (by omega)).2, (f3 (2 * t) (by omega)).1,
          (f3 (2 * t + 1) (by omega)).1]
        exact ⟨b1, b2, b3⟩
    · rw [if_neg hj0]
      exact ⟨h1, fun t ht1 ht2 => hb t (by omega) ht2⟩

theorem initMaxDescendants_bound (x : List Int) (k : Nat) (hx : x.length = 4 * 2 ^ k)
    (m : List Int × List Int) :
    (initMaxDescendants x m).1.length = 2 * 2 ^ k ∧
    ∀ t, 2 ≤ t → t < 2 * 2 ^ k → Bound x (initMaxDescendants x m) t := by
  unfold initMaxDescendants
  simp only
  rw [show x.length / 2 = 2 * 2 ^ k by omega, show 2 * 2 ^ k / 2 = 2 ^ k by omega]
  obtain ⟨h1, h2⟩ := first_fold x (2 ^ k) (resize m.1 (2 * 2 ^ k)) (2 ^ k) le_rfl
    (by rw [resize_length])
  rw [resize_length] at h1
  apply levels_bound x k hx k le_rfl _ h1 (resize_length _ _)
  intro t ht1 ht2
  obtain ⟨g1, g2⟩ := h2 t ht1 (by omega)
  exact ⟨g1, g2, fun h => by omega⟩

/-! ### Descendants -/

/-- The coefficients below `y`: its children `2 y` and `2 y + 1` and those below them. -/
def below (length y : Nat) : List Nat :=
  if h : 0 < y ∧ 2 * y + 1 < length then
    [2 * y, 2 * y + 1] ++ below length (2 * y) ++ below length (2 * y + 1)
  else []
termination_by length - y

theorem below_pos {length y : Nat} (h0 : 0 < y) (h : 2 * y + 1 < length) :
    below length y = [2 * y, 2 * y + 1] ++ below length (2 * y) ++ below length (2 * y + 1) := by
  rw [below, dif_pos ⟨h0, h⟩]

theorem below_neg {length y : Nat} (h : length ≤ 2 * y + 1) : below length y = [] := by
  rw [below, dif_neg (by omega)]

/-- Induction along the tree. -/
theorem tree_induction (length : Nat) {P : Nat → Prop}
    (leaf : ∀ y, 0 < y → length ≤ 2 * y + 1 → P y)
    (node : ∀ y, 0 < y → 2 * y + 1 < length → P (2 * y) → P (2 * y + 1) → P y) :
    ∀ y, 0 < y → P y := by
  intro y
  induction hm : length - y using Nat.strong_induction_on generalizing y with
  | _ n ih =>
    intro h0
    by_cases h : 2 * y + 1 < length
    · exact node y h0 h (ih (length - 2 * y) (by omega) _ rfl (by omega))
        (ih (length - (2 * y + 1)) (by omega) _ rfl (by omega))
    · exact leaf y h0 (by omega)

theorem below_range (length : Nat) : ∀ y, 0 < y → ∀ i ∈ below length y, 2 * y ≤ i ∧ i < length := by
  refine tree_induction length ?_ ?_
  · intro y h0 h i hi
    rw [below_neg h] at hi
    simp at hi
  · intro y h0 h ih1 ih2 i hi
    rw [below_pos h0 h] at hi
    simp only [List.mem_append, List.mem_cons, List.not_mem_nil, or_false] at hi
    rcases hi with (hi | hi) | hi
    · omega
    · have := ih1 i hi; omega
    · have := ih2 i hi; omega

/-- A coefficient is below `y` if its parent is `y` or below `y`. -/
theorem count_below {length i : Nat} (he : length % 2 = 0) (hi : i < length) : ∀ y, 0 < y →
    (below length y).count i = (if i / 2 = y then 1 else 0) + (below length y).count (i / 2) := by
  refine tree_induction length ?_ ?_
  · intro y h0 h
    rw [below_neg h, if_neg (by omega)]
    simp
  · intro y h0 h ih1 ih2
    rw [below_pos h0 h]
    simp only [List.count_append, List.count_cons, List.count_nil, ih1, ih2, beq_iff_eq]
    repeat' split
    all_goals omega

theorem max_below (x : List Int) (k : Nat) (hx : x.length = 4 * 2 ^ k) (m : List Int × List Int)
    (hm : ∀ t, 2 ≤ t → t < 2 * 2 ^ k → Bound x m t) :
    ∀ y, 0 < y → 2 ≤ y → ∀ i ∈ below x.length y, magnitude x i ≤ m.1.getD y 0 := by
  refine tree_induction x.length ?_ ?_
  · intro y h0 h _ i hi
    rw [below_neg h] at hi
    simp at hi
  · intro y h0 h ih1 ih2 h2 i hi
    obtain ⟨b1, b2, b3⟩ := hm y h2 (by omega)
    rw [below_pos h0 h] at hi
    simp only [List.mem_append, List.mem_cons, List.not_mem_nil, or_false] at hi
    rcases hi with (hi | hi) | hi
    · rcases hi with rfl | rfl <;> assumption
    · have hr := below_range x.length (2 * y) (by omega) i hi
      obtain ⟨c1, c2, c3⟩ := b3 (by omega)
      exact le_trans (ih1 (by omega) i hi) (le_trans c2 c1)
    · have hr := below_range x.length (2 * y + 1) (by omega) i hi
      obtain ⟨c1, c2, c3⟩ := b3 (by omega)
      exact le_trans (ih2 (by omega) i hi) (le_trans c3 c1)

theorem max_below1 (x : List Int) (k : Nat) (hx : x.length = 4 * 2 ^ k) (m : List Int × List Int)
    (hm : ∀ t, 2 ≤ t → t < 2 * 2 ^ k → Bound x m t) (y : Nat) (h2 : 2 ≤ y) (i : Nat)
    (hi : i ∈ below x.length (2 * y) ++ below x.length (2 * y + 1)) : magnitude x i ≤ m.2.getD y 0 := by
  rcases List.mem_append.mp hi with hi | hi
  · have hr := below_range x.length (2 * y) (by omega) i hi
    obtain ⟨b1, b2, b3⟩ := hm y h2 (by omega)
    obtain ⟨c1, c2, c3⟩ := b3 (by omega)
    exact le_trans (max_below x k hx m hm (2 * y) (by omega) (by omega) i hi) c2
  · have hr := below_range x.length (2 * y + 1) (by omega) i hi
    obtain ⟨b1, b2, b3⟩ := hm y h2 (by omega)
    obtain ⟨c1, c2, c3⟩ := b3 (by omega)
    exact le_trans (max_below x k hx m hm (2 * y + 1) (by omega) (by omega) i hi) c3

/-- The coefficients below the four roots are those from 8 on, each once. -/
theorem count_roots {length : Nat} (he : length % 2 = 0) : ∀ i, i < length →
    (below length 4).count i + (below length 5).count i + (below length 6).count i +
      (below length 7).count i = if 8 ≤ i then 1 else 0 := by
  have small : ∀ y i, 4 ≤ y → i < 2 * y → (below length y).count i = 0 := by
    intro y i hy hi
    rw [List.count_eq_zero]
    intro h
    have := below_range length y (by omega) i h
    omega
  intro i
  induction i using Nat.strong_induction_on with
  | _ i ih =>
    intro hi
    by_cases h8 : 8 ≤ i
    · rw [count_below he hi 4 (by omega), count_below he hi 5 (by omega), count_below he hi 6 (by omega),
        count_below he hi 7 (by omega), if_pos h8]
      have := ih (i / 2) (by omega) (by omega)
      split at this <;> (repeat' split) <;> omega
    · rw [small 4 i (by omega) (by omega), small 5 i (by omega) (by omega),
        small 6 i (by omega) (by omega), small 7 i (by omega) (by omega), if_neg h8]

end Haptics.Spiht
