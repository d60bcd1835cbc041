import Verif.Encoder.Pcm
import Verif.Encoder.SpecPcm
import Verif.Bits.FloatScale
import Mathlib.Tactic.Linarith

/-! C41: the points of a curve. -/

namespace Haptics.Pcm
open Haptics

theorem fl64_neg (x : ℚ) : fl64 (-x) = -fl64 x := flo_neg _ _ x

theorem isEq_self (a : ℚ) : isEq a a = true := by
  unfold isEq
  rw [sub_self, fl64_zero, abs_zero]
  exact decide_eq_true (by norm_num)

theorem isEq_far {a b : ℚ} (h : 1 / 2 ^ 45 ≤ |a - b|) : isEq a b = false := by
  unfold isEq
  refine decide_eq_false ?_
  have e : fl64 (1 / 2 ^ 45) = 1 / 2 ^ 45 := by
    have := fl64_two_zpow (-45) (by norm_num)
    rw [show (2 : ℚ) ^ (-45 : ℤ) = 1 / 2 ^ 45 by norm_num] at this
    exact this
  rw [not_le]
  refine lt_of_lt_of_le (by norm_num : (100 : ℚ) / 2 ^ 52 < 1 / 2 ^ 45) ?_
  rcases le_abs.mp h with h | h
  · have := fl64_mono h
    rw [e] at this
    exact this.trans (le_abs_self _)
  · have := fl64_mono h
    rw [e, fl64_neg] at this
    exact this.trans (neg_le_abs _)

/-- The condition of the loop, for samples that are equal or differ enough. -/
theorem turns_iff {a b c : ℚ} (h1 : a ≠ b → 1 / 2 ^ 45 ≤ |a - b|) (h2 : b ≠ c → 1 / 2 ^ 45 ≤ |b - c|) :
    turns a b c = true ↔ ¬ ((a < b ∧ b < c) ∨ (b < a ∧ c < b) ∨ (a = b ∧ b = c)) := by
  have e1 : isEq b a = true ↔ a = b := by
    constructor
    · intro h
      by_contra hne
      have := h1 hne
      rw [abs_sub_comm] at this
      rw [isEq_far this] at h
      cases h
    · rintro rfl
      exact isEq_self a
  have e2 : isEq b c = true ↔ b = c := by
    constructor
    · intro h
      by_contra hne
      rw [isEq_far (h2 hne)] at h
      cases h
    · rintro rfl
      exact isEq_self b
  unfold turns
  rw [Bool.and_eq_true, decide_eq_true_eq, Bool.not_eq_true', ← Bool.not_eq_true, Bool.and_eq_true, e1, e2]
  rcases lt_trichotomy a b with h | h | h <;> rcases lt_trichotomy b c with g | g | g
  · simp [h, g, h.le, g.le, h.not_ge, g.not_ge, h.ne, g.ne, h.not_gt, g.not_gt]
  · subst g; simp [h, h.le, h.not_ge, h.ne, h.not_gt]
  · simp [h, g, h.le, g.le, h.not_ge, g.not_ge, h.ne, g.ne', h.not_gt, g.not_gt]
  · subst h; simp [g, g.le, g.not_ge, g.ne, g.not_gt]
  · subst h; subst g; simp
  · subst h; simp [g, g.le, g.not_ge, g.ne', g.not_gt]
  · simp [h, g, h.le, g.le, h.not_ge, g.not_ge, h.ne', g.ne, h.not_gt, g.not_gt]
  · subst g; simp [h, h.le, h.not_ge, h.ne', h.not_gt]
  · simp [h, g, h.le, g.le, h.not_ge, g.not_ge, h.ne', g.ne', h.not_gt, g.not_gt]

theorem loop_last (i : Int) (a b : ℚ) (l : List ℚ) :
    (extremaLoop i a b l).2.1 = i + l.length ∧ (a :: b :: l)[l.length + 1]? = some (extremaLoop i a b l).2.2 := by
  induction l generalizing i a b with
  | nil => exact ⟨by simp [extremaLoop], rfl⟩
  | cons c l ih =>
    obtain ⟨h1, h2⟩ := ih (i + 1) b c
    rw [extremaLoop]
    constructor
    · have : (i + 1 + l.length : Int) = i + (c :: l).length := by rw [List.length_cons]; push_cast; ring
      rw [← this, ← h1]
      split <;> rfl
    · rw [List.length_cons, List.getElem?_cons_succ, h2]
      split <;> rfl

theorem loop_mem (i : Int) (a b : ℚ) (l : List ℚ) (p : Point) : p ∈ (extremaLoop i a b l).1 ↔
    ∃ (j : Nat) (x y z : ℚ), (a :: b :: l)[j]? = some x ∧ (a :: b :: l)[j + 1]? = some y ∧
      (a :: b :: l)[j + 2]? = some z ∧ turns x y z = true ∧ p = (i + j, y) := by
  induction l generalizing i a b with
  | nil =>
    constructor
    · intro h
      cases h
    · rintro ⟨j, x, y, z, _, _, h, _⟩
      simp at h
  | cons c l ih =>
    rw [extremaLoop]
    have key : (∃ (j : Nat) (x y z : ℚ), (a :: b :: c :: l)[j]? = some x ∧ (a :: b :: c :: l)[j + 1]? = some y ∧
        (a :: b :: c :: l)[j + 2]? = some z ∧ turns x y z = true ∧ p = (i + j, y)) ↔
        (turns a b c = true ∧ p = (i, b)) ∨ p ∈ (extremaLoop (i + 1) b c l).1 := by
      rw [ih]
      constructor
      · rintro ⟨j, x, y, z, h1, h2, h3, h4, h5⟩
        cases j with
        | zero =>
          have h1 := Option.some.inj h1
          have h2 := Option.some.inj h2
          have h3 := Option.some.inj h3
          subst h1; subst h2; subst h3
          exact Or.inl ⟨h4, by simpa using h5⟩
        | succ j =>
          refine Or.inr ⟨j, x, y, z, h1, h2, h3, h4, ?_⟩
          rw [h5]
          congr 1
          push_cast
          ring
      · rintro (⟨h4, h5⟩ | ⟨j, x, y, z, h1, h2, h3, h4, h5⟩)
        · exact ⟨0, a, b, c, rfl, rfl, rfl, h4, by simpa using h5⟩
        · refine ⟨j + 1, x, y, z, h1, h2, h3, h4, ?_⟩
          rw [h5]
          congr 1
          push_cast
          ring
    rw [key]
    by_cases ht : turns a b c = true
    · simp only [ht, if_true, true_and, List.mem_cons]
    · simp only [ht, if_false, false_and, false_or, Bool.false_eq_true]

theorem loop_increasing (i : Int) (a b : ℚ) (l : List ℚ) :
    (extremaLoop i a b l).1.Pairwise (fun p q => p.1 < q.1) ∧
      ∀ p ∈ (extremaLoop i a b l).1, i ≤ p.1 ∧ p.1 < (extremaLoop i a b l).2.1 := by
  induction l generalizing i a b with
  | nil => exact ⟨List.Pairwise.nil, fun p h => by cases h⟩
  | cons c l ih =>
    obtain ⟨h1, h2⟩ := ih (i + 1) b c
    have h3 := (loop_last (i + 1) b c l).1
    rw [extremaLoop]
    split
    · refine ⟨List.pairwise_cons.mpr ⟨fun p hp => ?_, h1⟩, fun p hp => ?_⟩
      · have := (h2 p hp).1
        simp only
        omega
      · rcases List.mem_cons.mp hp with rfl | hp
        · simp only
          omega
        · have := h2 p hp
          simp only
          omega
    · refine ⟨h1, fun p hp => ?_⟩
      have := h2 p hp
      omega

/-- The points of a signal of at least two samples. -/
theorem extrema_cons (a b : ℚ) (l : List ℚ) :
    localExtrema (a :: b :: l) true = (0, a) :: (extremaLoop 1 a b l).1 ++ [(extremaLoop 1 a b l).2] := by
  cases l <;> rfl

/-- **C41.** The points of a signal of at least two samples: their indices strictly increase, each has the value of its
sample, and the first and the last sample are among them. -/
theorem c41_points (s : List ℚ) (h : 2 ≤ s.length) :
    (localExtrema s true).Pairwise (fun p q => p.1 < q.1) ∧
    (∀ p ∈ localExtrema s true, ∃ k : Nat, p.1 = k ∧ s[k]? = some p.2) ∧
    (∃ v, s[0]? = some v ∧ (localExtrema s true).head? = some (0, v)) ∧
    ∃ v, s[s.length - 1]? = some v ∧ (localExtrema s true).getLast? = some (((s.length - 1 : Nat) : Int), v) := by
  match s, h with
  | a :: b :: l, _ =>
    rw [extrema_cons]
    obtain ⟨h1, h2⟩ := loop_increasing 1 a b l
    obtain ⟨h3, h4⟩ := loop_last 1 a b l
    refine ⟨?_, ?_, ⟨a, rfl, rfl⟩, ⟨(extremaLoop 1 a b l).2.2, ?_, ?_⟩⟩
    · rw [List.cons_append]
      refine List.pairwise_cons.mpr ⟨fun p hp => ?_, List.pairwise_append.mpr ⟨h1, List.pairwise_singleton _ _, ?_⟩⟩
      · rcases List.mem_append.mp hp with hp | hp
        · have := (h2 p hp).1
          simp only
          omega
        · have hp := List.mem_singleton.mp hp
          subst hp
          simp only
          omega
      · intro p hp q hq
        have hq := List.mem_singleton.mp hq
        subst hq
        exact (h2 p hp).2
    · intro p hp
      rcases List.mem_append.mp hp with hp | hp
      · rcases List.mem_cons.mp hp with rfl | hp
        · exact ⟨0, rfl, rfl⟩
        · obtain ⟨j, x, y, z, _, g2, _, _, rfl⟩ := (loop_mem 1 a b l p).mp hp
          exact ⟨j + 1, by push_cast; ring, g2⟩
      · have hp := List.mem_singleton.mp hp
        subst hp
        exact ⟨l.length + 1, by rw [h3]; push_cast; ring, h4⟩
    · simpa using h4
    · rw [List.getLast?_append, List.getLast?_singleton, Option.some_or]
      refine congrArg some (Prod.ext ?_ rfl)
      rw [h3]
      simp only [List.length_cons, Nat.add_sub_cancel]
      push_cast
      ring

/-- **C41.** For signals whose neighbouring samples are equal or differ by at least 2^-45, the points are exactly the
first and the last sample and all samples the signal does not go straight through. -/
theorem c41_exactly (s : List ℚ) (h : 2 ≤ s.length) (hr : Resolved s) (k : Nat) (v : ℚ) :
    ((k : Int), v) ∈ localExtrema s true ↔ s[k]? = some v ∧ ¬ Straight s k := by
  match s, h, hr with
  | a :: b :: l, _, hr =>
    rw [extrema_cons, List.mem_append, List.mem_cons, List.mem_singleton]
    obtain ⟨h3, h4⟩ := loop_last 1 a b l
    constructor
    · rintro ((h | h) | h)
      · obtain ⟨h1, h2⟩ := Prod.mk.inj h
        have : k = 0 := by exact_mod_cast h1
        subst this
        subst h2
        refine ⟨rfl, ?_⟩
        rintro ⟨_, _, _, h, _⟩
        omega
      · obtain ⟨j, x, y, z, g1, g2, g3, g4, g5⟩ := (loop_mem 1 a b l _).mp h
        obtain ⟨e1, e2⟩ := Prod.mk.inj g5
        have : k = j + 1 := by omega
        subst this
        subst e2
        refine ⟨g2, ?_⟩
        rintro ⟨x', y', z', _, k1, k2, k3, k4⟩
        rw [Nat.add_sub_cancel, g1] at k1
        rw [g2] at k2
        rw [g3] at k3
        have k1 := Option.some.inj k1
        have k2 := Option.some.inj k2
        have k3 := Option.some.inj k3
        subst k1; subst k2; subst k3
        exact (turns_iff (hr j x v g1 g2) (hr (j + 1) v z g2 g3)).mp g4 k4
      · have e1 := congrArg Prod.fst h
        have e2 := congrArg Prod.snd h
        simp only at e1 e2
        rw [h3] at e1
        have : k = l.length + 1 := by omega
        subst this
        rw [h4, e2]
        refine ⟨rfl, ?_⟩
        rintro ⟨_, _, z, _, _, _, h, _⟩
        rw [List.getElem?_eq_none (by simp)] at h
        cases h
    · rintro ⟨h1, h2⟩
      by_cases k0 : k = 0
      · subst k0
        have h1 := Option.some.inj h1
        subst h1
        exact Or.inl (Or.inl rfl)
      · obtain ⟨j, rfl⟩ : ∃ j, k = j + 1 := ⟨k - 1, by omega⟩
        have hlt : j + 1 < l.length + 2 := by
          have := (List.getElem?_eq_some_iff.mp h1).1
          simpa using this
        by_cases kl : j = l.length
        · subst kl
          rw [h4] at h1
          have h1 := Option.some.inj h1
          refine Or.inr (Prod.ext ?_ h1.symm)
          rw [h3]
          push_cast
          ring
        · refine Or.inl (Or.inr ((loop_mem 1 a b l _).mpr ?_))
          obtain ⟨x, hx⟩ : ∃ x, (a :: b :: l)[j]? = some x :=
            ⟨_, List.getElem?_eq_getElem (by simp only [List.length_cons]; omega)⟩
          obtain ⟨z, hz⟩ : ∃ z, (a :: b :: l)[j + 2]? = some z :=
            ⟨_, List.getElem?_eq_getElem (by simp only [List.length_cons]; omega)⟩
          refine ⟨j, x, v, z, hx, h1, hz, ?_, by push_cast; rw [add_comm]⟩
          rw [turns_iff (hr j x v hx h1) (hr (j + 1) v z h1 hz)]
          intro h
          exact h2 ⟨x, v, z, Nat.succ_pos j, hx, h1, hz, h⟩

/-- **C41.** Between neighbouring points such a signal goes one way: it rises, falls or stays. -/
theorem c41_one_way (s : List ℚ) (h : 2 ≤ s.length) (hr : Resolved s) (l m : List Point) (i j : Nat) (a b : ℚ)
    (hs : localExtrema s true = l ++ ((i : Int), a) :: ((j : Int), b) :: m) : OneWay s i j := by
  obtain ⟨hp, hv, _, _⟩ := c41_points s h
  have hij : i < j := by
    rw [hs] at hp
    have := (List.pairwise_cons.mp (List.pairwise_append.mp hp).2.1).1 _ List.mem_cons_self
    simp only at this
    exact_mod_cast this
  have hjn : j < s.length := by
    obtain ⟨k, e, hk⟩ := hv ((j : Int), b) (by rw [hs]; simp)
    simp only at e
    have : j = k := by exact_mod_cast e
    rw [this]
    exact (List.getElem?_eq_some_iff.mp hk).1
  -- no point lies between
  have hno : ∀ k, i < k → k < j → Straight s k := by
    intro k h1 h2
    by_contra hk
    have hmem := (c41_exactly s h hr k s[k]).mpr ⟨List.getElem?_eq_getElem (by omega), hk⟩
    rw [hs] at hmem hp
    obtain ⟨p1, p2, p3⟩ := List.pairwise_append.mp hp
    rcases List.mem_append.mp hmem with hm | hm
    · have := p3 _ hm _ (List.mem_cons_self)
      simp only at this
      omega
    · rcases List.mem_cons.mp hm with hm | hm
      · have := (Prod.mk.inj hm).1
        omega
      · rcases List.mem_cons.mp hm with hm | hm
        · have := (Prod.mk.inj hm).1
          omega
        · have := (List.pairwise_cons.mp (List.pairwise_cons.mp p2).2).1 _ hm
          simp only at this
          omega
  -- every step is like the first one
  have step : ∀ (d : Nat), i + d < j → ∀ (x y x' y' : ℚ), s[i]? = some x → s[i + 1]? = some y →
      s[i + d]? = some x' → s[i + d + 1]? = some y' → (x < y ↔ x' < y') ∧ (y < x ↔ y' < x') ∧ (x = y ↔ x' = y') := by
    intro d
    induction d with
    | zero =>
      intro _ x y x' y' h1 h2 h3 h4
      rw [Nat.add_zero, h1] at h3
      rw [Nat.add_zero, h2] at h4
      have h3 := Option.some.inj h3
      have h4 := Option.some.inj h4
      subst h3; subst h4
      simp
    | succ d ih =>
      intro hd x y x' y' h1 h2 h3 h4
      obtain ⟨u, v, w, _, k1, k2, k3, k4⟩ := hno (i + (d + 1)) (by omega) hd
      rw [h3] at k2
      rw [h4] at k3
      have k2 := Option.some.inj k2
      have k3 := Option.some.inj k3
      subst k2; subst k3
      have e := ih (by omega) x y u x' h1 h2 (by rw [← k1]; rfl) h3
      rcases k4 with ⟨q1, q2⟩ | ⟨q1, q2⟩ | ⟨q1, q2⟩
      · simp only [q1, q1.not_gt, q1.ne] at e
        simp only [e.1, e.2.1, e.2.2, q2, q2.not_gt, q2.ne]
        simp
      · simp only [q1, q1.not_gt, q1.ne'] at e
        simp only [e.1, e.2.1, e.2.2, q2, q2.not_gt, q2.ne']
        simp
      · subst q1
        subst q2
        exact e
  obtain ⟨x, hx⟩ : ∃ x, s[i]? = some x := ⟨_, List.getElem?_eq_getElem (by omega)⟩
  obtain ⟨y, hy⟩ : ∃ y, s[i + 1]? = some y := ⟨_, List.getElem?_eq_getElem (by omega)⟩
  have all : ∀ (k : Nat) (p q : ℚ), i ≤ k → k < j → s[k]? = some p → s[k + 1]? = some q →
      (x < y ↔ p < q) ∧ (y < x ↔ q < p) ∧ (x = y ↔ p = q) := by
    intro k p q h1 h2 h3 h4
    obtain ⟨d, rfl⟩ : ∃ d, k = i + d := ⟨k - i, by omega⟩
    exact step d h2 x y p q hx hy h3 h4
  rcases lt_trichotomy x y with hxy | hxy | hxy
  · exact Or.inl fun k p q h1 h2 h3 h4 => (all k p q h1 h2 h3 h4).1.mp hxy
  · exact Or.inr (Or.inr fun k p q h1 h2 h3 h4 => (all k p q h1 h2 h3 h4).2.2.mp hxy)
  · exact Or.inr (Or.inl fun k p q h1 h2 h3 h4 => (all k p q h1 h2 h3 h4).2.1.mp hxy)

/-- Signals of 16 bit samples are of that kind. -/
theorem c41_wav (s : List ℚ) (h : ∀ x ∈ s, ∃ k : Int, x = k / 32768) : Resolved s := by
  intro k a b ha hb hne
  obtain ⟨m, rfl⟩ := h a (List.mem_of_getElem? ha)
  obtain ⟨n, rfl⟩ := h b (List.mem_of_getElem? hb)
  have hmn : m ≠ n := fun e => hne (by rw [e])
  have h1 : (1 : ℚ) ≤ |(m : ℚ) - n| := by
    have : (1 : Int) ≤ |m - n| := Int.one_le_abs (sub_ne_zero.mpr hmn)
    exact_mod_cast this
  rw [← sub_div, abs_div]
  rw [show |(32768 : ℚ)| = 32768 by norm_num, le_div_iff₀ (by norm_num)]
  refine le_trans ?_ h1
  norm_num

example : Resolved [0, 1/2, 1/2, 1/4, 3/4] := c41_wav _ (by
  intro x hx
  simp only [List.mem_cons, List.not_mem_nil, or_false] at hx
  rcases hx with rfl | rfl | rfl | rfl | rfl
  · exact ⟨0, by norm_num⟩
  · exact ⟨16384, by norm_num⟩
  · exact ⟨16384, by norm_num⟩
  · exact ⟨8192, by norm_num⟩
  · exact ⟨24576, by norm_num⟩)

example : localExtrema [0, 1/2, 1/2, 1/4, 3/4] true = [(0, 0), (1, 1/2), (2, 1/2), (3, 1/4), (4, 3/4)] := by
  decide +kernel

/-- **C41, what does not hold.** The only sample of a signal becomes two points at the same index, and a peak that stands
out by less is not found. -/
theorem c41_negation : localExtrema [1/2] true = [(0, 1/2), (0, 1/2)] ∧
    localExtrema [0, 1 / 2 ^ 46, 0] true = [(0, 0), (2, 0)] := by
  constructor
  · rfl
  · decide +kernel

end Haptics.Pcm
