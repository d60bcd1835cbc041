import Verif.Spiht.TreeLemmas
import Verif.Spiht.SpecSpiht

/-
What the SPIHT encoder keeps of the block before: nothing that is looked at.
-/
namespace Haptics.Spiht

/-- Two vectors have the same entries from `a` on. -/
def Agree (a : Nat) (l l' : List Int) : Prop := l.length = l'.length ∧ ∀ t, a ≤ t → l.getD t 0 = l'.getD t 0

theorem getD_set_same {l l' : List Int} (hl : l.length = l'.length) {i j : Nat} {v : Int}
    (h : i ≠ j → l.getD j 0 = l'.getD j 0) : (l.set i v).getD j 0 = (l'.set i v).getD j 0 := by
  by_cases hij : i = j
  · subst hij
    by_cases hi : i < l.length
    · rw [getD_set_self hi, getD_set_self (by omega)]
    · rw [List.getD_eq_getElem?_getD, List.getElem?_eq_none (by rw [List.length_set]; omega),
        List.getD_eq_getElem?_getD, List.getElem?_eq_none (by rw [List.length_set]; omega)]
  · rw [getD_set_ne hij, getD_set_ne hij]
    exact h hij

theorem first_agree (x : List Int) (v : Nat) (md md' : List Int) (hl : md.length = 2 * v) (hl' : md'.length = 2 * v) :
    ∀ n, ((List.range n).foldl (firstStep x (2 * v)) md).length = 2 * v ∧
      ((List.range n).foldl (firstStep x (2 * v)) md').length = 2 * v ∧
      ∀ t, v ≤ t → t < v + n → ((List.range n).foldl (firstStep x (2 * v)) md).getD t 0 =
        ((List.range n).foldl (firstStep x (2 * v)) md').getD t 0 := by
  intro n
  induction n with
  | zero => exact ⟨hl, hl', fun t h1 h2 => by omega⟩
  | succ n ih =>
    obtain ⟨h1, h2, h3⟩ := ih
    rw [List.range_succ, List.foldl_append, List.foldl_append]
    simp only [List.foldl_cons, List.foldl_nil]
    generalize (List.range n).foldl (firstStep x (2 * v)) md = a at h1 h3
    generalize (List.range n).foldl (firstStep x (2 * v)) md' = b at h2 h3
    unfold firstStep
    refine ⟨by rw [List.length_set, h1], by rw [List.length_set, h2], fun t ht1 ht2 => ?_⟩
    rw [show 2 * v / 2 = v by omega]
    exact getD_set_same (h1.trans h2.symm) fun hne => h3 t ht1 (by omega)

theorem level_agree (x : List Int) (v : Nat) (m m' : List Int × List Int) (h1 : Agree (2 * v) m.1 m'.1)
    (h2 : Agree (2 * v) m.2 m'.2) : ∀ n, n ≤ v → ∀ r r', r = (List.range n).foldl (levelStep x (2 * v)) m →
      r' = (List.range n).foldl (levelStep x (2 * v)) m' →
      r.1.length = r'.1.length ∧ r.2.length = r'.2.length ∧
      ∀ t, (v ≤ t ∧ t < v + n) ∨ 2 * v ≤ t → r.1.getD t 0 = r'.1.getD t 0 ∧ r.2.getD t 0 = r'.2.getD t 0 := by
  intro n
  induction n with
  | zero =>
    rintro _ r r' rfl rfl
    exact ⟨h1.1, h2.1, fun t ht => ⟨h1.2 t (by omega), h2.2 t (by omega)⟩⟩
  | succ n ih =>
    rintro hn r r' rfl rfl
    obtain ⟨l1, l2, l3⟩ := ih (by omega) _ _ rfl rfl
    rw [List.range_succ, List.foldl_append, List.foldl_append]
    simp only [List.foldl_cons, List.foldl_nil]
    generalize (List.range n).foldl (levelStep x (2 * v)) m = a at l1 l2 l3
    generalize (List.range n).foldl (levelStep x (2 * v)) m' = b at l1 l2 l3
    unfold levelStep
    simp only
    rw [(l3 (2 * v + 2 * n) (by omega)).1, (l3 (2 * v + 2 * n + 1) (by omega)).1, show 2 * v / 2 = v by omega]
    refine ⟨by rw [List.length_set, List.length_set, l1], by rw [List.length_set, List.length_set, l2],
      fun t ht => ⟨?_, ?_⟩⟩
    · exact getD_set_same l1 fun hne => (l3 t (by omega)).1
    · exact getD_set_same l2 fun hne => (l3 t (by omega)).2

theorem levels_agree (x : List Int) : ∀ (j : Nat) (m m' : List Int × List Int), Agree (2 ^ j) m.1 m'.1 →
    Agree (2 ^ j) m.2 m'.2 →
    Agree 2 (levels x (2 ^ j) m).1 (levels x (2 ^ j) m').1 ∧ Agree 2 (levels x (2 ^ j) m).2 (levels x (2 ^ j) m').2 := by
  intro j
  induction j with
  | zero =>
    intro m m' h1 h2
    unfold levels
    rw [if_neg (by norm_num), if_neg (by norm_num)]
    exact ⟨⟨h1.1, fun t ht => h1.2 t (by simp; omega)⟩, ⟨h2.1, fun t ht => h2.2 t (by simp; omega)⟩⟩
  | succ j ih =>
    intro m m' h1 h2
    have hp : 2 ^ (j + 1) = 2 * 2 ^ j := by ring
    unfold levels
    by_cases hj : 2 ^ (j + 1) / 2 > 1
    · rw [if_pos hj, if_pos hj, show 2 ^ (j + 1) / 2 = 2 ^ j by omega]
      rw [hp] at h1 h2 ⊢
      obtain ⟨l1, l2, l3⟩ := level_agree x (2 ^ j) m m' h1 h2 (2 ^ j) le_rfl _ _ rfl rfl
      exact ih _ _ ⟨l1, fun t ht => (l3 t (by omega)).1⟩ ⟨l2, fun t ht => (l3 t (by omega)).2⟩
    · rw [if_neg hj, if_neg hj]
      exact ⟨⟨h1.1, fun t ht => h1.2 t (by omega)⟩, ⟨h2.1, fun t ht => h2.2 t (by omega)⟩⟩

theorem initMaxDescendants_agree (x : List Int) (hx : IsBlock x) (m m' : List Int × List Int) :
    Agree 2 (initMaxDescendants x m).1 (initMaxDescendants x m').1 ∧
    Agree 2 (initMaxDescendants x m).2 (initMaxDescendants x m').2 := by
  obtain ⟨k', hk', hx⟩ := hx
  obtain ⟨k, rfl⟩ : ∃ k, k' = k + 2 := ⟨k' - 2, by omega⟩
  have hx4 : x.length = 4 * 2 ^ k := by rw [hx]; ring
  unfold initMaxDescendants
  simp only
  rw [show x.length / 2 = 2 * 2 ^ k by omega, show 2 * 2 ^ k / 2 = 2 ^ k by omega]
  obtain ⟨l1, l2, l3⟩ := first_agree x (2 ^ k) (resize m.1 (2 * 2 ^ k)) (resize m'.1 (2 * 2 ^ k))
    (resize_length _ _) (resize_length _ _) (2 ^ k)
  apply levels_agree
  · refine ⟨l1.trans l2.symm, fun t ht => ?_⟩
    by_cases h : t < 2 ^ k + 2 ^ k
    · exact l3 t ht h
    · rw [List.getD_eq_getElem?_getD, List.getElem?_eq_none (by rw [l1]; omega), List.getD_eq_getElem?_getD,
        List.getElem?_eq_none (by rw [l2]; omega)]
  · refine ⟨by rw [resize_length, resize_length], fun t ht => ?_⟩
    rw [List.getD_eq_getElem?_getD, List.getElem?_eq_none (by rw [resize_length]; exact ht),
      List.getD_eq_getElem?_getD, List.getElem?_eq_none (by rw [resize_length]; exact ht)]

theorem encLis_agree (x : List Int) (m m' : List Int × List Int) (h1 : Agree 2 m.1 m'.1) (h2 : Agree 2 m.2 m'.2)
    (compare : Int) : ∀ (fuel : Nat) (todo kept : List (Nat × Bool)) (lip lsp : List Nat),
      (∀ p ∈ todo, 2 ≤ p.1) → (∀ p ∈ kept, 2 ≤ p.1) →
      encLis x m compare fuel todo kept lip lsp = encLis x m' compare fuel todo kept lip lsp ∧
      ∀ r, encLis x m compare fuel todo kept lip lsp = .ok r → ∀ p ∈ r.2.lis, 2 ≤ p.1 := by
  intro fuel
  induction fuel with
  | zero => intro todo kept lip lsp _ _; exact ⟨by simp only [encLis], fun r h => by simp [encLis] at h⟩
  | succ fuel ih =>
    intro todo kept lip lsp ht hk
    match todo with
    | [] =>
      refine ⟨by simp only [encLis], fun r h => ?_⟩
      simp only [encLis, Except.ok.injEq] at h
      subst h
      exact hk
    | (y, false) :: todo =>
      have hy : 2 ≤ y := ht _ List.mem_cons_self
      have e1 : maxDescendant m y false = maxDescendant m' y false := by
        simp only [maxDescendant]; exact h1.2 y hy
      simp only [encLis, e1]
      split
      · cases ha : encChild x compare (2 * y) with
        | error _ => exact ⟨rfl, fun r h => by simp [bind, Except.bind] at h⟩
        | ok a =>
          cases hb : encChild x compare (2 * y + 1) with
          | error _ => exact ⟨rfl, fun r h => by simp [bind, Except.bind] at h⟩
          | ok b =>
            obtain ⟨i1, i2⟩ := ih (todo ++ if 4 * y + 3 < x.length then [(y, true)] else []) kept
              (lip ++ a.2.1 ++ b.2.1) (lsp ++ a.2.2 ++ b.2.2)
              (fun p hp => by
                rw [List.mem_append] at hp
                rcases hp with hp | hp
                · exact ht p (List.mem_cons_of_mem _ hp)
                · split at hp
                  · rw [List.mem_singleton] at hp; subst hp; exact hy
                  · exact absurd hp List.not_mem_nil) hk
            simp only [bind, Except.bind, ← i1]
            refine ⟨trivial, fun r h => ?_⟩
            generalize hg : encLis x m compare fuel _ kept _ _ = g at h i2
            match g with
            | .error _ => simp at h
            | .ok q =>
              simp only [Except.ok.injEq] at h
              subst h
              exact i2 q rfl
      · obtain ⟨i1, i2⟩ := ih todo (kept ++ [(y, false)]) lip lsp (fun p hp => ht p (List.mem_cons_of_mem _ hp))
          (fun p hp => by
            rw [List.mem_append, List.mem_singleton] at hp
            rcases hp with hp | rfl
            · exact hk p hp
            · exact hy)
        simp only [bind, Except.bind, ← i1]
        refine ⟨trivial, fun r h => ?_⟩
        generalize hg : encLis x m compare fuel _ _ _ _ = g at h i2
        match g with
        | .error _ => simp at h
        | .ok q =>
          simp only [Except.ok.injEq] at h
          subst h
          exact i2 q rfl
    | (y, true) :: todo =>
      have hy : 2 ≤ y := ht _ List.mem_cons_self
      have e1 : maxDescendant m y true = maxDescendant m' y true := by
        simp only [maxDescendant, if_true]; exact h2.2 y hy
      simp only [encLis, e1]
      split
      · obtain ⟨i1, i2⟩ := ih (todo ++ [(2 * y, false), (2 * y + 1, false)]) kept lip lsp
          (fun p hp => by
            simp only [List.mem_append, List.mem_cons, List.not_mem_nil, or_false] at hp
            rcases hp with hp | rfl | rfl
            · exact ht p (List.mem_cons_of_mem _ hp)
            · simp only; omega
            · simp only; omega) hk
        simp only [bind, Except.bind, ← i1]
        refine ⟨trivial, fun r h => ?_⟩
        generalize hg : encLis x m compare fuel _ _ _ _ = g at h i2
        match g with
        | .error _ => simp at h
        | .ok q =>
          simp only [Except.ok.injEq] at h
          subst h
          exact i2 q rfl
      · obtain ⟨i1, i2⟩ := ih todo (kept ++ [(y, true)]) lip lsp (fun p hp => ht p (List.mem_cons_of_mem _ hp))
          (fun p hp => by
            rw [List.mem_append, List.mem_singleton] at hp
            rcases hp with hp | rfl
            · exact hk p hp
            · exact hy)
        simp only [bind, Except.bind, ← i1]
        refine ⟨trivial, fun r h => ?_⟩
        generalize hg : encLis x m compare fuel _ _ _ _ = g at h i2
        match g with
        | .error _ => simp at h
        | .ok q =>
          simp only [Except.ok.injEq] at h
          subst h
          exact i2 q rfl

theorem encPass_agree (x : List Int) (m m' : List Int × List Int) (h1 : Agree 2 m.1 m'.1) (h2 : Agree 2 m.2 m'.2)
    (n : Nat) (s : Lists) (hs : ∀ p ∈ s.lis, 2 ≤ p.1) :
    encPass x m n s = encPass x m' n s ∧ ∀ r, encPass x m n s = .ok r → ∀ p ∈ r.2.lis, 2 ≤ p.1 := by
  unfold encPass
  cases encLip x (2 ^ n) s.lip with
  | error _ => exact ⟨rfl, fun r h => by simp [bind, Except.bind] at h⟩
  | ok a =>
    obtain ⟨i1, i2⟩ := encLis_agree x m m' h1 h2 (2 ^ n) (lisFuel x.length) s.lis [] a.2.1 (s.lsp ++ a.2.2) hs
      (fun p hp => absurd hp List.not_mem_nil)
    simp only [bind, Except.bind, ← i1]
    refine ⟨trivial, fun r h => ?_⟩
    generalize encLis x m (2 ^ n) (lisFuel x.length) s.lis [] a.2.1 (s.lsp ++ a.2.2) = g at h i2
    match g with
    | .error _ => simp at h
    | .ok q =>
      simp only at h
      split at h
      · simp at h
      · simp only [Except.ok.injEq] at h
        subst h
        exact i2 q rfl

theorem encPlanes_agree (x : List Int) (m m' : List Int × List Int) (h1 : Agree 2 m.1 m'.1) (h2 : Agree 2 m.2 m'.2) :
    ∀ (n : Nat) (s : Lists), (∀ p ∈ s.lis, 2 ≤ p.1) → encPlanes x m n s = encPlanes x m' n s := by
  intro n
  induction n with
  | zero =>
    intro s hs
    simp only [encPlanes, (encPass_agree x m m' h1 h2 0 s hs).1]
  | succ n ih =>
    intro s hs
    obtain ⟨i1, i2⟩ := encPass_agree x m m' h1 h2 (n + 1) s hs
    simp only [encPlanes, ← i1]
    generalize encPass x m (n + 1) s = g at i2
    match g with
    | .error _ => rfl
    | .ok q =>
      simp only [bind, Except.bind]
      rw [ih q.2 (i2 q rfl)]

theorem initLists_lis (x : List Int) (hx : IsBlock x) : ∀ p ∈ (initLists x.length).lis, 2 ≤ p.1 := by
  obtain ⟨k, hk, hx⟩ := hx
  intro p hp
  unfold initLists at hp
  simp only [List.mem_map, List.mem_range'_1] at hp
  obtain ⟨y, hy, rfl⟩ := hp
  simp only
  have : 4 ≤ bandsize x.length / 2 := by
    unfold bandsize level
    rw [hx, Nat.log2_two_pow, if_neg (by
      intro h
      have : 2 ^ 3 ≤ 2 ^ k := Nat.pow_le_pow_right (by norm_num) hk
      omega)]
    rw [show ((k : Int) - ((k : Int) - 2)).toNat = 2 by omega]
    norm_num
  omega

/-- The symbols of a block do not depend on what is left in the vectors. -/
theorem encodeSymbols_agree (x : List Int) (hx : IsBlock x) (bits : Nat) (wavmax : List Bool) (m m' : List Int × List Int) :
    encodeSymbols x bits wavmax m = encodeSymbols x bits wavmax m' := by
  obtain ⟨h1, h2⟩ := initMaxDescendants_agree x hx m m'
  unfold encodeSymbols
  rw [encPlanes_agree x _ _ h1 h2 bits _ (initLists_lis x hx)]

/-- The bytes of a block do not depend on the blocks before, and the encoder is ready for the next one. -/
theorem encodeEffect_agree (e : Encoder) (he : e.counters = resetCounters) (x : List Int) (hx : IsBlock x) (bits : Nat)
    (scalar : Rat) : (e.encodeEffect x bits scalar).map Prod.fst = (({} : Encoder).encodeEffect x bits scalar).map Prod.fst ∧
      ∀ r, e.encodeEffect x bits scalar = .ok r → r.2.counters = resetCounters := by
  unfold Encoder.encodeEffect
  split
  · refine ⟨rfl, fun r h => ?_⟩
    cases h; exact he
  · split
    · refine ⟨rfl, fun r h => ?_⟩
      cases h; exact he
    · rw [encodeSymbols_agree x hx bits (bitwavmax scalar) e.maxDescendants ([], [])]
      cases encodeSymbols x bits (bitwavmax scalar) ([], []) with
      | error _ => exact ⟨rfl, fun r h => by simp [bind, Except.bind] at h⟩
      | ok symbols =>
        simp only [bind, Except.bind, he]
        cases encode symbols resetCounters with
        | error _ => exact ⟨rfl, fun r h => by simp at h⟩
        | ok q =>
          refine ⟨rfl, fun r h => ?_⟩
          simp only [Except.ok.injEq] at h
          subst h; rfl

/-- A block is decoded alike, whatever has been decoded before. -/
theorem decodeEffect_agree (d : Decoder) (hd : d.counters = resetCounters) (bytes : List UInt8) (out : List Int)
    (length : Nat) : d.decodeEffect bytes out length = ({} : Decoder).decodeEffect bytes out length ∧
      ∀ r, d.decodeEffect bytes out length = .ok r → r.2.counters = resetCounters := by
  have hi : d.init (convert2bits bytes) = ({} : Decoder).init (convert2bits bytes) := by
    unfold Decoder.init
    simp only [hd]
  unfold Decoder.decodeEffect
  rw [hi]
  refine ⟨rfl, fun r h => ?_⟩
  split at h
  · simp at h
  · split at h
    · simp at h
    · cases h; rfl

end Haptics.Spiht
