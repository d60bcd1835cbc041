import Verif.Spiht.TreeLemmas
import Verif.Spiht.PropsArith

/-
The passes of the encoder and of the decoder keep step with each other.
-/
namespace Haptics.Spiht

/-! ### The decoder reads what the encoder has written -/

/-- Asked with a stream that begins with these symbols, the decoder part reads them, and returns `a`. -/
def Runs {α : Type} (p : Dec α) (symbols : List (Bool × Nat)) (a : α) : Prop :=
  ∀ d rest, Ready d (symbols ++ rest) → ∃ d', p d = .ok (a, d') ∧ Ready d' rest

theorem Runs.pure {α : Type} (a : α) : Runs (Pure.pure a : Dec α) [] a :=
  fun d _ h => ⟨d, rfl, h⟩

theorem Runs.bind {α β : Type} {p : Dec α} {f : α → Dec β} {l1 l2 : List (Bool × Nat)} {a : α} {b : β}
    (h1 : Runs p l1 a) (h2 : Runs (f a) l2 b) : Runs (p >>= f) (l1 ++ l2) b := by
  intro d rest h
  rw [List.append_assoc] at h
  obtain ⟨d1, e1, r1⟩ := h1 d _ h
  obtain ⟨d2, e2, r2⟩ := h2 d1 _ r1
  refine ⟨d2, ?_, r2⟩
  change (p d >>= fun r => f r.1 r.2) = _
  rw [e1]
  exact e2

theorem Runs.bit (symbol : Bool) (context : Nat) : Runs (getBit context) [(symbol, context)] symbol := by
  intro d rest h
  obtain ⟨d', h1, h2⟩ := h
  exact ⟨d', h1, h2⟩

theorem Runs.bit_bind {β : Type} {symbol : Bool} {context : Nat} {f : Bool → Dec β} {l : List (Bool × Nat)}
    {b : β} (h : Runs (f symbol) l b) : Runs (getBit context >>= f) ((symbol, context) :: l) b :=
  Runs.bind (Runs.bit symbol context) h

theorem Runs.store {β : Type} {out : List Int} {i : Nat} {v : Int} {f : List Int → Dec β}
    {l : List (Bool × Nat)} {b : β} (hi : i < out.length) (h : Runs (f (out.set i v)) l b) :
    Runs (store out i v >>= f) l b := by
  have : Haptics.Spiht.store out i v = Pure.pure (out.set i v) := by
    unfold Haptics.Spiht.store
    rw [if_pos hi]
  rw [this]
  exact Runs.bind (Runs.pure _) h

theorem Runs.pure_bind {α β : Type} {p : Dec α} {g : α → β} {l : List (Bool × Nat)} {a : α}
    (h : Runs p l a) : Runs (p >>= fun r => Pure.pure (g r)) l (g a) := by
  have := Runs.bind (f := fun r => Pure.pure (g r)) h (Runs.pure (g a))
  rw [List.append_nil] at this
  exact this

/-- Symbols with contexts the coder knows; all zero if `Q`. -/
def Fine (Q : Prop) (symbols : List (Bool × Nat)) : Prop :=
  ∀ b ∈ symbols, b.2 < CONTEXT_SIZE ∧ (Q → b.1 = false)

theorem Fine.nil {Q : Prop} : Fine Q [] := by intro b hb; simp at hb

theorem Fine.append {Q : Prop} {l1 l2 : List (Bool × Nat)} (h1 : Fine Q l1) (h2 : Fine Q l2) :
    Fine Q (l1 ++ l2) := by
  intro b hb
  rcases List.mem_append.mp hb with hb | hb
  · exact h1 b hb
  · exact h2 b hb

theorem Fine.cons {Q : Prop} {s : Bool} {c : Nat} {l : List (Bool × Nat)} (hc : c < CONTEXT_SIZE)
    (hs : Q → s = false) (h : Fine Q l) : Fine Q ((s, c) :: l) := by
  intro b hb
  rcases List.mem_cons.mp hb with rfl | hb
  · exact ⟨hc, hs⟩
  · exact h b hb

/-! ### The sorting pass -/

/-- The decoder's entry for a coefficient found with the threshold `c`. -/
def found (x : List Int) (c : Int) (i : Nat) : Int := if 0 ≤ x.getD i 0 then c else -c

/-- The decoder's block after some coefficients have been found. -/
def setAll (x : List Int) (c : Int) (new : List Nat) (out : List Int) : List Int :=
  new.foldl (fun out i => out.set i (found x c i)) out

theorem setAll_length (x : List Int) (c : Int) (new : List Nat) (out : List Int) :
    (setAll x c new out).length = out.length := by
  induction new generalizing out with
  | nil => rfl
  | cons i l ih => exact (ih _).trans (List.length_set ..)

theorem setAll_append (x : List Int) (c : Int) (a b : List Nat) (out : List Int) :
    setAll x c (a ++ b) out = setAll x c b (setAll x c a out) := List.foldl_append ..

theorem setAll_getD (x : List Int) (c : Int) (new : List Nat) (out : List Int)
    (i : Nat) (hi : i < out.length) :
    (setAll x c new out).getD i 0 = if i ∈ new then found x c i else out.getD i 0 := by
  induction new generalizing out with
  | nil => rfl
  | cons j l ih =>
    change (setAll x c l _).getD i 0 = _
    rw [ih _ (by rw [List.length_set]; exact hi)]
    by_cases hj : j = i
    · subst hj
      rw [getD_set_self hi]
      simp
    · rw [getD_set_ne hj]
      have : i ≠ j := fun h => hj h.symm
      simp [this]

theorem natAbs_getD {x : List Int} {i : Nat} {v : Int} (h : x[i]? = some v) :
    (v.natAbs : Int) = magnitude x i ∧ x.getD i 0 = v := by
  unfold magnitude
  rw [List.getD_eq_getElem?_getD, h]
  exact ⟨rfl, rfl⟩

theorem lip_spec (x : List Int) (c : Int) (hc : 1 ≤ c) (Q : Prop) (hQ : Q → ∀ i, magnitude x i ≤ 0) :
    ∀ l : List Nat, (∀ i ∈ l, i < x.length) →
    ∃ symbols lip new, encLip x c l = .ok (symbols, lip, new) ∧ Fine Q symbols ∧
      (∀ j, l.count j = lip.count j + new.count j) ∧
      (∀ i ∈ lip, magnitude x i < c) ∧ (∀ i ∈ new, c ≤ magnitude x i) ∧
      ∀ out, out.length = x.length → Runs (decLip c l out) symbols (setAll x c new out, lip, new) := by
  intro l
  induction l with
  | nil =>
    intro _
    exact ⟨[], [], [], rfl, Fine.nil, by simp, by simp, by simp, fun out _ => Runs.pure _⟩
  | cons i l ih =>
    intro hl
    obtain ⟨symbols, lip, new, e1, e2, e3, e4, e5, e6⟩ := ih (fun j hj => hl j (by simp [hj]))
    have hi : i < x.length := hl i (by simp)
    have hv : x[i]? = some x[i] := List.getElem?_eq_getElem hi
    obtain ⟨hm, hg⟩ := natAbs_getD hv
    unfold encLip
    rw [hv]
    simp only [e1, hm]
    by_cases hcmp : magnitude x i ≥ c
    · refine ⟨(true, 2) :: (decide (x[i] ≥ 0), 1) :: symbols, lip, i :: new, ?_, ?_, ?_, e4, ?_, ?_⟩
      · change (if _ then _ else _) = _
        rw [if_pos hcmp]
      · have hno : ¬ Q := fun h => by have := hQ h i; omega
        exact Fine.cons (by decide) (fun h => absurd h hno) (Fine.cons (by decide) (fun h => absurd h hno) e2)
      · intro j
        simp only [List.count_cons, e3 j]
        omega
      · intro j hj
        rcases List.mem_cons.mp hj with rfl | hj
        · exact hcmp
        · exact e5 j hj
      · intro out hout
        unfold decLip
        refine Runs.bit_bind ?_
        simp only [if_true]
        refine Runs.bit_bind ?_
        refine Runs.store (by omega) ?_
        have := e6 (out.set i (found x c i)) (by rw [List.length_set]; exact hout)
        have hf : (if decide (x[i] ≥ 0) = true then c else -c) = found x c i := by
          unfold found
          rw [hg]
          simp
        rw [hf]
        exact Runs.pure_bind (g := fun r => (r.1, r.2.1, i :: r.2.2)) this
    · refine ⟨(false, 2) :: symbols, i :: lip, new, ?_, ?_, ?_, ?_, e5, ?_⟩
      · change (if _ then _ else _) = _
        rw [if_neg hcmp]
      · exact Fine.cons (by decide) (fun _ => rfl) e2
      · intro j
        simp only [List.count_cons, e3 j]
        omega
      · intro j hj
        rcases List.mem_cons.mp hj with rfl | hj
        · omega
        · exact e4 j hj
      · intro out hout
        unfold decLip
        refine Runs.bit_bind ?_
        simp only [Bool.false_eq_true, if_false]
        exact Runs.pure_bind (g := fun r => (r.1, i :: r.2.1, r.2.2)) (e6 out hout)

theorem child_spec (x : List Int) (c : Int) (hc : 1 ≤ c) (Q : Prop) (hQ : Q → ∀ i, magnitude x i ≤ 0)
    (i : Nat) (hi : i < x.length) :
    ∃ symbols lip new, encChild x c i = .ok (symbols, lip, new) ∧ Fine Q symbols ∧
      (∀ j, [i].count j = lip.count j + new.count j) ∧
      (∀ i ∈ lip, magnitude x i < c) ∧ (∀ i ∈ new, c ≤ magnitude x i) ∧
      ∀ out, out.length = x.length → Runs (decChild c i out) symbols (setAll x c new out, lip, new) := by
  have hv : x[i]? = some x[i] := List.getElem?_eq_getElem hi
  obtain ⟨hm, hg⟩ := natAbs_getD hv
  unfold encChild
  rw [hv]
  simp only [hm]
  by_cases hcmp : magnitude x i ≥ c
  · rw [if_pos hcmp]
    refine ⟨_, _, _, rfl, ?_, by simp, by simp, by simpa using hcmp, ?_⟩
    · have hno : ¬ Q := fun h => by have := hQ h i; omega
      exact Fine.cons (by decide) (fun h => absurd h hno)
        (Fine.cons (by decide) (fun h => absurd h hno) Fine.nil)
    · intro out hout
      unfold decChild
      refine Runs.bit_bind ?_
      simp only [if_true]
      refine Runs.bit_bind ?_
      refine Runs.store (by omega) ?_
      have hf : (if decide (x[i] ≥ 0) = true then c else -c) = found x c i := by
        unfold found
        rw [hg]
        simp
      rw [hf]
      exact Runs.pure _
  · rw [if_neg hcmp]
    refine ⟨_, _, _, rfl, Fine.cons (by decide) (fun _ => rfl) Fine.nil, by simp, ?_, by simp, ?_⟩
    · intro j hj
      rw [List.mem_singleton] at hj
      subst hj
      omega
    · intro out hout
      unfold decChild
      refine Runs.bit_bind ?_
      simp only [Bool.false_eq_true, if_false]
      exact Runs.pure _

/-- The coefficients an entry of `LIS` stands for. -/
def desc (length : Nat) (e : Nat × Bool) : List Nat :=
  if e.2 then below length (2 * e.1) ++ below length (2 * e.1 + 1) else below length e.1

/-- Bounds the number of visits an entry of `LIS` can lead to. -/
def weight (length : Nat) (e : Nat × Bool) : Nat :=
  if e.2 then 4 ^ (length - e.1) else 2 * 4 ^ (length - e.1)

def weights (length : Nat) (l : List (Nat × Bool)) : Nat := (l.map (weight length)).sum

theorem weights_append (length : Nat) (a b : List (Nat × Bool)) :
    weights length (a ++ b) = weights length a + weights length b := by
  unfold weights; rw [List.map_append, List.sum_append]

theorem weights_cons (length : Nat) (e : Nat × Bool) (l : List (Nat × Bool)) :
    weights length (e :: l) = weight length e + weights length l := rfl

theorem weight_pos (length : Nat) (e : Nat × Bool) : 1 ≤ weight length e := by
  unfold weight
  have : 0 < 4 ^ (length - e.1) := by positivity
  split <;> omega

theorem weight_children {length y : Nat} (h : 4 ≤ y) (h2 : 2 * y + 1 < length) :
    1 + weights length [(2 * y, false), (2 * y + 1, false)] ≤ weight length (y, true) := by
  simp only [weights, weight, List.map_cons, List.map_nil, List.sum_cons, List.sum_nil,
    Bool.false_eq_true, if_false, if_true]
  have e1 : length - y = (length - (2 * y + 1)) + (y - 3) + 4 := by omega
  have e2 : length - 2 * y = (length - (2 * y + 1)) + 1 := by omega
  rw [e1, e2, pow_add, pow_add, pow_add]
  have : 0 < 4 ^ (length - (2 * y + 1)) := by positivity
  have h3 : 1 ≤ 4 ^ (y - 3) := Nat.one_le_pow _ _ (by norm_num)
  nlinarith [Nat.mul_le_mul_left (4 ^ (length - (2 * y + 1))) h3]

/-- What an entry of `LIS` satisfies: it is below the first eight, and type B has grandchildren. -/
def EntryOk (length : Nat) (e : Nat × Bool) : Prop := 4 ≤ e.1 ∧ (e.2 = true → 4 * e.1 + 3 < length)

theorem lis_spec (x : List Int) (k : Nat) (hx : x.length = 4 * 2 ^ k) (hk : 1 ≤ k)
    (m : List Int × List Int) (hml : m.1.length = 2 * 2 ^ k)
    (hm : ∀ t, 2 ≤ t → t < 2 * 2 ^ k → Bound x m t) (c : Int) (hc : 1 ≤ c)
    (Q : Prop) (hQ : Q → ∀ i, magnitude x i ≤ 0)
    (hQm : Q → ∀ j, m.1.getD j 0 ≤ 0 ∧ m.2.getD j 0 ≤ 0) :
    ∀ (fuel : Nat) (todo kept : List (Nat × Bool)) (lip lsp : List Nat),
    weights x.length todo < fuel →
    (∀ i, lsp.count i + lip.count i + ((kept ++ todo).flatMap (desc x.length)).count i
      = if i < x.length then 1 else 0) →
    (∀ e ∈ kept ++ todo, EntryOk x.length e) →
    (∀ e ∈ kept, ∀ i ∈ desc x.length e, magnitude x i < c) →
    (∀ i ∈ lip, magnitude x i < c) →
    ∃ symbols s new, encLis x m c fuel todo kept lip lsp = .ok (symbols, s) ∧ Fine Q symbols ∧
      s.lsp = lsp ++ new ∧
      (∀ i, s.lsp.count i + s.lip.count i + (s.lis.flatMap (desc x.length)).count i
        = if i < x.length then 1 else 0) ∧
      (∀ e ∈ s.lis, EntryOk x.length e) ∧
      (∀ e ∈ s.lis, ∀ i ∈ desc x.length e, magnitude x i < c) ∧
      (∀ i ∈ s.lip, magnitude x i < c) ∧ (∀ i ∈ new, c ≤ magnitude x i) ∧
      weights x.length s.lis ≤ weights x.length kept + weights x.length todo ∧
      ∀ out, out.length = x.length →
        Runs (decLis x.length c fuel todo kept lip lsp out) symbols (setAll x c new out, s) := by
  intro fuel
  induction fuel with
  | zero => intro todo kept lip lsp h; omega
  | succ fuel ih =>
    intro todo kept lip lsp hf hcov he hkept hlip
    have hpow : 2 ≤ 2 ^ k := by
      calc 2 = 2 ^ 1 := rfl
        _ ≤ 2 ^ k := Nat.pow_le_pow_right (by norm_num) hk
    cases todo with
    | nil =>
      rw [List.append_nil] at hcov he
      exact ⟨[], ⟨lip, kept, lsp⟩, [], rfl, Fine.nil, (List.append_nil _).symm, hcov, he, hkept, hlip,
        by simp, by simp [weights], fun out _ => Runs.pure _⟩
    | cons e todo =>
      obtain ⟨y, b⟩ := e
      have heok := he (y, b) (by simp)
      rw [weights_cons] at hf
      have hw := weight_pos x.length (y, b)
      -- an entry that stays
      have stay : ∀ (s0 : Nat) (hs0 : s0 < CONTEXT_SIZE), (∀ i ∈ desc x.length (y, b), magnitude x i < c) →
          ∃ symbols s new, encLis x m c fuel todo (kept ++ [(y, b)]) lip lsp = .ok (symbols, s) ∧
            Fine Q ((false, s0) :: symbols) ∧ s.lsp = lsp ++ new ∧
            (∀ i, s.lsp.count i + s.lip.count i + (s.lis.flatMap (desc x.length)).count i
              = if i < x.length then 1 else 0) ∧
            (∀ e ∈ s.lis, EntryOk x.length e) ∧
            (∀ e ∈ s.lis, ∀ i ∈ desc x.length e, magnitude x i < c) ∧
            (∀ i ∈ s.lip, magnitude x i < c) ∧ (∀ i ∈ new, c ≤ magnitude x i) ∧
            weights x.length s.lis ≤ weights x.length kept + weights x.length ((y, b) :: todo) ∧
            ∀ out, out.length = x.length →
              Runs (decLis x.length c fuel todo (kept ++ [(y, b)]) lip lsp out) symbols
                (setAll x c new out, s) := by
        intro s0 hs0 hins
        obtain ⟨symbols, s, new, r1, r2, r3, r4, r5, r6, r7, r8, r9, r10⟩ := ih todo (kept ++ [(y, b)]) lip lsp
          (by omega) (by rw [List.append_assoc]; exact hcov) (by rw [List.append_assoc]; exact he)
          (by
            intro e' he' i hi
            rcases List.mem_append.mp he' with he' | he'
            · exact hkept e' he' i hi
            · rw [List.mem_singleton] at he'
              subst he'
              exact hins i hi) hlip
        refine ⟨symbols, s, new, r1, Fine.cons hs0 (fun _ => rfl) r2, r3, r4, r5, r6, r7, r8, ?_, r10⟩
        rw [weights_append] at r9
        rw [weights_cons]
        simp only [weights, List.map_cons, List.map_nil, List.sum_cons, List.sum_nil] at r9 ⊢
        omega
      cases b with
      | false =>
        unfold encLis
        by_cases hs : maxDescendant m y false ≥ c
        · -- found: children, then type B
          rw [if_pos hs]
          have hs' : m.1.getD y 0 ≥ c := hs
          have hno : ¬ Q := fun h => by have := (hQm h y).1; omega
          have hy : y < 2 * 2 ^ k := by
            by_contra hge
            rw [List.getD_eq_getElem?_getD, List.getElem?_eq_none (by omega)] at hs'
            simp only [Option.getD_none] at hs'
            omega
          have hy4 : 4 ≤ y := heok.1
          obtain ⟨sa, la, na, a1, a2, a3, a4, a5, a6⟩ := child_spec x c hc Q hQ (2 * y) (by omega)
          obtain ⟨sb, lb, nb, b1, b2, b3, b4, b5, b6⟩ := child_spec x c hc Q hQ (2 * y + 1) (by omega)
          have hbelow : ∀ i, (below x.length y).count i
              = (la.count i + na.count i) + (lb.count i + nb.count i) +
                (List.flatMap (desc x.length) (if 4 * y + 3 < x.length then [(y, true)] else [])).count i := by
            intro i
            rw [below_pos (by omega) (by omega), ← a3, ← b3]
            by_cases h4 : 4 * y + 3 < x.length
            · rw [if_pos h4]
              simp only [List.flatMap_cons, List.flatMap_nil, desc, if_true, List.append_nil,
                List.count_append, List.count_cons, List.count_nil]
              omega
            · rw [if_neg h4, below_neg (y := 2 * y) (by omega), below_neg (y := 2 * y + 1) (by omega)]
              simp only [List.flatMap_nil, List.append_nil, List.count_cons, List.count_nil]
              omega
          have hwt : weights x.length (if 4 * y + 3 < x.length then [(y, true)] else []) + 1
              ≤ weight x.length (y, false) := by
            have : 0 < 4 ^ (x.length - y) := by positivity
            split <;> simp [weights, weight] <;> omega
          obtain ⟨symbols, s, new, r1, r2, r3, r4, r5, r6, r7, r8, r9, r10⟩ := ih
            (todo ++ if 4 * y + 3 < x.length then [(y, true)] else []) kept (lip ++ la ++ lb) (lsp ++ na ++ nb)
            (by rw [weights_append]; omega)
            (by
              intro i
              have h1 := hcov i
              have h2 := hbelow i
              simp only [List.flatMap_append, List.flatMap_cons, List.count_append] at h1 h2 ⊢
              simp only [desc, Bool.false_eq_true, if_false] at h1 h2 ⊢
              omega)
            (by
              intro e' he'
              simp only [List.mem_append] at he'
              rcases he' with he' | he' | he'
              · exact he e' (by simp [he'])
              · exact he e' (by simp [he'])
              · split at he'
                · rw [List.mem_singleton] at he'
                  subst he'
                  exact ⟨hy4, fun _ => by assumption⟩
                · simp at he')
            hkept
            (by
              intro i hi
              simp only [List.mem_append] at hi
              rcases hi with (hi | hi) | hi
              · exact hlip i hi
              · exact a4 i hi
              · exact b4 i hi)
          refine ⟨(true, 3) :: (sa ++ sb ++ symbols), s, na ++ nb ++ new, ?_, ?_, ?_, r4, r5, r6, r7, ?_, ?_, ?_⟩
          · simp only [a1, b1, bind, Except.bind, r1]
          · exact Fine.cons (by decide) (fun h => absurd h hno) ((a2.append b2).append r2)
          · rw [r3]; simp [List.append_assoc]
          · intro i hi
            simp only [List.mem_append] at hi
            rcases hi with (hi | hi) | hi
            · exact a5 i hi
            · exact b5 i hi
            · exact r8 i hi
          · rw [weights_append] at r9
            rw [weights_cons]
            omega
          · intro out hout
            unfold decLis
            refine Runs.bit_bind ?_
            simp only [if_true]
            rw [List.append_assoc]
            refine Runs.bind (a6 out hout) ?_
            refine Runs.bind (b6 _ (by rw [setAll_length]; exact hout)) ?_
            rw [setAll_append, setAll_append]
            exact r10 _ (by rw [setAll_length, setAll_length]; exact hout)
        · rw [if_neg hs]
          have hs' : ¬ m.1.getD y 0 ≥ c := hs
          obtain ⟨symbols, s, new, r1, r2, r3, r4, r5, r6, r7, r8, r9, r10⟩ := stay 3 (by decide) (by
            intro i hi
            have := max_below x k hx m hm y (by have := heok.1; simp only at this; omega)
              (by have := heok.1; simp only at this; omega) i hi
            omega)
          refine ⟨(false, 3) :: symbols, s, new, ?_, r2, r3, r4, r5, r6, r7, r8, r9, ?_⟩
          · simp only [bind, Except.bind, r1]
          · intro out hout
            unfold decLis
            refine Runs.bit_bind ?_
            simp only [Bool.false_eq_true, if_false]
            exact r10 out hout
      | true =>
        unfold encLis
        have hy4 : 4 ≤ y := heok.1
        have hy3 : 4 * y + 3 < x.length := heok.2 rfl
        by_cases hs : maxDescendant m y true ≥ c
        · rw [if_pos hs]
          have hs' : m.2.getD y 0 ≥ c := hs
          have hno : ¬ Q := fun h => by have := (hQm h y).2; omega
          have hwt := weight_children (length := x.length) hy4 (by omega)
          obtain ⟨symbols, s, new, r1, r2, r3, r4, r5, r6, r7, r8, r9, r10⟩ := ih
            (todo ++ [(2 * y, false), (2 * y + 1, false)]) kept lip lsp
            (by rw [weights_append]; omega)
            (by
              intro i
              have h1 := hcov i
              simp only [List.flatMap_append, List.flatMap_cons, List.flatMap_nil, List.count_append,
                List.append_nil] at h1 ⊢
              simp only [desc, Bool.false_eq_true, if_false, if_true, List.count_append] at h1 ⊢
              omega)
            (by
              intro e' he'
              simp only [List.mem_append, List.mem_cons, List.not_mem_nil, or_false] at he'
              rcases he' with he' | he' | he'
              · exact he e' (by simp [he'])
              · exact he e' (by simp [he'])
              · rcases he' with rfl | rfl
                · exact ⟨by simp only; omega, by simp⟩
                · exact ⟨by simp only; omega, by simp⟩)
            hkept hlip
          refine ⟨(true, 5) :: symbols, s, new, ?_, Fine.cons (by decide) (fun h => absurd h hno) r2,
            r3, r4, r5, r6, r7, r8, ?_, ?_⟩
          · simp only [bind, Except.bind, r1]
          · rw [weights_append] at r9
            rw [weights_cons]
            omega
          · intro out hout
            unfold decLis
            refine Runs.bit_bind ?_
            simp only [if_true]
            exact r10 out hout
        · rw [if_neg hs]
          have hs' : ¬ m.2.getD y 0 ≥ c := hs
          obtain ⟨symbols, s, new, r1, r2, r3, r4, r5, r6, r7, r8, r9, r10⟩ := stay 5 (by decide) (by
            intro i hi
            have := max_below1 x k hx m hm y (by omega) i hi
            omega)
          refine ⟨(false, 5) :: symbols, s, new, ?_, r2, r3, r4, r5, r6, r7, r8, r9, ?_⟩
          · simp only [bind, Except.bind, r1]
          · intro out hout
            unfold decLis
            refine Runs.bit_bind ?_
            simp only [Bool.false_eq_true, if_false]
            exact r10 out hout

end Haptics.Spiht
