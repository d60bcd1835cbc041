import Verif.Spiht.PassLemmas

/-
Bit planes: after the plane `n` the decoder knows every coefficient up to a multiple of `2 ^ n`.
-/
namespace Haptics.Spiht

/-- A coefficient without its lowest `n` bits. -/
def coarse (n : Nat) (v : Int) : Int := v.tdiv (2 ^ n) * 2 ^ n

theorem coarse_nat (n a : Nat) : coarse n a = ((a / 2 ^ n * 2 ^ n : Nat) : Int) := by
  unfold coarse
  rw [show ((2 : Int) ^ n) = ((2 ^ n : Nat) : Int) by push_cast; rfl, ← Int.ofNat_tdiv]
  push_cast; rfl

theorem coarse_neg (n : Nat) (v : Int) : coarse n (-v) = -coarse n v := by
  unfold coarse; rw [Int.neg_tdiv]; ring

theorem coarse_zero (v : Int) : coarse 0 v = v := by unfold coarse; simp

theorem coarse_small {n : Nat} {v : Int} (h : (v.natAbs : Int) < 2 ^ n) : coarse n v = 0 := by
  obtain ⟨a, rfl | rfl⟩ := v.eq_nat_or_neg
  · rw [Int.natAbs_natCast] at h
    rw [coarse_nat, Nat.div_eq_of_lt (by exact_mod_cast h)]; simp
  · rw [Int.natAbs_neg, Int.natAbs_natCast] at h
    rw [coarse_neg, coarse_nat, Nat.div_eq_of_lt (by exact_mod_cast h)]; simp

theorem coarse_found {n : Nat} {v : Int} (h1 : 2 ^ n ≤ (v.natAbs : Int)) (h2 : (v.natAbs : Int) < 2 ^ (n + 1)) :
    coarse n v = if 0 ≤ v then 2 ^ n else -2 ^ n := by
  have key : ∀ a : Nat, 2 ^ n ≤ (a : Int) → (a : Int) < 2 ^ (n + 1) → coarse n a = 2 ^ n := by
    intro a ha hb
    have ha : 2 ^ n ≤ a := by exact_mod_cast ha
    have hb : a < 2 ^ (n + 1) := by exact_mod_cast hb
    rw [pow_succ] at hb
    have : a / 2 ^ n = 1 := Nat.div_eq_of_lt_le (by omega) (by omega)
    rw [coarse_nat, this]
    push_cast; ring
  have hpos : (0 : Int) < 2 ^ n := by positivity
  obtain ⟨a, rfl | rfl⟩ := v.eq_nat_or_neg
  · rw [Int.natAbs_natCast] at h1 h2
    rw [key a h1 h2, if_pos (by omega)]
  · rw [Int.natAbs_neg, Int.natAbs_natCast] at h1 h2
    rw [coarse_neg, key a h1 h2, if_neg (by omega)]

theorem coarse_refine {n : Nat} {v : Int} (h : 2 ^ (n + 1) ≤ (v.natAbs : Int)) :
    (if v.natAbs.testBit n then coarse (n + 1) v + (coarse (n + 1) v).sign * 2 ^ n else coarse (n + 1) v)
      = coarse n v := by
  have key : ∀ a : Nat, 2 ^ (n + 1) ≤ a →
      0 < coarse (n + 1) (a : Int) ∧
      coarse n (a : Int) = coarse (n + 1) (a : Int) + (if a.testBit n then 2 ^ n else 0) := by
    intro a ha
    have hq : a / 2 ^ (n + 1) = a / 2 ^ n / 2 := by rw [pow_succ, Nat.div_div_eq_div_mul]
    have hq1 : 1 ≤ a / 2 ^ (n + 1) := (Nat.one_le_div_iff (by positivity)).mpr ha
    constructor
    · rw [coarse_nat]
      have : 0 < a / 2 ^ (n + 1) * 2 ^ (n + 1) := by positivity
      exact_mod_cast this
    · rw [coarse_nat, coarse_nat, hq, pow_succ]
      have ht : a.testBit n = decide (a / 2 ^ n % 2 = 1) := by
        rw [Nat.testBit_eq_decide_div_mod_eq]
      rw [ht]
      generalize a / 2 ^ n = q
      have hs : q = 2 * (q / 2) + q % 2 := by omega
      by_cases h1 : q % 2 = 1
      · simp only [h1, decide_true, if_true]
        have : q * 2 ^ n = q / 2 * (2 ^ n * 2) + 2 ^ n := by
          conv_lhs => rw [hs, h1]
          ring
        rw [this]
        push_cast; ring
      · have h0 : q % 2 = 0 := by omega
        simp only [h0, decide_false, Bool.false_eq_true, if_false, add_zero,
          show ¬ ((0 : Nat) = 1) by omega]
        have : q * 2 ^ n = q / 2 * (2 ^ n * 2) := by
          conv_lhs => rw [hs, h0]
          ring
        rw [this]
  obtain ⟨a, rfl | rfl⟩ := v.eq_nat_or_neg
  · rw [Int.natAbs_natCast] at h ⊢
    obtain ⟨k1, k2⟩ := key a (by exact_mod_cast h)
    rw [k2, Int.sign_eq_one_of_pos k1]
    split <;> ring
  · rw [Int.natAbs_neg, Int.natAbs_natCast] at h ⊢
    obtain ⟨k1, k2⟩ := key a (by exact_mod_cast h)
    rw [coarse_neg, coarse_neg, k2, Int.sign_neg, Int.sign_eq_one_of_pos k1]
    split <;> ring

/-! ### The refinement pass -/

/-- The decoder's entry after refinement. -/
def refined (x : List Int) (n : Nat) (i : Nat) (v : Int) : Int :=
  if (x.getD i 0).natAbs.testBit n then v + v.sign * 2 ^ n else v

theorem refine_spec (x : List Int) (n : Nat) (Q : Prop) (hQ : Q → ∀ i, magnitude x i ≤ 0) :
    ∀ l : List Nat, (∀ i ∈ l, i < x.length) → l.Nodup →
    ∃ symbols, encRefine x n l = .ok symbols ∧ Fine Q symbols ∧
      ∀ out, out.length = x.length → ∃ out', Runs (decRefine (2 ^ n) l out) symbols out' ∧
        out'.length = x.length ∧
        ∀ i, out'.getD i 0 = if i ∈ l then refined x n i (out.getD i 0) else out.getD i 0 := by
  intro l
  induction l with
  | nil => exact fun _ _ => ⟨[], rfl, Fine.nil, fun out h => ⟨out, Runs.pure _, h, fun i => by simp⟩⟩
  | cons i l ih =>
    intro hl hn
    obtain ⟨symbols, e1, e2, e3⟩ := ih (fun j hj => hl j (by simp [hj])) (List.nodup_cons.mp hn).2
    have hni : i ∉ l := (List.nodup_cons.mp hn).1
    have hi : i < x.length := hl i (by simp)
    have hv : x[i]? = some x[i] := List.getElem?_eq_getElem hi
    obtain ⟨hm, hg⟩ := natAbs_getD hv
    refine ⟨(x[i].natAbs.testBit n, 6) :: symbols, ?_, ?_, ?_⟩
    · unfold encRefine
      rw [hv]
      simp only [e1, bind, Except.bind]
    · refine Fine.cons (by decide) (fun h => ?_) e2
      have := hQ h i
      have h0 : x[i].natAbs = 0 := by omega
      rw [h0]
      exact Nat.zero_testBit n
    · intro out hout
      have ho : out[i]? = some (out.getD i 0) := by
        rw [List.getD_eq_getElem?_getD, List.getElem?_eq_getElem (by omega)]; rfl
      by_cases hb : x[i].natAbs.testBit n = true
      · obtain ⟨out', f1, f2, f3⟩ := e3 (out.set i (out.getD i 0 + (out.getD i 0).sign * 2 ^ n))
          (by rw [List.length_set]; exact hout)
        refine ⟨out', ?_, f2, fun j => ?_⟩
        · unfold decRefine
          rw [hb]
          refine Runs.bit_bind ?_
          simp only [if_true, ho]
          exact f1
        · rw [f3]
          by_cases hj : j = i
          · subst hj
            rw [if_neg hni, getD_set_self (by omega)]
            unfold refined
            rw [hg, if_pos hb]
            simp
          · rw [getD_set_ne (fun h => hj h.symm)]
            simp [hj]
      · obtain ⟨out', f1, f2, f3⟩ := e3 out hout
        refine ⟨out', ?_, f2, fun j => ?_⟩
        · unfold decRefine
          rw [Bool.not_eq_true] at hb
          rw [hb]
          refine Runs.bit_bind ?_
          simp only [Bool.false_eq_true, if_false]
          exact f1
        · rw [f3]
          by_cases hj : j = i
          · subst hj
            unfold refined
            rw [hg, if_neg hb]
            simp
          · simp [hj]

/-! ### Planes -/

/-- The lists before the plane `n - 1`, or after the plane `n`: every coefficient is in one place, and those
in `LSP` reach `2 ^ n`. -/
structure ListsOk (x : List Int) (n : Nat) (s : Lists) : Prop where
  once : ∀ i, s.lsp.count i + s.lip.count i + (s.lis.flatMap (desc x.length)).count i
    = if i < x.length then 1 else 0
  entries : ∀ e ∈ s.lis, EntryOk x.length e
  fuel : weights x.length s.lis < lisFuel x.length
  large : ∀ i ∈ s.lsp, 2 ^ n ≤ magnitude x i

/-- The other coefficients do not reach `2 ^ n`. -/
structure OthersSmall (x : List Int) (n : Nat) (s : Lists) : Prop where
  small : ∀ i ∈ s.lip, magnitude x i < 2 ^ n
  smallTree : ∀ e ∈ s.lis, ∀ i ∈ desc x.length e, magnitude x i < 2 ^ n

/-- The decoder's block after the plane `n`. -/
def OutOk (x : List Int) (n : Nat) (out : List Int) : Prop :=
  out.length = x.length ∧ ∀ i, i < x.length → out.getD i 0 = coarse n (x.getD i 0)

theorem pass_spec (x : List Int) (k : Nat) (hx : x.length = 4 * 2 ^ k) (hk : 1 ≤ k)
    (m : List Int × List Int) (hml : m.1.length = 2 * 2 ^ k)
    (hm : ∀ t, 2 ≤ t → t < 2 * 2 ^ k → Bound x m t)
    (Q : Prop) (hQ : Q → ∀ i, magnitude x i ≤ 0)
    (hQm : Q → ∀ j, m.1.getD j 0 ≤ 0 ∧ m.2.getD j 0 ≤ 0) (n : Nat) (s : Lists)
    (hs : ListsOk x (n + 1) s) :
    ∃ symbols s', encPass x m n s = .ok (symbols, s') ∧ Fine Q symbols ∧ ListsOk x n s' ∧
      OthersSmall x n s' ∧ (OthersSmall x (n + 1) s →
      ∀ out, OutOk x (n + 1) out → ∃ out', OutOk x n out' ∧
        Runs (decPass x.length n s out) symbols (out', s')) := by
  obtain ⟨h1, h2, h3, h4⟩ := hs
  have hc : (1 : Int) ≤ 2 ^ n := one_le_pow₀ (by norm_num)
  have inRange : ∀ i, 0 < s.lsp.count i + s.lip.count i → i < x.length := by
    intro i hi
    by_contra hcon
    have := h1 i
    rw [if_neg hcon] at this
    omega
  obtain ⟨sa, la, na, a1, a2, a3, a4, a5, a6⟩ := lip_spec x (2 ^ n) hc Q hQ s.lip
    (fun i hi => inRange i (by have := List.count_pos_iff.mpr hi; omega))
  obtain ⟨sb, s', nb, b1, b2, b3, b4, b5, b6, b7, b8, b9, b10⟩ := lis_spec x k hx hk m hml hm (2 ^ n) hc Q hQ hQm
    (lisFuel x.length) s.lis [] la (s.lsp ++ na) h3
    (by
      intro i
      have := h1 i
      have := a3 i
      rw [List.count_append, List.nil_append]
      omega)
    (by rw [List.nil_append]; exact h2) (by simp) a4
  have htake : s'.lsp.take s.lsp.length = s.lsp := by
    rw [b3, List.append_assoc, List.take_left]
  have hnodup : s.lsp.Nodup := by
    apply List.nodup_iff_count.mpr
    intro i
    have := h1 i
    split at this <;> omega
  obtain ⟨sc, c1, c2, c3⟩ := refine_spec x n Q hQ s.lsp
    (fun i hi => inRange i (by have := List.count_pos_iff.mpr hi; omega)) hnodup
  refine ⟨sa ++ sb ++ sc, s', ?_, (a2.append b2).append c2, ?_, ⟨b7, b6⟩, ?_⟩
  · unfold encPass
    simp only [a1, b1, bind, Except.bind, htake, c1]
  · refine ⟨b4, b5, ?_, ?_⟩
    · simp only [weights, List.map_nil, List.sum_nil, zero_add] at b9 h3 ⊢
      omega
    · intro i hi
      rw [b3] at hi
      simp only [List.mem_append] at hi
      rcases hi with (hi | hi) | hi
      · exact le_trans (pow_le_pow_right₀ (by norm_num) (by omega)) (h4 i hi)
      · exact a5 i hi
      · exact b8 i hi
  · rintro ⟨h5, h6⟩ out ⟨o1, o2⟩
    obtain ⟨out', f1, f2, f3⟩ := c3 (setAll x (2 ^ n) nb (setAll x (2 ^ n) na out))
      (by rw [setAll_length, setAll_length]; exact o1)
    refine ⟨out', ⟨f2, fun i hi => ?_⟩, ?_⟩
    · rw [f3, setAll_getD _ _ _ _ _ (by rw [setAll_length]; omega), setAll_getD _ _ _ _ _ (by omega)]
      have hcount := h1 i
      have hcount' := b4 i
      rw [if_pos hi] at hcount hcount'
      rw [b3, List.count_append, List.count_append] at hcount'
      by_cases hold : i ∈ s.lsp
      · -- known before
        have := List.count_pos_iff.mpr hold
        have hna : i ∉ na := by rw [← List.count_eq_zero]; omega
        have hnb : i ∉ nb := by rw [← List.count_eq_zero]; omega
        rw [if_pos hold, if_neg hnb, if_neg hna, o2 i hi]
        exact coarse_refine (h4 i hold)
      · rw [if_neg hold]
        rw [← List.count_eq_zero] at hold
        have hsmall : magnitude x i < 2 ^ (n + 1) := by
          by_cases hl : i ∈ s.lip
          · exact h5 i hl
          · rw [← List.count_eq_zero] at hl
            have : i ∈ s.lis.flatMap (desc x.length) := by rw [← List.count_pos_iff]; omega
            obtain ⟨e, he, hie⟩ := List.mem_flatMap.mp this
            exact h6 e he i hie
        by_cases hnew : i ∈ na ∨ i ∈ nb
        · -- found now
          have hlarge : 2 ^ n ≤ magnitude x i := hnew.elim (a5 i) (b8 i)
          have : (if i ∈ nb then found x (2 ^ n) i else if i ∈ na then found x (2 ^ n) i else out.getD i 0)
              = found x (2 ^ n) i := by
            split
            · rfl
            · rw [if_pos (by tauto)]
          rw [this]
          exact (coarse_found hlarge hsmall).symm
        · -- not yet
          rw [not_or] at hnew
          rw [if_neg hnew.2, if_neg hnew.1, o2 i hi, coarse_small hsmall]
          obtain ⟨hna, hnb⟩ := hnew
          rw [← List.count_eq_zero] at hna hnb
          rw [coarse_small]
          change magnitude x i < 2 ^ n
          by_cases hl : i ∈ s'.lip
          · exact b7 i hl
          · rw [← List.count_eq_zero] at hl
            have : i ∈ s'.lis.flatMap (desc x.length) := by rw [← List.count_pos_iff]; omega
            obtain ⟨e, he, hie⟩ := List.mem_flatMap.mp this
            exact b6 e he i hie
    · unfold decPass
      rw [List.append_assoc]
      refine Runs.bind (a6 out o1) ?_
      refine Runs.bind (b10 _ (by rw [setAll_length]; exact o1)) ?_
      simp only [htake]
      exact Runs.pure_bind (g := fun o => (o, s')) f1

theorem planes_spec (x : List Int) (k : Nat) (hx : x.length = 4 * 2 ^ k) (hk : 1 ≤ k)
    (m : List Int × List Int) (hml : m.1.length = 2 * 2 ^ k)
    (hm : ∀ t, 2 ≤ t → t < 2 * 2 ^ k → Bound x m t)
    (Q : Prop) (hQ : Q → ∀ i, magnitude x i ≤ 0)
    (hQm : Q → ∀ j, m.1.getD j 0 ≤ 0 ∧ m.2.getD j 0 ≤ 0) :
    ∀ (n : Nat) (s : Lists), ListsOk x (n + 1) s →
    ∃ symbols, encPlanes x m n s = .ok symbols ∧ Fine Q symbols ∧
      (OthersSmall x (n + 1) s →
        ∀ out, OutOk x (n + 1) out → Runs (decPlanes x.length n s out) symbols x) := by
  intro n
  induction n with
  | zero =>
    intro s hs
    obtain ⟨symbols, s', p1, p2, p3, p5, p4⟩ := pass_spec x k hx hk m hml hm Q hQ hQm 0 s hs
    refine ⟨symbols, ?_, p2, fun hsm out hout => ?_⟩
    · simp only [encPlanes, p1, bind, Except.bind]
    · obtain ⟨out', o1, o2⟩ := p4 hsm out hout
      have : out' = x := by
        apply List.ext_getElem o1.1
        intro i h1 h2
        have := o1.2 i h2
        rw [coarse_zero, List.getD_eq_getElem?_getD, List.getD_eq_getElem?_getD,
          List.getElem?_eq_getElem h1, List.getElem?_eq_getElem h2] at this
        exact this
      subst this
      exact Runs.pure_bind (g := fun r => r.1) o2
  | succ n ih =>
    intro s hs
    obtain ⟨symbols, s', p1, p2, p3, p5, p4⟩ := pass_spec x k hx hk m hml hm Q hQ hQm (n + 1) s hs
    obtain ⟨more, m1, m2, m3⟩ := ih s' p3
    refine ⟨symbols ++ more, ?_, p2.append m2, fun hsm out hout => ?_⟩
    · simp only [encPlanes, p1, m1, bind, Except.bind]
    · obtain ⟨out', o1, o2⟩ := p4 hsm out hout
      exact Runs.bind o2 (m3 p5 out' o1)

/-! ### The beginning -/

theorem bandsize_eq {length : Nat} (h : 4 ≤ length) : bandsize length = 8 := by
  unfold bandsize level
  rw [if_neg (by omega)]
  rw [show ((Nat.log2 length : Int) - ((Nat.log2 length : Int) - 2)).toNat = 2 by omega]
  norm_num

theorem initLists_eq {length : Nat} (h : 4 ≤ length) :
    initLists length = ⟨[0, 1, 2, 3, 4, 5, 6, 7], [(4, false), (5, false), (6, false), (7, false)], []⟩ := by
  unfold initLists
  rw [bandsize_eq h]
  rfl

theorem initLists_ok (x : List Int) (k : Nat) (hx : x.length = 4 * 2 ^ k) (hk : 1 ≤ k) (n : Nat) :
    ListsOk x n (initLists x.length) ∧
    ((∀ i, i < x.length → magnitude x i < 2 ^ n) → OthersSmall x n (initLists x.length)) := by
  have hpow : 2 ≤ 2 ^ k := by
    calc 2 = 2 ^ 1 := rfl
      _ ≤ 2 ^ k := Nat.pow_le_pow_right (by norm_num) hk
  rw [initLists_eq (by omega)]
  have entry : ∀ e ∈ [(4, false), (5, false), (6, false), (7, false)], EntryOk x.length e := by
    intro e he
    simp only [List.mem_cons, List.not_mem_nil, or_false] at he
    rcases he with rfl | rfl | rfl | rfl <;> exact ⟨by norm_num, by simp⟩
  refine ⟨⟨fun i => ?_, entry, ?_, by simp⟩, fun h => ⟨?_, ?_⟩⟩
  · simp only [List.flatMap_cons, List.flatMap_nil, desc, Bool.false_eq_true, if_false, List.append_nil,
      List.count_append, List.count_nil]
    by_cases hi : i < x.length
    · have := count_roots (length := x.length) (by omega) i hi
      rw [if_pos hi]
      by_cases h8 : 8 ≤ i
      · rw [if_pos h8] at this
        have : List.count i [0, 1, 2, 3, 4, 5, 6, 7] = 0 := by
          rw [List.count_eq_zero]
          simp only [List.mem_cons, List.not_mem_nil, or_false]
          omega
        omega
      · rw [if_neg h8] at this
        have : List.count i [0, 1, 2, 3, 4, 5, 6, 7] = 1 := by
          have : i = 0 ∨ i = 1 ∨ i = 2 ∨ i = 3 ∨ i = 4 ∨ i = 5 ∨ i = 6 ∨ i = 7 := by omega
          rcases this with rfl | rfl | rfl | rfl | rfl | rfl | rfl | rfl <;> rfl
        omega
    · rw [if_neg hi]
      have zero : ∀ y, 0 < y → (below x.length y).count i = 0 := by
        intro y hy
        rw [List.count_eq_zero]
        intro hmem
        exact hi (below_range x.length y hy i hmem).2
      have : List.count i [0, 1, 2, 3, 4, 5, 6, 7] = 0 := by
        rw [List.count_eq_zero]
        simp only [List.mem_cons, List.not_mem_nil, or_false]
        omega
      rw [this, zero 4 (by omega), zero 5 (by omega), zero 6 (by omega), zero 7 (by omega)]
  · unfold lisFuel weights weight
    simp only [List.map_cons, List.map_nil, List.sum_cons, List.sum_nil, Bool.false_eq_true, if_false]
    have e : x.length = (x.length - 7) + 7 := by omega
    rw [show x.length - 4 = (x.length - 7) + 3 by omega, show x.length - 5 = (x.length - 7) + 2 by omega,
      show x.length - 6 = (x.length - 7) + 1 by omega]
    conv_rhs => rw [e]
    rw [pow_add, pow_add, pow_add, pow_add]
    have : 0 < 4 ^ (x.length - 7) := by positivity
    omega
  · intro i hi
    simp only [List.mem_cons, List.not_mem_nil, or_false] at hi
    exact h i (by omega)
  · intro e he i hi
    have he4 := (entry e he).1
    apply h
    simp only [List.mem_cons, List.not_mem_nil, or_false] at he
    rcases he with rfl | rfl | rfl | rfl <;> exact (below_range x.length _ (by norm_num) i hi).2

end Haptics.Spiht
