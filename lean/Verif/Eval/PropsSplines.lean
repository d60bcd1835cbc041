import Verif.Eval.Splines
import Verif.Eval.SpecSplines
import Verif.Eval.PropsCurve
import Mathlib.Tactic.Linarith
import Mathlib.Tactic.FieldSimp
import Mathlib.Tactic.Positivity

/-! C87: Akima, Bezier and B-spline curves. -/

namespace Haptics.Splines
open Haptics

/-! ### Akima -/

theorem getD_get {α : Type} (l : List α) (d : α) (i : ℕ) (h : i < l.length) : l.getD i d = l[i] := by
  rw [List.getD_eq_getElem?_getD, List.getElem?_eq_getElem h]
  rfl

theorem getD_lt (pts : List (ℤ × ℝ)) (h : Increasing pts) (i j : ℕ) (hij : i < j) (hj : j < pts.length) :
    (pts.getD i (0, 0)).1 < (pts.getD j (0, 0)).1 := by
  unfold Increasing at h
  rw [List.pairwise_iff_getElem] at h
  have := h i j (by rw [List.length_map]; omega) (by rw [List.length_map]; omega) hij
  rw [List.getElem_map, List.getElem_map] at this
  rw [getD_get _ _ _ (by omega), getD_get _ _ _ hj]
  exact this

theorem slopeChange_nonneg (pts : List (ℤ × ℝ)) (i : ℕ) : 0 ≤ slopeChange pts i := abs_nonneg _

theorem foldl_max_ge (pts : List (ℤ × ℝ)) (l : List ℕ) (m : ℝ) :
    m ≤ l.foldl (fun m i => if bend pts i > m then bend pts i else m) m ∧
    ∀ i ∈ l, bend pts i ≤ l.foldl (fun m i => if bend pts i > m then bend pts i else m) m := by
  induction l generalizing m with
  | nil => exact ⟨le_rfl, by simp⟩
  | cons a l ih =>
    obtain ⟨h1, h2⟩ := ih (if bend pts a > m then bend pts a else m)
    rw [List.foldl_cons]
    have h3 : m ≤ (if bend pts a > m then bend pts a else m) ∧ bend pts a ≤ (if bend pts a > m then bend pts a else m) := by
      split
      · rename_i h; exact ⟨h.le, le_rfl⟩
      · rename_i h; exact ⟨le_rfl, not_lt.1 h⟩
    refine ⟨h3.1.trans h1, ?_⟩
    intro i hi
    rcases List.mem_cons.1 hi with rfl | hi
    · exact h3.2.trans h1
    · exact h2 i hi

/-- The slope of the curve at a keyframe lies between the slopes on both sides. -/
theorem tangent_between (pts : List (ℤ × ℝ)) (i : ℕ) (hi : i < pts.length) :
    Between (slope pts (i + 1)) (slope pts (i + 2)) (tangent pts i) := by
  unfold tangent
  split
  · rename_i h
    have h0 : 0 ≤ bend pts i := add_nonneg (slopeChange_nonneg _ _) (slopeChange_nonneg _ _)
    have h1 : bend pts i ≤ maxBend pts := (foldl_max_ge pts _ _).2 i (List.mem_range.2 hi)
    have h2 : 0 < bend pts i := by
      have : 0 ≤ maxBend pts := h0.trans h1
      linarith
    have a1 := slopeChange_nonneg pts (i + 2)
    have a2 := slopeChange_nonneg pts i
    have hb : bend pts i = slopeChange pts (i + 2) + slopeChange pts i := rfl
    unfold Between
    rw [le_div_iff₀ h2, div_le_iff₀ h2, hb]
    generalize slope pts (i + 1) = a at *
    generalize slope pts (i + 2) = b at *
    have m1 := min_le_left a b
    have m2 := min_le_right a b
    have m3 := le_max_left a b
    have m4 := le_max_right a b
    constructor
    · nlinarith
    · nlinarith
  · exact ⟨min_le_left _ _, le_max_left _ _⟩

theorem slope_inner (pts : List (ℤ × ℝ)) (i : ℕ) (h : i + 2 < pts.length + 1) : slope pts (i + 2) = secant pts i := by
  unfold slope
  simp only
  rw [if_neg (by omega), if_neg (by omega), if_neg (by omega), if_neg (by omega), Nat.add_sub_cancel]

theorem secant_eq (pts : List (ℤ × ℝ)) (i : ℕ) : secant pts i = lineSlope pts i := by
  unfold secant lineSlope
  push_cast
  rfl

theorem slope_eq (pts : List (ℤ × ℝ)) (h3 : 3 ≤ pts.length) (i : ℕ) (hi : i ≤ pts.length + 2) :
    slope pts i = extendedSlope pts (i - 2) := by
  unfold slope extendedSlope
  simp only [secant_eq]
  by_cases h0 : i = 0
  · subst h0
    rw [if_pos rfl, if_pos (by omega)]; push_cast; ring
  by_cases h1 : i = 1
  · subst h1
    rw [if_neg (by omega), if_pos rfl, if_pos (by omega)]; push_cast; ring
  rw [if_neg h0, if_neg h1, if_neg (by omega : ¬ (i : ℤ) - 2 < 0)]
  by_cases h2 : i = pts.length + 1
  · subst h2
    rw [if_pos rfl, if_neg (by push_cast; omega)]; push_cast; ring
  by_cases h4 : i = pts.length + 2
  · subst h4
    rw [if_neg (by omega), if_pos rfl, if_neg (by push_cast; omega)]; push_cast; ring
  rw [if_neg h2, if_neg h4, if_pos (by omega)]
  congr 1
  omega

theorem foldl_max_mem (pts : List (ℤ × ℝ)) (l : List ℕ) (m : ℝ) :
    l.foldl (fun m i => if bend pts i > m then bend pts i else m) m = m ∨
    ∃ i ∈ l, bend pts i = l.foldl (fun m i => if bend pts i > m then bend pts i else m) m := by
  induction l generalizing m with
  | nil => exact Or.inl rfl
  | cons a l ih =>
    rw [List.foldl_cons]
    rcases ih (if bend pts a > m then bend pts a else m) with h | ⟨i, hi, h⟩
    · rw [h]
      split
      · exact Or.inr ⟨a, List.mem_cons_self, rfl⟩
      · exact Or.inl rfl
    · exact Or.inr ⟨i, List.mem_cons_of_mem _ hi, h⟩

/-- The slopes are those of Akima's rule. -/
theorem tangent_eq (pts : List (ℤ × ℝ)) (h3 : 3 ≤ pts.length) (i : ℕ) (hi : i < pts.length) :
    tangent pts i = akimaSlope pts i := by
  have hafter : ∀ j < pts.length, slopeChange pts (j + 2) = changeAfter pts j := by
    intro j hj
    unfold slopeChange changeAfter
    rw [slope_eq pts h3 _ (by omega), slope_eq pts h3 _ (by omega)]
    congr 3 <;> push_cast <;> ring
  have hbefore : ∀ j < pts.length, slopeChange pts j = changeBefore pts j := by
    intro j hj
    unfold slopeChange changeBefore
    rw [slope_eq pts h3 _ (by omega), slope_eq pts h3 _ (by omega)]
    congr 3; push_cast; ring
  have hbend : ∀ j < pts.length, bend pts j = changeAfter pts j + changeBefore pts j := by
    intro j hj
    rw [← hafter j hj, ← hbefore j hj]; rfl
  have hge : ∀ j < pts.length, bend pts j ≤ maxBend pts :=
    fun j hj => (foldl_max_ge pts _ _).2 j (List.mem_range.2 hj)
  have hnonneg : ∀ j, 0 ≤ bend pts j := fun j => add_nonneg (slopeChange_nonneg _ _) (slopeChange_nonneg _ _)
  have hmem : ∃ j < pts.length, bend pts j = maxBend pts := by
    rcases foldl_max_mem pts (List.range pts.length) (-100) with h | ⟨j, hj, h⟩
    · have h1 := hge i hi
      have h2 := hnonneg i
      have h4 : maxBend pts = -100 := h
      linarith
    · exact ⟨j, List.mem_range.1 hj, h⟩
  have hcond : bend pts i > 1 / 100000000 * maxBend pts ↔
      ∀ j < pts.length, (changeAfter pts j + changeBefore pts j) / 10 ^ 8 < changeAfter pts i + changeBefore pts i := by
    constructor
    · intro h j hj
      rw [← hbend j hj, ← hbend i hi]
      have := hge j hj
      linarith
    · intro h
      obtain ⟨j, hj, he⟩ := hmem
      have := h j hj
      rw [← hbend j hj, ← hbend i hi, he] at this
      linarith
  have e1 : slope pts (i + 1) = extendedSlope pts (i - 1) := by
    rw [slope_eq pts h3 _ (by omega)]; congr 1; push_cast; ring
  have e2 : slope pts (i + 2) = extendedSlope pts i := by
    rw [slope_eq pts h3 _ (by omega)]; congr 1; push_cast; ring
  unfold tangent akimaSlope
  rw [e1, e2, hafter i hi, hbefore i hi, hbend i hi]
  rw [hbend i hi] at hcond
  by_cases h : changeAfter pts i + changeBefore pts i > 1 / 100000000 * maxBend pts
  · rw [if_pos h, if_pos (hcond.1 h)]
  · rw [if_neg h, if_neg (fun hc => h (hcond.2 hc))]

theorem akimaAt_hermite (pts : List (ℤ × ℝ)) (i : ℕ) (x : ℝ) (h : (pts.getD i (0, 0)).1 < (pts.getD (i + 1) (0, 0)).1) :
    akimaAt pts i (x - (pts.getD i (0, 0)).1) = hermite (pts.getD i (0, 0)).1 (pts.getD i (0, 0)).2 (tangent pts i)
      (pts.getD (i + 1) (0, 0)).1 (pts.getD (i + 1) (0, 0)).2 (tangent pts (i + 1)) x := by
  unfold akimaAt coefC coefD hermite secant gap
  have h' : ((pts.getD i (0, 0)).1 : ℝ) < ((pts.getD (i + 1) (0, 0)).1 : ℝ) := by exact_mod_cast h
  push_cast
  generalize tangent pts i = s0
  generalize tangent pts (i + 1) = s1
  generalize (pts.getD i (0, 0)).2 = y0
  generalize (pts.getD (i + 1) (0, 0)).2 = y1
  generalize ((pts.getD i (0, 0)).1 : ℝ) = x0 at *
  generalize ((pts.getD (i + 1) (0, 0)).1 : ℝ) = x1 at *
  have hd : x1 - x0 ≠ 0 := by intro hc; linarith
  field_simp
  ring

theorem akimaSamples_spec (pts : List (ℤ × ℝ)) (hinc : Increasing pts) : ∀ (l : List (ℤ × ℝ)) (i count : ℕ), l = pts.drop i →
    l ≠ [] → (count : ℤ) = (pts.getD i (0, 0)).1 →
    ((akimaSamples pts i count l).length : ℤ) + count = (pts.getLastD (0, 0)).1 ∧
    ∀ d < (akimaSamples pts i count l).length, ∃ k, k + 1 < pts.length ∧ (pts.getD k (0, 0)).1 ≤ ((count + d : ℕ) : ℤ) ∧
      ((count + d : ℕ) : ℤ) < (pts.getD (k + 1) (0, 0)).1 ∧
      (akimaSamples pts i count l).getD d 0 = akimaAt pts k (((count + d : ℕ) : ℝ) - (pts.getD k (0, 0)).1)
  | [], _, _, _, h, _ => absurd rfl h
  | [p], i, count, hl, _, hc => by
    have hlen := congrArg List.length hl
    rw [List.length_drop, List.length_singleton] at hlen
    have hlast : pts.getLastD (0, 0) = pts.getD i (0, 0) := by
      rw [List.getLastD_eq_getLast?, List.getLast?_eq_getElem?, List.getD_eq_getElem?_getD,
        show pts.length - 1 = i by omega]
    unfold akimaSamples
    rw [hlast, ← hc]
    exact ⟨by simp, by simp⟩
  | p :: q :: l, i, count, hl, _, hc => by
    have hlen := congrArg List.length hl
    rw [List.length_drop] at hlen
    simp only [List.length_cons] at hlen
    have hp : pts.getD i (0, 0) = p := by
      have : (pts.drop i)[0]? = some p := by rw [← hl]; rfl
      rw [List.getElem?_drop, Nat.add_zero] at this
      rw [List.getD_eq_getElem?_getD, this]
      rfl
    have hq : pts.getD (i + 1) (0, 0) = q := by
      have : (pts.drop i)[1]? = some q := by rw [← hl]; rfl
      rw [List.getElem?_drop] at this
      rw [List.getD_eq_getElem?_getD, this]
      rfl
    have hl' : q :: l = pts.drop (i + 1) := by rw [← List.tail_drop, ← hl]; rfl
    have hlt := getD_lt pts hinc i (i + 1) (by omega) (by omega)
    rw [hp] at hc
    rw [hp, hq] at hlt
    obtain ⟨h1, h2⟩ := akimaSamples_spec pts hinc (q :: l) (i + 1) (count + (q.1 - p.1).toNat) hl' (by simp) (by
      rw [hq]; push_cast; omega)
    unfold akimaSamples
    simp only
    constructor
    · rw [List.length_append, List.length_map, List.length_range, ← h1]
      push_cast
      ring
    · intro d hd
      rw [List.length_append, List.length_map, List.length_range] at hd
      by_cases hdn : d < (q.1 - p.1).toNat
      · refine ⟨i, by omega, by rw [hp]; push_cast; omega, by rw [hq]; push_cast; omega, ?_⟩
        rw [List.getD_eq_getElem?_getD, List.getElem?_append_left (by rw [List.length_map, List.length_range]; exact hdn),
          List.getElem?_map, List.getElem?_range hdn, hp]
        simp only [Option.map_some, Option.getD_some]
        push_cast
        rfl
      · obtain ⟨k, k1, k2, k3, k4⟩ := h2 (d - (q.1 - p.1).toNat) (by omega)
        have e : count + (q.1 - p.1).toNat + (d - (q.1 - p.1).toNat) = count + d := by omega
        rw [e] at k2 k3 k4
        refine ⟨k, k1, k2, k3, ?_⟩
        rw [← k4, List.getD_eq_getElem?_getD, List.getElem?_append_right (by rw [List.length_map, List.length_range]; omega),
          List.length_map, List.length_range, ← List.getD_eq_getElem?_getD]

/-- **C87 (Akima).** Three or more keyframes at increasing positions from 0: there is one value per sample up to the last
keyframe.  Each is on a curve made of cubics through neighbouring keyframes, whose slopes at the keyframes are those of
Akima's rule, and at each inner keyframe lie between the slopes of the lines to its neighbours. -/
theorem c87_akima (pts : List (ℤ × ℝ)) (h3 : 3 ≤ pts.length) (h0 : (pts.getD 0 (0, 0)).1 = 0) (hinc : Increasing pts) :
    ∃ r, akima pts = .ok r ∧ FullLength pts r ∧
      (∀ i, i + 2 < pts.length → Between (lineSlope pts i) (lineSlope pts (i + 1)) (akimaSlope pts (i + 1))) ∧
      ∀ n < r.length, ∃ k, k + 1 < pts.length ∧ (pts.getD k (0, 0)).1 ≤ (n : ℤ) ∧ (n : ℤ) ≤ (pts.getD (k + 1) (0, 0)).1 ∧
        r.getD n 0 = hermite (pts.getD k (0, 0)).1 (pts.getD k (0, 0)).2 (akimaSlope pts k)
          (pts.getD (k + 1) (0, 0)).1 (pts.getD (k + 1) (0, 0)).2 (akimaSlope pts (k + 1)) n := by
  suffices h : ∃ r, akima pts = .ok r ∧ FullLength pts r ∧
      (∀ i, i + 2 < pts.length → Between (lineSlope pts i) (lineSlope pts (i + 1)) (tangent pts (i + 1))) ∧
      ∀ n < r.length, ∃ k, k + 1 < pts.length ∧ (pts.getD k (0, 0)).1 ≤ (n : ℤ) ∧ (n : ℤ) ≤ (pts.getD (k + 1) (0, 0)).1 ∧
        r.getD n 0 = hermite (pts.getD k (0, 0)).1 (pts.getD k (0, 0)).2 (tangent pts k)
          (pts.getD (k + 1) (0, 0)).1 (pts.getD (k + 1) (0, 0)).2 (tangent pts (k + 1)) n by
    obtain ⟨r, e1, e2, e3, e4⟩ := h
    refine ⟨r, e1, e2, fun i hi => ?_, fun n hn => ?_⟩
    · rw [← tangent_eq pts h3 (i + 1) (by omega)]
      exact e3 i hi
    · obtain ⟨k, k1, k2, k3, k4⟩ := e4 n hn
      refine ⟨k, k1, k2, k3, ?_⟩
      rw [← tangent_eq pts h3 k (by omega), ← tangent_eq pts h3 (k + 1) k1]
      exact k4
  obtain ⟨e1, e2⟩ := akimaSamples_spec pts hinc pts 0 0 (by simp) (by intro h; rw [h] at h3; simp at h3) (by rw [h0]; rfl)
  have hlast : pts.getLastD (0, 0) = pts.getD (pts.length - 1) (0, 0) := by
    rw [List.getLastD_eq_getLast?, List.getLast?_eq_getElem?, List.getD_eq_getElem?_getD]
  set L := akimaSamples pts 0 0 pts with hL
  have e1' : (L.length : ℤ) = (pts.getLastD (0, 0)).1 := by
    rw [← e1]; simp
  have hx : (((L.length : ℤ) - (pts.getLastD (0, 0)).1 : ℤ) : ℝ) = 0 := by
    rw [e1']; simp
  refine ⟨L ++ [(pts.getLastD (0, 0)).2], ?_, ?_, ?_, ?_⟩
  · unfold akima
    simp only [← hL, hx]
    rw [if_neg (by omega), if_neg, if_neg (by omega), if_neg (by omega), show ((pts.getLastD (0, 0)).1 - (L.length : ℤ)).toNat = 0
      by omega]
    · simp
    · rw [List.any_eq_true]
      rintro ⟨i, hi, hc⟩
      rw [List.mem_range] at hi
      have := getD_lt pts hinc i (i + 1) (by omega) (by omega)
      have hc := of_decide_eq_true hc
      omega
  · unfold FullLength
    rw [List.length_append, List.length_singleton]
    push_cast
    rw [e1']
  · intro i hi
    have := tangent_between pts (i + 1) (by omega)
    rw [slope_inner pts i (by omega), slope_inner pts (i + 1) (by omega), secant_eq, secant_eq] at this
    exact this
  · intro n hn
    rw [List.length_append, List.length_singleton] at hn
    by_cases hnl : n < L.length
    · obtain ⟨k, k1, k2, k3, k4⟩ := e2 n hnl
      rw [Nat.zero_add] at k2 k3 k4
      refine ⟨k, k1, k2, k3.le, ?_⟩
      rw [List.getD_eq_getElem?_getD, List.getElem?_append_left hnl, ← List.getD_eq_getElem?_getD, k4]
      exact akimaAt_hermite pts k n (getD_lt pts hinc k (k + 1) (by omega) k1)
    · have hn' : n = L.length := by omega
      subst hn'
      have hk : pts.length - 2 + 1 = pts.length - 1 := by omega
      have hlt := getD_lt pts hinc (pts.length - 2) (pts.length - 1) (by omega) (by omega)
      refine ⟨pts.length - 2, by omega, ?_, ?_, ?_⟩
      · rw [e1', hlast]; exact hlt.le
      · rw [e1', hlast, hk]
      · rw [List.getD_eq_getElem?_getD, List.getElem?_append_right le_rfl, Nat.sub_self, hk]
        have hn1 : ((L.length : ℕ) : ℝ) = ((pts.getD (pts.length - 1) (0, 0)).1 : ℝ) := by
          rw [← hlast, ← e1']; simp
        rw [hn1, hlast]
        have h' : ((pts.getD (pts.length - 2) (0, 0)).1 : ℝ) < ((pts.getD (pts.length - 1) (0, 0)).1 : ℝ) := by exact_mod_cast hlt
        unfold hermite
        rw [div_self (by intro hc; linarith)]
        simp only [List.getElem?_cons_zero, Option.getD_some]
        ring

/-- **C87 (Akima).** The curve passes through every keyframe. -/
theorem c87_akima_through (pts : List (ℤ × ℝ)) (h3 : 3 ≤ pts.length) (h0 : (pts.getD 0 (0, 0)).1 = 0) (hinc : Increasing pts)
    (i : ℕ) (hi : i < pts.length) :
    ∃ r, akima pts = .ok r ∧ ∃ n : ℕ, (n : ℤ) = (pts.getD i (0, 0)).1 ∧ r[n]? = some (pts.getD i (0, 0)).2 := by
  obtain ⟨r, e, hlen, -, hr⟩ := c87_akima pts h3 h0 hinc
  have hlast : pts.getLastD (0, 0) = pts.getD (pts.length - 1) (0, 0) := by
    rw [List.getLastD_eq_getLast?, List.getLast?_eq_getElem?, List.getD_eq_getElem?_getD]
  have hpos : 0 ≤ (pts.getD i (0, 0)).1 := by
    rcases Nat.eq_zero_or_pos i with h | h
    · rw [h, h0]
    · exact h0.symm.le.trans (getD_lt pts hinc 0 i h hi).le
  have hle : (pts.getD i (0, 0)).1 ≤ (pts.getLastD (0, 0)).1 := by
    rw [hlast]
    rcases Nat.eq_or_lt_of_le (show i ≤ pts.length - 1 by omega) with h | h
    · rw [h]
    · exact (getD_lt pts hinc i _ h (by omega)).le
  obtain ⟨n, hn⟩ := Int.eq_ofNat_of_zero_le hpos
  unfold FullLength at hlen
  have hnr : n < r.length := by omega
  refine ⟨r, e, n, hn.symm, ?_⟩
  obtain ⟨k, k1, k2, k3, k4⟩ := hr n hnr
  have hlt := getD_lt pts hinc k (k + 1) (by omega) k1
  have h' : ((pts.getD k (0, 0)).1 : ℝ) < ((pts.getD (k + 1) (0, 0)).1 : ℝ) := by exact_mod_cast hlt
  rw [getD_get _ _ _ hnr] at k4
  rw [List.getElem?_eq_getElem hnr, k4]
  congr 1
  have hnn : (n : ℝ) = ((pts.getD i (0, 0)).1 : ℝ) := by rw [hn]; simp
  have hik : i = k ∨ i = k + 1 := by
    rcases lt_trichotomy i k with h | h | h
    · have := getD_lt pts hinc i k h (by omega)
      omega
    · exact .inl h
    · rcases Nat.eq_or_lt_of_le (show k + 1 ≤ i by omega) with h | h
      · exact .inr h.symm
      · have := getD_lt pts hinc (k + 1) i h hi
        omega
  unfold hermite
  rcases hik with rfl | rfl
  · rw [hnn, sub_self, zero_div]
    simp only
    ring
  · rw [hnn, div_self (by intro hc; linarith)]
    simp only
    ring

/-- Four keyframes. -/
example : let pts : List (ℤ × ℝ) := [(0, 0), (10, 1), (15, 1 / 2), (40, 0)]
    3 ≤ pts.length ∧ (pts.getD 0 (0, 0)).1 = 0 ∧ Increasing pts := by
  simp [Increasing]

/-- **C87 is false** for fewer than three keyframes: the Akima curve reads past the end (a band asks for one with a single
keyframe; with two it draws a line). -/
theorem c87_akima_short_unsafe (pts : List (ℤ × ℝ)) (h : pts.length < 3) : akima pts = .error .ub := by
  unfold akima
  simp only
  rw [if_pos h]

/-! ### Bezier -/

theorem bezierT_spec (dx1 dx2 j : ℤ) (h1 : 2 ≤ dx1) (h2 : dx1 < dx2) (hj1 : 1 ≤ j) (hj2 : j ≤ dx2) :
    ∃ t : ℝ, bezierT dx1 dx2 j = some t ∧ 0 ≤ t ∧ t ≤ 1 ∧ (j : ℝ) - 1 = 2 * t * (1 - t) * (dx1 - 1) + t ^ 2 * (dx2 - 1) := by
  have r1 : (2 : ℝ) ≤ dx1 := by exact_mod_cast h1
  have r2 : (dx1 : ℝ) + 1 ≤ dx2 := by exact_mod_cast h2
  have r3 : (1 : ℝ) ≤ j := by exact_mod_cast hj1
  have r4 : (j : ℝ) ≤ dx2 := by exact_mod_cast hj2
  unfold bezierT
  by_cases hA : 1 - 2 * dx1 + dx2 ≠ 0
  · rw [if_pos hA]
    simp only
    have hA' : (1 - 2 * (dx1 : ℝ) + dx2) ≠ 0 := by exact_mod_cast hA
    push_cast
    obtain ⟨A, hAe⟩ : ∃ A : ℝ, A = 1 - 2 * (dx1 : ℝ) + dx2 := ⟨_, rfl⟩
    obtain ⟨B, hB⟩ : ∃ B : ℝ, B = (dx1 : ℝ) - 1 := ⟨_, rfl⟩
    obtain ⟨C, hC⟩ : ∃ C : ℝ, C = (j : ℝ) - 1 := ⟨_, rfl⟩
    have hD : (dx1 : ℝ) ^ 2 - 2 * j * dx1 + j * 1 + j * dx2 - 1 * dx2 = B ^ 2 + A * C := by
      rw [hAe, hB, hC]; ring
    have hdx2 : (dx2 : ℝ) - 1 = A + 2 * B := by rw [hAe, hB]; ring
    have hCu : C ≤ A + 2 * B := by linarith
    have hC0 : 0 ≤ C := by linarith
    have hB0 : 1 ≤ B := by linarith
    have hAB : 0 < A + B := by rw [hAe, hB]; linarith
    rw [hD, ← hAe, show (1 : ℝ) - dx1 = - B by rw [hB]; ring, ← hB, ← hC, hdx2]
    rw [← hAe] at hA'
    have hD0 : 0 ≤ B ^ 2 + A * C := by
      rcases lt_or_gt_of_ne hA' with h | h
      · nlinarith [sq_nonneg (A + B)]
      · positivity
    rw [if_neg (not_lt.2 hD0)]
    unfold fdiv
    rw [if_neg hA']
    obtain ⟨S, hS⟩ : ∃ S, S = Real.sqrt (B ^ 2 + A * C) := ⟨_, rfl⟩
    have hS0 : 0 ≤ S := by rw [hS]; exact Real.sqrt_nonneg _
    have hSS : S ^ 2 = B ^ 2 + A * C := by rw [hS]; exact Real.sq_sqrt hD0
    rw [← hS]
    refine ⟨_, rfl, ?_, ?_, ?_⟩
    · rcases lt_or_gt_of_ne hA' with h | h
      · apply div_nonneg_of_nonpos _ h.le
        have : S ≤ B := by
          by_contra hc
          push Not at hc
          nlinarith
        linarith
      · apply div_nonneg _ h.le
        have : B ≤ S := by
          by_contra hc
          push Not at hc
          nlinarith
        linarith
    · rcases lt_or_gt_of_ne hA' with h | h
      · rw [div_le_one_of_neg h]
        have : A + B ≤ S := by
          by_contra hc
          push Not at hc
          nlinarith
        linarith
      · rw [div_le_one h]
        have : S ≤ A + B := by
          by_contra hc
          push Not at hc
          nlinarith
        linarith
    · field_simp
      have : (-B + S) ^ 2 = B ^ 2 - 2 * B * S + (B ^ 2 + A * C) := by rw [← hSS]; ring
      linear_combination (-1 : ℝ) * A * hSS
  · rw [if_neg hA]
    push Not at hA
    have hA' : (dx2 : ℝ) = 2 * dx1 - 1 := by
      have : dx2 = 2 * dx1 - 1 := by omega
      rw [this]; push_cast; ring
    have hne : ((2 * (1 - dx1) : ℤ) : ℝ) ≠ 0 := by
      have : (2 * (1 - dx1) : ℤ) ≠ 0 := by omega
      exact_mod_cast this
    have hneg : ((2 * (1 - dx1) : ℤ) : ℝ) < 0 := by push_cast; linarith
    unfold fdiv
    rw [if_neg hne]
    refine ⟨_, rfl, ?_, ?_, ?_⟩
    · apply div_nonneg_of_nonpos _ hneg.le
      push_cast; linarith
    · rw [div_le_one_of_neg hneg]
      push_cast; linarith
    · push_cast
      rw [hA']
      have : (1 : ℝ) - dx1 ≠ 0 := by intro h; linarith
      field_simp
      ring

theorem bezierSegment_ok (p0 p1 p2 : ℤ × ℝ) (h1 : p0.1 < p1.1) (h2 : p1.1 < p2.1) (hs : p2.1 - p0.1 ≤ 32767) :
    ∃ s, bezierSegment p0 p1 p2 = .ok s ∧ (s.length : ℤ) = p2.1 - p0.1 ∧
      ∀ i < s.length, ∃ t y : ℝ, s[i]? = some (some y) ∧ 0 ≤ t ∧ t ≤ 1 ∧
        ((p0.1 + i : ℤ) : ℝ) = quadratic p0.1 p1.1 p2.1 t ∧ y = quadratic p0.2 p1.2 p2.2 t := by
  unfold bezierSegment
  simp only
  rw [if_neg]
  · refine ⟨_, rfl, by simp only [List.length_map, List.length_range]; omega, ?_⟩
    intro i hi
    simp only [List.length_map, List.length_range] at hi
    obtain ⟨t, e, t0, t1, ht⟩ := bezierT_spec (p1.1 - p0.1 + 1) (p2.1 - p0.1 + 1) ((i : ℤ) + 1) (by omega) (by omega)
      (by omega) (by omega)
    refine ⟨t, quadratic p0.2 p1.2 p2.2 t, ?_, t0, t1, ?_, rfl⟩
    · rw [List.getElem?_map, List.getElem?_map, List.getElem?_range hi]
      simp only [Option.map_some, e, Option.some.injEq]
      unfold bezierY quadratic
      ring
    · push_cast at ht ⊢
      unfold quadratic
      linarith
  · rintro ⟨-, h⟩
    rw [List.any_eq_true] at h
    obtain ⟨j, hj, ho⟩ := h
    obtain ⟨i, hi, rfl⟩ := List.mem_map.1 hj
    rw [List.mem_range] at hi
    rw [Bool.or_eq_true] at ho
    have hi' : (i : ℤ) + 1 ≤ 32767 := by omega
    have a1 : ((i : ℤ) + 1) * (p2.1 - p0.1 + 1) ≤ 32767 * 32768 :=
      mul_le_mul hi' (by omega) (by omega) (by norm_num)
    have a2 : 0 ≤ ((i : ℤ) + 1) * (p2.1 - p0.1 + 1) := by apply mul_nonneg <;> omega
    have a3 : ((i : ℤ) + 1) * (p1.1 - p0.1 + 1) ≤ 32767 * 32767 :=
      mul_le_mul hi' (by omega) (by omega) (by norm_num)
    have a4 : 0 ≤ ((i : ℤ) + 1) * (p1.1 - p0.1 + 1) := by apply mul_nonneg <;> omega
    unfold overflows at ho
    rw [mul_assoc] at ho
    simp only [decide_eq_true_eq] at ho
    omega

theorem bezier_ok : ∀ (n : ℕ) (pts : List (ℤ × ℝ)), pts.length = 2 * n + 1 → 0 ≤ (pts.getD 0 (0, 0)).1 → Increasing pts → Short pts →
    ∃ r, bezier pts = .ok r ∧ (r.length : ℤ) = (pts.getLastD (0, 0)).1 - (pts.getD 0 (0, 0)).1 + 1 ∧
      ∀ i < r.length, ∃ y : ℝ, r[i]? = some (some y) ∧ ∀ m : ℕ, (m : ℤ) = (pts.getD 0 (0, 0)).1 + i →
        OnBezier pts m y ∨ (i + 1 = r.length ∧ y = (pts.getLastD (0, 0)).2)
  | 0, pts, hl, _, _, _ => by
    obtain ⟨p, rfl⟩ := List.length_eq_one_iff.1 hl
    refine ⟨[some p.2], rfl, by simp, ?_⟩
    intro i hi
    rw [List.length_singleton] at hi
    obtain rfl : i = 0 := by omega
    exact ⟨p.2, rfl, fun m _ => .inr ⟨rfl, rfl⟩⟩
  | n + 1, p0 :: p1 :: p2 :: l, hl, h0, hinc, hs => by
    obtain ⟨h1, hinc1⟩ := increasing_cons hinc
    obtain ⟨h2, hinc2⟩ := increasing_cons hinc1
    obtain ⟨s, e1, s1, s2⟩ := bezierSegment_ok p0 p1 p2 h1 h2 (hs [] p0 p1 p2 l rfl)
    have h0' : 0 ≤ p0.1 := h0
    obtain ⟨r, e2, r1, r2⟩ := bezier_ok n (p2 :: l) (by simp only [List.length_cons] at hl ⊢; omega) (by
        show 0 ≤ p2.1
        omega) hinc2
      (fun pre q0 q1 q2 post h => hs (p0 :: p1 :: pre) q0 q1 q2 post (by rw [h]; rfl))
    have hlast : (p0 :: p1 :: p2 :: l).getLastD (0, 0) = (p2 :: l).getLastD (0, 0) := by
      simp [List.getLastD_eq_getLast?, List.getLast?_cons]
    change (r.length : ℤ) = _ - p2.1 + 1 at r1
    refine ⟨s ++ r, ?_, ?_, ?_⟩
    · unfold bezier
      rw [e1]
      simp only [e2]
    · rw [List.length_append, hlast]
      show _ = _ - p0.1 + 1
      push_cast
      omega
    · intro i hi
      by_cases his : i < s.length
      · obtain ⟨t, y, g1, g2, g3, g4, g5⟩ := s2 i his
        refine ⟨y, by rw [List.getElem?_append_left his]; exact g1, fun m hm => .inl ?_⟩
        refine ⟨[], p0, p1, p2, l, t, rfl, rfl, g2, g3, ?_, g5⟩
        rw [← g4]
        have : (m : ℤ) = p0.1 + i := hm
        rw [← this]
        simp
      · rw [List.length_append] at hi
        obtain ⟨y, y1, y2⟩ := r2 (i - s.length) (by omega)
        refine ⟨y, by rw [List.getElem?_append_right (by omega)]; exact y1, ?_⟩
        intro m hm
        have hm' : (m : ℤ) = p0.1 + i := hm
        rcases y2 m (by show (m : ℤ) = p2.1 + _; push_cast [Nat.sub_add_cancel]; omega) with h | h
        · left
          obtain ⟨pre, q0, q1, q2, post, t, a, b, c⟩ := h
          exact ⟨p0 :: p1 :: pre, q0, q1, q2, post, t, by rw [a]; rfl, by simp only [List.length_cons]; omega, c⟩
        · right
          rw [hlast, List.length_append]
          exact ⟨by omega, h.2⟩

/-- **C87 (Bezier).** An odd number of keyframes at increasing positions from 0, no three of which span more than 32767
samples: there is one value per sample up to the last keyframe; each is on the Bezier curve of which the keyframes are the
control points, and the last is the amplitude of the last keyframe. -/
theorem c87_bezier_partial (pts : List (ℤ × ℝ)) (hodd : pts.length % 2 = 1) (h0 : (pts.getD 0 (0, 0)).1 = 0)
    (hinc : Increasing pts) (hs : Short pts) :
    ∃ r, bezier pts = .ok r ∧ FullLength pts r ∧ ∀ i < r.length, ∃ y : ℝ, r[i]? = some (some y) ∧
      (OnBezier pts i y ∨ (i + 1 = r.length ∧ y = (pts.getLastD (0, 0)).2)) := by
  obtain ⟨r, e, r1, r2⟩ := bezier_ok (pts.length / 2) pts (by omega) (by omega) hinc hs
  refine ⟨r, e, by unfold FullLength; omega, ?_⟩
  intro i hi
  obtain ⟨y, y1, y2⟩ := r2 i hi
  exact ⟨y, y1, y2 i (by omega)⟩

/-- Five keyframes. -/
example : let pts : List (ℤ × ℝ) := [(0, 0), (10, 1), (15, 1 / 2), (40, 0), (50, 1)]
    pts.length % 2 = 1 ∧ (pts.getD 0 (0, 0)).1 = 0 ∧ Increasing pts := by
  simp [Increasing]

theorem quadratic_le (a b c t lo hi : ℝ) (t0 : 0 ≤ t) (t1 : t ≤ 1) (ha : lo ≤ a ∧ a ≤ hi) (hb : lo ≤ b ∧ b ≤ hi)
    (hc : lo ≤ c ∧ c ≤ hi) : lo ≤ quadratic a b c t ∧ quadratic a b c t ≤ hi := by
  unfold quadratic
  have u0 : 0 ≤ 1 - t := by linarith
  have w1 : 0 ≤ (1 - t) ^ 2 := by positivity
  have w2 : 0 ≤ 2 * t * (1 - t) := by positivity
  have w3 : 0 ≤ t ^ 2 := by positivity
  have hw : (1 - t) ^ 2 + 2 * t * (1 - t) + t ^ 2 = 1 := by ring
  constructor
  · nlinarith [mul_le_mul_of_nonneg_left ha.1 w1, mul_le_mul_of_nonneg_left hb.1 w2, mul_le_mul_of_nonneg_left hc.1 w3]
  · nlinarith [mul_le_mul_of_nonneg_left ha.2 w1, mul_le_mul_of_nonneg_left hb.2 w2, mul_le_mul_of_nonneg_left hc.2 w3]

/-- **C87 (Bezier).** No value exceeds the amplitudes of the keyframes. -/
theorem c87_bezier_range_partial (pts : List (ℤ × ℝ)) (hodd : pts.length % 2 = 1) (h0 : (pts.getD 0 (0, 0)).1 = 0)
    (hinc : Increasing pts) (hs : Short pts) (lo hi : ℝ) (hb : ∀ p ∈ pts, lo ≤ p.2 ∧ p.2 ≤ hi) :
    ∃ r, bezier pts = .ok r ∧ ∀ v ∈ r, ∃ y, v = some y ∧ lo ≤ y ∧ y ≤ hi := by
  obtain ⟨r, e, -, h⟩ := c87_bezier_partial pts hodd h0 hinc hs
  refine ⟨r, e, ?_⟩
  intro v hv
  obtain ⟨i, hi', hiv⟩ := List.getElem_of_mem hv
  obtain ⟨y, y1, y2⟩ := h i hi'
  rw [List.getElem?_eq_getElem hi', hiv] at y1
  refine ⟨y, Option.some.inj y1, ?_⟩
  rcases y2 with ⟨pre, q0, q1, q2, post, t, a, -, t0, t1, -, hy⟩ | ⟨-, hy⟩
  · rw [hy]
    exact quadratic_le _ _ _ t lo hi t0 t1 (hb _ (by rw [a]; simp)) (hb _ (by rw [a]; simp)) (hb _ (by rw [a]; simp))
  · rw [hy]
    have hne : pts ≠ [] := by intro h; rw [h] at hodd; simp at hodd
    apply hb
    rw [List.getLastD_eq_getLast?, List.getLast?_eq_getLast_of_ne_nil hne]
    exact List.getLast_mem hne

/-- **C87 is false** for an even number of keyframes: the signal ends before the last keyframe, and the band reads past its
end. -/
theorem c87_bezier_even_unsafe (rnd : ℝ → ℝ) (fuel n : ℕ) :
    addCurveEffect (splines rnd fuel) 4 1000 0 1000 (List.replicate (n + 30) (some 0))
      { keyframes := [⟨some 0, some 0, none⟩, ⟨some 5, some 1, none⟩, ⟨some 10, some 1, none⟩, ⟨some 20, some 0, none⟩] }
      = .error .ub := by
  have hp : curvePoints 1000 1000 [⟨some 0, some 0, none⟩, ⟨some 5, some 1, none⟩, ⟨some 10, some 1, none⟩,
      ⟨some 20, some 0, none⟩] = .ok [(0, ((0 : ℚ) : ℝ)), (5, ((1 : ℚ) : ℝ)), (10, ((1 : ℚ) : ℝ)), (20, ((0 : ℚ) : ℝ))] := by
    simp [curvePoints, mapE, curvePoint, u32, toSigned]
  unfold addCurveEffect
  simp only [hp]
  rw [if_neg (by simp)]
  obtain ⟨s, e1, s1, -⟩ := bezierSegment_ok (0, ((0 : ℚ) : ℝ)) (5, ((1 : ℚ) : ℝ)) (10, ((1 : ℚ) : ℝ)) (by norm_num)
    (by norm_num) (by norm_num)
  have hi : interpolateCurve (splines rnd fuel) 4 [(0, ((0 : ℚ) : ℝ)), (5, ((1 : ℚ) : ℝ)), (10, ((1 : ℚ) : ℝ)), (20, ((0 : ℚ) : ℝ))]
      = .ok (s ++ [some ((1 : ℚ) : ℝ)]) := by
    simp only [interpolateCurve, CurveType.Linear, splines]
    rw [if_neg (by norm_num), if_pos (by norm_num), if_neg (by norm_num), if_pos trivial]
    unfold bezier
    rw [e1]
    rfl
  rw [hi]
  unfold addCurve
  dsimp only
  rw [if_pos]
  rw [List.any_eq_true]
  refine ⟨20, by rw [List.mem_range, List.length_replicate]; omega, ?_⟩
  simp only at s1
  have hs : s.length = 10 := by omega
  simp [u32, toSigned, hs]

/-- **C87 is false** for long curves: three keyframes that span more than 46340 samples (six seconds at 8 kHz), the second of
them not in the middle, make an `int` overflow. -/
theorem c87_bezier_long_unsafe (p0 p1 p2 : ℤ × ℝ) (l : List (ℤ × ℝ)) (h1 : p0.1 + 46341 ≤ p2.1)
    (h2 : p1.1 - p0.1 ≠ p2.1 - p1.1) : bezier (p0 :: p1 :: p2 :: l) = .error .ub := by
  have : bezierSegment p0 p1 p2 = .error .ub := by
    unfold bezierSegment
    simp only
    rw [if_pos]
    refine ⟨by omega, ?_⟩
    rw [List.any_eq_true]
    refine ⟨p2.1 - p0.1, List.mem_map.2 ⟨(p2.1 - p0.1 - 1).toNat, List.mem_range.2 (by omega), by omega⟩, ?_⟩
    rw [Bool.or_eq_true]
    right
    unfold overflows
    rw [decide_eq_true_eq]
    right
    nlinarith
  unfold bezier
  rw [this]

end Haptics.Splines
