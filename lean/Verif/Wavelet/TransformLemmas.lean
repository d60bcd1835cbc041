import Verif.Wavelet.Transform
import Mathlib.Tactic.Linarith
import Mathlib.Tactic.Ring
import Mathlib.Tactic.NormNum
import Mathlib.Tactic.Positivity
import Mathlib.Algebra.Order.BigOperators.Group.List

/-! Convolutions of symmetrically extended signals. -/

namespace Haptics.Wavelet.Transform
open Haptics

/-- What rounding does: a relative error of `2 ^ -53`, and a tiny absolute one. -/
def Rounding (rnd : ℚ → ℚ) : Prop := ∀ x, |rnd x - x| ≤ |x| / 2 ^ 53 + 1 / 2 ^ 100

/-- `acc + t₁ + t₂ + …` with rounding. -/
def accumulate (rnd : ℚ → ℚ) (acc : ℚ) (ts : List ℚ) : ℚ := ts.foldl (fun a t => rnd (a + rnd t)) acc

theorem accumulate_err {rnd : ℚ → ℚ} (hr : Rounding rnd) (W : ℚ) (hW : 1 ≤ W) : ∀ (ts : List ℚ) (acc S e : ℚ),
    |acc - S| ≤ e → |S| + (ts.map abs).sum ≤ W → e + ts.length * (W / 2 ^ 50) ≤ W →
    |accumulate rnd acc ts - (S + ts.sum)| ≤ e + ts.length * (W / 2 ^ 50)
  | [], acc, S, e, h, _, _ => by simpa [accumulate] using h
  | t :: ts, acc, S, e, h, hs, he => by
    simp only [List.map_cons, List.sum_cons, List.length_cons, Nat.cast_add, Nat.cast_one] at hs he ⊢
    have hts : 0 ≤ (ts.map abs).sum := List.sum_nonneg (by simp)
    have hl : (0 : ℚ) ≤ ts.length * (W / 2 ^ 50) := by positivity
    have h1 := hr t
    have h2 := hr (acc + rnd t)
    have h3 : |rnd (acc + rnd t) - (S + t)| ≤ e + W / 2 ^ 50 := by
      rw [abs_le] at *
      have a1 : |acc + rnd t| ≤ 3 * W := by
        have b1 : |t| ≤ W := by linarith [abs_nonneg S]
        have b2 : |S| ≤ W := by linarith [abs_nonneg t]
        rw [abs_le] at b1 b2 ⊢
        have b3 : |t| ≤ W := abs_le.2 b1
        have : e ≤ W - W / 2 ^ 50 := by linarith
        constructor <;> linarith
      have b1 : |t| ≤ W := by linarith [abs_nonneg S]
      constructor <;> linarith
    have h4 := accumulate_err hr W hW ts (rnd (acc + rnd t)) (S + t) (e + W / 2 ^ 50) h3
      (by linarith [abs_add_le S t]) (by linarith)
    have e1 : accumulate rnd acc (t :: ts) = accumulate rnd (rnd (acc + rnd t)) ts := rfl
    rw [e1]
    have e2 : S + (t + ts.sum) = S + t + ts.sum := by ring
    rw [e2]
    linarith

theorem accumulate_first {rnd : ℚ → ℚ} (hr : Rounding rnd) (W : ℚ) (hW : 1 ≤ W) (t : ℚ) (ts : List ℚ)
    (hs : |t| + (ts.map abs).sum ≤ W) (hl : ts.length ≤ 8) :
    |accumulate rnd (rnd t) ts - (t + ts.sum)| ≤ W / 2 ^ 46 := by
  have hts : 0 ≤ (ts.map abs).sum := List.sum_nonneg (by simp)
  have h0 := hr t
  have hl' : (ts.length : ℚ) ≤ 8 := by exact_mod_cast hl
  have hm : (ts.length : ℚ) * (W / 2 ^ 50) ≤ 8 * (W / 2 ^ 50) :=
    mul_le_mul_of_nonneg_right hl' (by positivity)
  have := accumulate_err hr W hW ts (rnd t) t (W / 2 ^ 50) (by linarith) hs (by linarith)
  linarith

/-! ### The convolution -/

theorem taps_length (rnd : ℚ → ℚ) (x : List ℚ) : ∀ (h : List ℚ) (i : ℕ) (out : List ℚ),
    (taps rnd x i h out).length = out.length
  | [], _, _ => rfl
  | c :: h, i, out => by rw [taps, taps_length rnd x h, List.length_mapIdx]

theorem taps_get (rnd : ℚ → ℚ) (x : List ℚ) (j : ℕ) : ∀ (h : List ℚ) (i : ℕ) (out : List ℚ) (o : ℚ), j < x.length →
    i + h.length ≤ j + 1 → out[j]? = some o →
    (taps rnd x i h out)[j]? = some (accumulate rnd o (h.mapIdx (fun m c => x.getD (j - (i + m)) 0 * c)))
  | [], i, out, o, _, _, ho => by simpa [taps, accumulate] using ho
  | c :: h, i, out, o, hj, hi, ho => by
    rw [List.length_cons] at hi
    rw [taps, taps_get rnd x j h (i + 1) _ (rnd (o + rnd (x.getD (j - i) 0 * c))) hj (by omega)
      (by rw [List.getElem?_mapIdx, ho, Option.map_some, if_pos (by omega)])]
    rw [List.mapIdx_cons]
    congr 1
    simp only [accumulate, List.foldl_cons, Nat.add_zero]
    congr 1
    apply List.mapIdx_eq_mapIdx_iff.2
    intro m hm
    rw [show i + 1 + m = i + (m + 1) by omega]

theorem conv1D_length (rnd : ℚ → ℚ) (x : List ℚ) (c : ℚ) (h : List ℚ) :
    (conv1D rnd x (c :: h)).length = x.length + h.length := by
  rw [conv1D, taps_length, List.length_append, List.length_map, List.length_replicate]

theorem conv1D_get (rnd : ℚ → ℚ) (x : List ℚ) (c : ℚ) (h : List ℚ) (j : ℕ) (hj : j < x.length) (hh : h.length ≤ j) :
    (conv1D rnd x (c :: h))[j]? = some (accumulate rnd (rnd (x.getD j 0 * c))
      (h.mapIdx (fun m c => x.getD (j - (1 + m)) 0 * c))) := by
  rw [conv1D]
  apply taps_get rnd x j h 1 _ _ hj (by omega)
  rw [List.getElem?_append_left (by rw [List.length_map]; exact hj), List.getElem?_map,
    List.getD_eq_getElem?_getD, List.getElem?_eq_getElem hj]
  rfl

/-! ### The extension -/

/-- The index of the sample that the symmetric extension of `n` samples has at `t`. -/
def refl (n : ℕ) (t : ℤ) : ℕ :=
  let r := (t % (2 * n - 2)).toNat
  if r < n then r else 2 * n - 2 - r

/-- The symmetric extension of a signal. -/
def ext (x : List ℚ) (t : ℤ) : ℚ := x.getD (refl x.length t) 0

theorem refl_lt (n : ℕ) (hn : 2 ≤ n) (t : ℤ) : refl n t < n := by
  unfold refl
  have h1 := Int.emod_nonneg t (show (2 * n - 2 : ℤ) ≠ 0 by omega)
  have h2 := Int.emod_lt_of_pos t (show (0 : ℤ) < 2 * n - 2 by omega)
  simp only
  split <;> omega

theorem refl_nat (n : ℕ) (hn : 2 ≤ n) (j : ℕ) (hj : j < n) : refl n j = j := by
  unfold refl
  rw [Int.emod_eq_of_lt (by omega) (by omega)]
  simp [hj]

theorem refl_cases (n : ℕ) (hn : 2 ≤ n) (t : ℤ) : ∃ k : ℤ, t = k * (2 * n - 2) + refl n t ∨
    t = k * (2 * n - 2) - refl n t := by
  have h0 := Int.emod_add_mul_ediv t (2 * n - 2)
  have h1 := Int.emod_nonneg t (show (2 * n - 2 : ℤ) ≠ 0 by omega)
  have h2 := Int.emod_lt_of_pos t (show (0 : ℤ) < 2 * n - 2 by omega)
  unfold refl
  simp only
  split
  · refine ⟨t / (2 * n - 2), .inl ?_⟩
    rw [Int.toNat_of_nonneg h1]
    linarith
  · refine ⟨t / (2 * n - 2) + 1, .inr ?_⟩
    rw [Nat.cast_sub (by omega), Nat.cast_sub (by omega), Int.toNat_of_nonneg h1]
    push_cast
    linarith

/-- A function with the symmetries of the extension has at `t` the value it has at the sample there. -/
theorem symmetric_refl {α : Type} (n : ℕ) (hn : 2 ≤ n) (f : ℤ → α) (h1 : ∀ t, f (-t) = f t)
    (h2 : ∀ t, f (t + (2 * n - 2)) = f t) (t : ℤ) : f (refl n t) = f t := by
  have h3 : ∀ (k : ℕ) (t : ℤ), f (t + k * (2 * n - 2)) = f t := by
    intro k
    induction k with
    | zero => simp
    | succ k ih =>
      intro t
      rw [show t + ((k + 1 : ℕ) : ℤ) * (2 * n - 2) = t + k * (2 * n - 2) + (2 * n - 2) by push_cast; ring, h2, ih]
  have h4 : ∀ (k t : ℤ), f (t + k * (2 * n - 2)) = f t := by
    intro k t
    rcases Int.eq_nat_or_neg k with ⟨m, rfl | rfl⟩
    · exact h3 m t
    · rw [← h3 m (t + -(m : ℤ) * (2 * n - 2))]
      congr 1
      ring
  obtain ⟨k, h | h⟩ := refl_cases n hn t
  · conv_rhs => rw [h, add_comm, h4]
  · nth_rw 2 [h]
    rw [show k * (2 * n - 2) - (refl n t : ℤ) = -(refl n t : ℤ) + k * (2 * n - 2) by ring, h4, h1]

theorem refl_neg (n : ℕ) (hn : 2 ≤ n) (t : ℤ) : refl n (-t) = refl n t := by
  have h1 := Int.emod_nonneg t (show (2 * n - 2 : ℤ) ≠ 0 by omega)
  have h2 := Int.emod_lt_of_pos t (show (0 : ℤ) < 2 * n - 2 by omega)
  have h3 : -t % (2 * n - 2) = if t % (2 * n - 2) = 0 then 0 else 2 * n - 2 - t % (2 * n - 2) := by
    have h0 := Int.emod_add_mul_ediv t (2 * n - 2)
    split
    · rename_i h
      exact Int.emod_eq_zero_of_dvd ((Int.dvd_neg).2 (Int.dvd_of_emod_eq_zero h))
    · rename_i h
      have e : -t = (2 * n - 2 - t % (2 * n - 2)) + (2 * n - 2) * (-(t / (2 * n - 2)) - 1) := by linarith
      rw [e, Int.add_mul_emod_self_left]
      exact Int.emod_eq_of_lt (by omega) (by omega)
  unfold refl
  rw [h3]
  simp only
  split_ifs <;> omega

theorem refl_add (n : ℕ) (t : ℤ) : refl n (t + (2 * n - 2)) = refl n t := by
  unfold refl
  rw [Int.add_emod_right]

theorem refl_parity (n : ℕ) (hn : 2 ≤ n) (t : ℤ) : (refl n t : ℤ) % 2 = t % 2 := by
  obtain ⟨k, h | h⟩ := refl_cases n hn t
  · have : t = refl n t + 2 * (k * (n - 1)) := by linarith
    omega
  · have : t = -refl n t + 2 * (k * (n - 1)) := by linarith
    omega

theorem ext_neg (x : List ℚ) (hx : 2 ≤ x.length) (t : ℤ) : ext x (-t) = ext x t := by
  unfold ext
  rw [refl_neg _ hx]

theorem ext_add (x : List ℚ) (t : ℤ) : ext x (t + (2 * x.length - 2)) = ext x t := by
  unfold ext
  rw [refl_add]

theorem ext_nat (x : List ℚ) (hx : 2 ≤ x.length) (j : ℕ) (hj : j < x.length) : ext x j = x.getD j 0 := by
  unfold ext
  rw [refl_nat _ hx j hj]

theorem ext_le (x : List ℚ) (hx : 2 ≤ x.length) (M : ℚ) (h : ∀ v ∈ x, |v| ≤ M) (t : ℤ) : |ext x t| ≤ M := by
  unfold ext
  have := refl_lt _ hx t
  rw [List.getD_eq_getElem?_getD, List.getElem?_eq_getElem this]
  exact h _ (List.getElem_mem _)

theorem extend_spec (x : List ℚ) (e : ℕ) (hx : e + 1 ≤ x.length) (h2 : 2 ≤ x.length) : ∃ temp, extend x e = .ok temp ∧
    temp.length = x.length + 2 * e ∧ ∀ m < x.length + 2 * e, temp.getD m 0 = ext x (m - e) := by
  refine ⟨_, by rw [extend, if_neg (by omega)], ?_, ?_⟩
  · simp only [List.length_append, List.length_reverse, List.length_take, List.length_drop]
    omega
  · intro m hm
    have l1 : ((x.drop 1).take e).reverse.length = e := by
      simp only [List.length_reverse, List.length_take, List.length_drop]; omega
    have l2 : ((x.drop (x.length - e - 1)).take e).length = e := by
      simp only [List.length_take, List.length_drop]; omega
    rw [List.getD_eq_getElem?_getD]
    by_cases c1 : m < e
    · rw [List.append_assoc, List.getElem?_append_left (by omega), List.getElem?_reverse (by rw [List.length_reverse] at l1; omega)]
      rw [List.length_reverse] at l1
      rw [l1, List.getElem?_take_of_lt (by omega), List.getElem?_drop, ← List.getD_eq_getElem?_getD]
      rw [← ext_neg x h2, show -((m : ℤ) - e) = ((1 + (e - 1 - m) : ℕ) : ℤ) by omega, ext_nat x h2 _ (by omega)]
    · by_cases c2 : m < e + x.length
      · rw [List.getElem?_append_left (by rw [List.length_append, l1]; omega),
          List.getElem?_append_right (by omega), l1, ← List.getD_eq_getElem?_getD,
          show (m : ℤ) - e = ((m - e : ℕ) : ℤ) by omega, ext_nat x h2 _ (by omega)]
      · rw [List.getElem?_append_right (by rw [List.length_append, l1]; omega), List.length_append, l1,
          List.getElem?_reverse (by omega), l2, List.getElem?_take_of_lt (by omega), List.getElem?_drop,
          ← List.getD_eq_getElem?_getD]
        rw [← ext_neg x h2, ← ext_add,
          show -((m : ℤ) - e) + (2 * x.length - 2) = ((x.length - e - 1 + (e - 1 - (m - (e + x.length))) : ℕ) : ℤ)
            by omega, ext_nat x h2 _ (by omega)]

/-- The value of the convolution at `j`, with rounding. -/
def convAt (rnd : ℚ → ℚ) (x : List ℚ) (c : ℚ) (h : List ℚ) (e : ℕ) (j : ℕ) : ℚ :=
  accumulate rnd (rnd (ext x (j + e) * c)) (h.mapIdx (fun m c => ext x (j + e - (1 + m)) * c))

theorem conv_extended (rnd : ℚ → ℚ) (x : List ℚ) (c : ℚ) (h : List ℚ) (e : ℕ) (hh : h.length = 2 * e)
    (hx : e + 1 ≤ x.length) (h2 : 2 ≤ x.length) : ∃ temp, extend x e = .ok temp ∧
    (conv1D rnd temp (c :: h)).length = x.length + 4 * e ∧
    ∀ j < x.length, (conv1D rnd temp (c :: h))[j + 2 * e]? = some (convAt rnd x c h e j) := by
  obtain ⟨temp, h1, hl, hg⟩ := extend_spec x e hx h2
  refine ⟨temp, h1, by rw [conv1D_length]; omega, ?_⟩
  intro j hj
  rw [conv1D_get rnd temp c h _ (by omega) (by omega)]
  congr 1
  unfold convAt
  rw [hg _ (by omega), show ((j + 2 * e : ℕ) : ℤ) - e = j + e by push_cast; ring]
  congr 1
  apply List.mapIdx_eq_mapIdx_iff.2
  intro m hm
  rw [hg _ (by omega), Nat.cast_sub (by omega)]
  push_cast
  rw [show (j : ℤ) + 2 * e - (1 + m) - e = j + e - (1 + m) by ring]

theorem symconv1D_spec (rnd : ℚ → ℚ) (x : List ℚ) (c : ℚ) (h : List ℚ) (e : ℕ) (hh : h.length = 2 * e)
    (hx : e + 1 ≤ x.length) (h2 : 2 ≤ x.length) : 
    symconv1D rnd x (c :: h) = .ok ((List.range x.length).map (convAt rnd x c h e)) := by
  obtain ⟨temp, h1, hl, hg⟩ := conv_extended rnd x c h e hh hx h2
  unfold symconv1D
  have e1 : (c :: h).length / 2 = e := by rw [List.length_cons]; omega
  rw [e1, h1]
  simp only [bind, Except.bind]
  congr 1
  apply List.ext_getElem?
  intro j
  rw [hl]
  by_cases hj : j < x.length
  · rw [List.getElem?_take_of_lt (by omega), List.getElem?_drop, Nat.add_comm, hg j hj, List.getElem?_map,
      List.getElem?_range hj]
    rfl
  · rw [List.getElem?_eq_none (by rw [List.length_take, List.length_drop, hl]; omega),
      List.getElem?_eq_none (by rw [List.length_map, List.length_range]; omega)]

theorem symconv1DAdd_spec (rnd : ℚ → ℚ) (x : List ℚ) (c : ℚ) (h : List ℚ) (e : ℕ) (out : List ℚ) (hh : h.length = 2 * e)
    (hx : e + 1 ≤ x.length) (h2 : 2 ≤ x.length) (ho : out.length = x.length) : 
    symconv1DAdd rnd x (c :: h) out =
      .ok ((List.range x.length).map (fun j => rnd (out.getD j 0 + convAt rnd x c h e j))) := by
  obtain ⟨temp, h1, hl, hg⟩ := conv_extended rnd x c h e hh hx h2
  unfold symconv1DAdd
  have e1 : (c :: h).length / 2 = e := by rw [List.length_cons]; omega
  have e2 : (c :: h).length - 1 = 2 * e := by rw [List.length_cons]; omega
  rw [e1, e2, h1]
  simp only [bind, Except.bind]
  congr 1
  apply List.ext_getElem?
  intro j
  by_cases hj : j < x.length
  · rw [List.getElem?_zipWith, List.getElem?_take_of_lt hj, List.getElem?_drop, Nat.add_comm, hg j hj,
      List.getElem?_map, List.getElem?_range hj, List.getElem?_eq_getElem (by omega)]
    have e3 : out.getD j 0 = out[j] := by
      rw [List.getD_eq_getElem?_getD, List.getElem?_eq_getElem (by omega)]; rfl
    simp only [Option.map_some, e3]
  · rw [List.getElem?_eq_none (by rw [List.length_zipWith, List.length_take]; omega),
      List.getElem?_eq_none (by rw [List.length_map, List.length_range]; omega)]

theorem symconv1D_short (rnd : ℚ → ℚ) (x h : List ℚ) (hx : x.length < h.length / 2 + 1) :
    symconv1D rnd x h = .error .ub := by
  unfold symconv1D extend
  rw [if_pos hx]
  rfl

end Haptics.Wavelet.Transform
