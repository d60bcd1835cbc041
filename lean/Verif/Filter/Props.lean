import Verif.Filter.Model
import Verif.Filter.Spec
import Mathlib.Algebra.BigOperators.Ring.Finset
import Mathlib.Algebra.BigOperators.Intervals
import Mathlib.Algebra.Order.BigOperators.Group.Finset
import Mathlib.Algebra.Order.BigOperators.Ring.Finset
import Mathlib.Tactic.Linarith
import Mathlib.Tactic.Ring
import Mathlib.Tactic.NormNum

/-!
C91: the filters of the filter bank do not shift a signal in time.
-/

namespace Haptics.Filter
open Finset

theorem run_length {σ : Type} (m : Machine σ ℚ) (s : σ) (x : List ℚ) : (run m s x).length = x.length := by
  induction x generalizing s with
  | nil => rfl
  | cons a x ih => rw [run, List.length_cons, List.length_cons, ih]

theorem twice_length {σ : Type} (m : Machine σ ℚ) (x : List ℚ) : (twice m x).length = x.length := by
  unfold twice
  simp [run_length]

/-- The weight of sample `i` in sample `k`. -/
def weight (h : Nat → ℚ) (k i : Nat) : ℚ := if i ≤ k then h (k - i) else 0

theorem at0_reverse (x : List ℚ) (n : Nat) (hn : n < x.length) : at0 x.reverse n = at0 x (x.length - 1 - n) := by
  unfold at0
  rw [List.getElem?_reverse hn]

theorem forward {f : List ℚ → List ℚ} {h : Nat → ℚ} (hf : HasResponse f h) (x : List ℚ) (n : Nat) (hn : n < x.length) :
    at0 (f x) n = ∑ i ∈ range x.length, weight h n i * at0 x i := by
  rw [(hf x).2 n hn]
  have : range (n + 1) = (range x.length).filter (fun i => i ≤ n) := by
    ext i; simp; omega
  rw [this, sum_filter]
  refine sum_congr rfl (fun i _ => ?_)
  unfold weight
  split <;> simp

theorem backward {f : List ℚ → List ℚ} {h : Nat → ℚ} (hf : HasResponse f h) (x : List ℚ) (n : Nat)
    (hn : n < x.length) :
    at0 (f x.reverse).reverse n = ∑ k ∈ range x.length, weight h k n * at0 x k := by
  have hl : (f x.reverse).length = x.length := by rw [(hf _).1, List.length_reverse]
  rw [at0_reverse _ _ (by rw [hl]; exact hn), hl, forward hf _ _ (by rw [List.length_reverse]; omega),
    List.length_reverse]
  rw [← sum_range_reflect]
  refine sum_congr rfl (fun k hk => ?_)
  have hk := mem_range.mp hk
  rw [at0_reverse _ _ (by omega)]
  have e : x.length - 1 - (x.length - 1 - k) = k := by omega
  rw [e]
  congr 1
  unfold weight
  by_cases h1 : n ≤ k
  · rw [if_pos h1, if_pos (by omega)]
    congr 1
    omega
  · rw [if_neg h1, if_neg (by omega)]

/-- How much sample `i` of a signal of `n` samples counts for sample `j` of the filtered one. -/
def kernel (h : Nat → ℚ) (n i j : Nat) : ℚ := ∑ k ∈ range n, weight h k i * weight h k j

theorem kernel_symm (h : Nat → ℚ) (n i j : Nat) : kernel h n i j = kernel h n j i :=
  sum_congr rfl (fun _ _ => mul_comm _ _)

theorem twice_kernel {σ : Type} {m : Machine σ ℚ} {h : Nat → ℚ} (hf : HasResponse (run m m.start) h) (x : List ℚ)
    (j : Nat) (hj : j < x.length) : at0 (twice m x) j = ∑ i ∈ range x.length, kernel h x.length i j * at0 x i := by
  unfold twice
  simp only
  rw [backward hf _ _ (by rw [run_length]; exact hj), run_length]
  have : ∀ k ∈ range x.length, weight h k j * at0 (run m m.start x) k =
      ∑ i ∈ range x.length, weight h k i * weight h k j * at0 x i := fun k hk => by
    rw [forward hf _ _ (mem_range.mp hk), mul_sum]
    exact sum_congr rfl (fun i _ => by ring)
  rw [sum_congr rfl this, sum_comm]
  refine sum_congr rfl (fun i _ => ?_)
  rw [kernel, sum_mul]

theorem impulse_length (n i : Nat) : (impulse n i).length = n := by simp [impulse]

theorem at0_impulse (n i k : Nat) (hk : k < n) : at0 (impulse n i) k = if k = i then 1 else 0 := by
  unfold at0 impulse
  simp [hk]

/-- **C91.** Filtering keeps the number of samples. -/
theorem c91_length {σ : Type} (m : Machine σ ℚ) (x : List ℚ) : (twice m x).length = x.length := twice_length m x

/-- **C91.** The filtered signal does not run behind or ahead: for every pair of places, what is left at `j` of an
impulse at `i` is what is left at `i` of an impulse at `j`, whatever linear filter is used. -/
theorem c91_symmetric {σ : Type} (m : Machine σ ℚ) (h : Nat → ℚ) (hf : HasResponse (run m m.start) h) (n i j : Nat)
    (hi : i < n) (hj : j < n) : at0 (twice m (impulse n i)) j = at0 (twice m (impulse n j)) i := by
  have key : ∀ i j, i < n → j < n → at0 (twice m (impulse n i)) j = kernel h n i j := fun i j hi hj => by
    rw [twice_kernel hf _ _ (by rw [impulse_length]; exact hj), impulse_length]
    rw [sum_eq_single i]
    · rw [at0_impulse _ _ _ hi, if_pos rfl, mul_one]
    · intro k hk hne
      rw [at0_impulse _ _ _ (mem_range.mp hk), if_neg hne, mul_zero]
    · intro h; exact absurd (mem_range.mpr hi) h
  rw [key i j hi hj, key j i hj hi, kernel_symm]

/-- **C91.** Filtering is linear. -/
theorem c91_linear {σ : Type} (m : Machine σ ℚ) (h : Nat → ℚ) (hf : HasResponse (run m m.start) h) (x y : List ℚ)
    (c : ℚ) (hl : x.length = y.length) : twice m (plus x c y) = plus (twice m x) c (twice m y) := by
  have hlen : (plus x c y).length = x.length := by simp [plus, hl]
  have hp : ∀ (u v : List ℚ) (k : Nat), u.length = v.length → k < u.length →
      at0 (plus u c v) k = at0 u k + c * at0 v k := by
    intro u v k huv hk
    unfold at0 plus
    have hv : k < v.length := huv ▸ hk
    simp [List.getElem?_map, hk, hv]
  apply List.ext_getElem
  · rw [twice_length, hlen]; simp [plus, twice_length, hl]
  · intro j h1 h2
    rw [twice_length, hlen] at h1
    have e1 : at0 (twice m (plus x c y)) j = at0 (plus (twice m x) c (twice m y)) j := by
      rw [hp _ _ _ (by simp [twice_length, hl]) (by rw [twice_length]; exact h1),
        twice_kernel hf _ _ (by rw [hlen]; exact h1), twice_kernel hf _ _ h1, twice_kernel hf _ _ (hl ▸ h1), hlen,
        ← hl, mul_sum, ← sum_add_distrib]
      refine sum_congr rfl (fun i hi => ?_)
      rw [hp _ _ _ hl (mem_range.mp hi)]
      ring
    unfold at0 at e1
    rw [List.getElem?_eq_getElem, List.getElem?_eq_getElem h2] at e1
    · exact e1

/-- **C91.** No part of a signal comes out inverted: the filtered signal never points away from the signal. -/
theorem c91_positive {σ : Type} (m : Machine σ ℚ) (h : Nat → ℚ) (hf : HasResponse (run m m.start) h) (x : List ℚ) :
    inner x.length x (twice m x) = inner x.length (run m m.start x) (run m m.start x) ∧
      0 ≤ inner x.length x (twice m x) := by
  have e : inner x.length x (twice m x) = inner x.length (run m m.start x) (run m m.start x) := by
    unfold inner
    have h1 : ∀ j ∈ range x.length, at0 x j * at0 (twice m x) j =
        ∑ k ∈ range x.length, weight h k j * at0 x j * at0 (run m m.start x) k := fun j hj => by
      unfold twice
      simp only
      rw [backward hf _ _ (by rw [run_length]; exact mem_range.mp hj), run_length, mul_sum]
      exact sum_congr rfl (fun k _ => by ring)
    rw [sum_congr rfl h1, sum_comm]
    refine sum_congr rfl (fun k hk => ?_)
    rw [forward hf _ _ (mem_range.mp hk), sum_mul]
  refine ⟨e, ?_⟩
  rw [e]
  exact sum_nonneg (fun i _ => mul_self_nonneg _)

/-! ### An example -/

/-- A filter with feedback: every output is half of the input plus half of the output before. -/
def smooth : Machine ℚ ℚ := ⟨0, fun s x => ((s + x) / 2, (s + x) / 2)⟩

theorem smooth_response : HasResponse (run smooth smooth.start) (fun n => (1 / 2) ^ (n + 1)) := by
  have key : ∀ (x : List ℚ) (s : ℚ) (n : Nat), n < x.length → at0 (run smooth s x) n =
      s * (1 / 2) ^ (n + 1) + ∑ i ∈ range (n + 1), (1 / 2) ^ (n - i + 1) * at0 x i := by
    intro x
    induction x with
    | nil => intro s n hn; simp at hn
    | cons a x ih =>
      intro s n hn
      cases n with
      | zero =>
        simp [at0, run, smooth]
        ring
      | succ n =>
        have h1 : at0 (run smooth s (a :: x)) (n + 1) = at0 (run smooth ((s + a) / 2) x) n := rfl
        rw [h1, ih _ _ (by simpa using hn), sum_range_succ' _ (n + 1)]
        have h2 : ∀ i ∈ range (n + 1), (1 / 2 : ℚ) ^ (n + 1 - (i + 1) + 1) * at0 (a :: x) (i + 1) =
            (1 / 2) ^ (n - i + 1) * at0 x i := fun i _ => by
          rw [Nat.add_sub_add_right]
          rfl
        rw [sum_congr rfl h2]
        have h3 : at0 (a :: x) 0 = a := rfl
        rw [h3, Nat.sub_zero]
        ring
  intro x
  refine ⟨run_length _ _ _, fun n hn => ?_⟩
  have := key x 0 n hn
  rw [zero_mul, zero_add] at this
  exact this

example : twice smooth [0, 0, 1, 0] = [5 / 64, 5 / 32, 5 / 16, 1 / 8] := by
  norm_num [twice, run, smooth]

/-- Going forwards only is not symmetric: the filter alone shifts the signal. -/
example : at0 (run smooth smooth.start (impulse 4 1)) 2 ≠ at0 (run smooth smooth.start (impulse 4 2)) 1 := by
  norm_num [at0, run, smooth, impulse, List.range, List.range.loop]

end Haptics.Filter
