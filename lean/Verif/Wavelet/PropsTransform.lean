import Verif.Wavelet.TransformLevels
import Verif.Wavelet.SpecTransform
import Verif.Bits.PropsFloat

/-! C84: the inverse wavelet transform gives the signal back. -/

namespace Haptics.Wavelet.Transform
open Haptics Finset

theorem rounding_fl64 : Rounding fl64 := by
  intro x
  have h1 := flo_abs_err 53 (-1022) x
  have h2 : (2 : ℚ) ^ ((-1022 : ℤ) - (53 : ℕ)) ≤ 1 / 2 ^ 100 := by
    rw [one_div, ← zpow_natCast, ← zpow_neg]
    exact zpow_le_zpow_right₀ (by norm_num) (by norm_num)
  have h3 : (2 : ℚ) ^ (-((53 : ℕ) : ℤ)) = 1 / 2 ^ 53 := by norm_num
  rw [h3, mul_one_div] at h1
  unfold fl64
  linarith

theorem rounding_exact : Rounding (fun x => x) := by
  intro x
  simp only [sub_self, abs_zero]
  positivity

theorem getD_append_left (a b : List ℚ) (i : ℕ) (h : i < a.length) : (a ++ b).getD i 0 = a.getD i 0 := by
  rw [List.getD_eq_getElem?_getD, List.getElem?_append_left h, ← List.getD_eq_getElem?_getD]

theorem getD_append_right (a b : List ℚ) (i : ℕ) : (a ++ b).getD (a.length + i) 0 = b.getD i 0 := by
  rw [List.getD_eq_getElem?_getD, List.getElem?_append_right (by omega), ← List.getD_eq_getElem?_getD]
  congr 1
  omega

theorem getD_take (a : List ℚ) (n i : ℕ) (h : i < n) : (a.take n).getD i 0 = a.getD i 0 := by
  rw [List.getD_eq_getElem?_getD, List.getElem?_take_of_lt h, ← List.getD_eq_getElem?_getD]

theorem getD_drop (a : List ℚ) (n i : ℕ) : (a.drop n).getD i 0 = a.getD (n + i) 0 := by
  rw [List.getD_eq_getElem?_getD, List.getElem?_drop, ← List.getD_eq_getElem?_getD]

theorem invRec_err {rnd : ℚ → ℚ} (hr : Rounding rnd) (first : ℕ) (hf : 3 ≤ first) (D : ℕ → ℚ) (hD : ∀ b, 0 ≤ D b) :
    ∀ (k : ℕ) (x c : List ℚ) (M : ℚ), x.length = first * 2 ^ k → c.length = first * 2 ^ k → 1 ≤ M →
    (∀ v ∈ x, |v| ≤ M) → (∀ b ≤ k, ∀ i, Band first b i → |c.getD i 0 - (dwtRec rnd k x).getD i 0| ≤ D b) →
    ∀ i < first * 2 ^ k, |(invRec rnd k c).getD i 0 - x.getD i 0| ≤
      (2 ^ k - 1) / 2 ^ 41 * M + (D 0 + 6 / 5 * ∑ b ∈ range k, D (b + 1))
  | 0, x, c, M, _, _, _, _, h, i, hi => by
    have := h 0 le_rfl i (show i < first by simpa using hi)
    simpa [invRec, dwtRec] using this
  | k + 1, x, c, M, hxl, hcl, hM, hx, h, i, hi => by
    have e : first * 2 ^ (k + 1) = 2 * (first * 2 ^ k) := by rw [pow_succ]; ring
    have h3 : 3 ≤ first * 2 ^ k := le_trans hf (Nat.le_mul_of_pos_right _ (by positivity))
    rw [e] at hxl hcl hi
    have hlo := lowPart_length rnd x _ hxl
    have hdl : (dwtRec rnd k (lowPart rnd x)).length = first * 2 ^ k := dwtRec_length rnd first k _ hlo
    have htl : (c.take (first * 2 ^ k)).length = first * 2 ^ k := by rw [List.length_take]; omega
    have ih := invRec_err hr first hf D hD k (lowPart rnd x) (c.take (first * 2 ^ k)) (2 * M) hlo htl (by linarith)
      (lowPart_le hr x _ hxl h3 M hM hx) (by
        intro b hb i hbi
        have hi : i < first * 2 ^ k := by
          match b, hb, hbi with
          | 0, _, hbi => exact lt_of_lt_of_le hbi (Nat.le_mul_of_pos_right _ (by positivity))
          | b + 1, hb, hbi =>
            exact lt_of_lt_of_le hbi.2 (Nat.mul_le_mul_left _ (Nat.pow_le_pow_right (by norm_num) hb))
        have := h b (by omega) i hbi
        rw [dwtRec, getD_append_left _ _ _ (by omega)] at this
        rw [getD_take _ _ _ hi]
        exact this)
    have hh : ∀ i < first * 2 ^ k, |(c.drop (first * 2 ^ k)).getD i 0 - (highPart rnd x).getD i 0| ≤ D (k + 1) := by
      intro i hi
      have := h (k + 1) le_rfl (first * 2 ^ k + i) ⟨by omega, by omega⟩
      rw [dwtRec, ← hdl, getD_append_right, hdl] at this
      rw [getD_drop]
      exact this
    set S := D 0 + 6 / 5 * ∑ b ∈ range k, D (b + 1) with hS
    have hS0 : 0 ≤ S := by
      have : 0 ≤ ∑ b ∈ range k, D (b + 1) := Finset.sum_nonneg (fun b _ => hD (b + 1))
      have := hD 0
      positivity
    have hk1 : (1 : ℚ) ≤ 2 ^ k := one_le_pow₀ (by norm_num)
    have hE0 : 0 ≤ (2 ^ k - 1) / 2 ^ 41 * (2 * M) := by
      apply mul_nonneg (div_nonneg (by linarith) (by norm_num)) (by linarith)
    have hs := synth_err hr x (invRec rnd k (c.take (first * 2 ^ k))) (c.drop (first * 2 ^ k)) (first * 2 ^ k) hxl h3
      (invRec_length rnd first k _ htl) (by rw [List.length_drop]; omega) M hM hx
      (M / 2 ^ 45 + ((2 ^ k - 1) / 2 ^ 41 * (2 * M) + S)) (M / 2 ^ 45 + D (k + 1))
      (by
        intro j hj
        have a := ih j hj
        have b := lowPart_err hr x _ hxl h3 M hM hx j hj
        rw [abs_le] at *
        constructor <;> linarith)
      (by
        intro j hj
        have a := hh j hj
        have b := highPart_err hr x _ hxl h3 M hM hx j hj
        rw [abs_le] at *
        constructor <;> linarith) i hi
    rw [invRec, show c.length / 2 = first * 2 ^ k by omega]
    refine hs.trans ?_
    have es : D 0 + 6 / 5 * ∑ b ∈ range (k + 1), D (b + 1) = S + 6 / 5 * D (k + 1) := by
      rw [sum_range_succ, hS]
      ring
    have ep : ((2 : ℚ) ^ (k + 1) - 1) / 2 ^ 41 * M = (2 ^ k - 1) / 2 ^ 41 * (2 * M) + M / 2 ^ 41 := by
      rw [pow_succ]
      ring
    rw [es, ep]
    have := hD (k + 1)
    generalize (2 ^ k - 1) / 2 ^ 41 * (2 * M) = E at *
    linarith

theorem dwt_rec (rnd : ℚ → ℚ) (first levels : ℕ) (hf : 3 ≤ first) (hl : 1 ≤ levels) (x : List ℚ)
    (hx : x.length = first * 2 ^ levels) : dwt rnd levels x = .ok (dwtRec rnd levels x) := by
  obtain ⟨k, rfl⟩ : ∃ k, levels = k + 1 := ⟨levels - 1, by omega⟩
  unfold dwt
  rw [dwtLoop_spec rnd first hf x.length k 0 x _ (by rw [Nat.shiftRight_zero, hx]) hx.ge, ← hx, List.take_length,
    List.drop_of_length_le (by rw [List.length_replicate]), List.append_nil]

theorem invDwt_rec (rnd : ℚ → ℚ) (first levels : ℕ) (hf : 3 ≤ first) (c : List ℚ)
    (hc : c.length = first * 2 ^ levels) : invDwt rnd levels c = .ok (invRec rnd levels c) := by
  unfold invDwt
  rw [hc]
  exact invLoop_spec rnd first hf levels c hc

/-- The error of the transform and its inverse, for any arithmetic as precise as `double`. -/
theorem transform_err {rnd : ℚ → ℚ} (hr : Rounding rnd) (first levels : ℕ) (hf : 3 ≤ first) (hl : 1 ≤ levels) (x : List ℚ)
    (hx : x.length = first * 2 ^ levels) (M : ℚ) (hM : 1 ≤ M) (hxM : ∀ v ∈ x, |v| ≤ M) :
    ∃ c, dwt rnd levels x = .ok c ∧ c.length = x.length ∧
      ∀ (c' : List ℚ) (D : ℕ → ℚ), c'.length = c.length → (∀ b, 0 ≤ D b) →
        (∀ b ≤ levels, ∀ i, Band first b i → |c'.getD i 0 - c.getD i 0| ≤ D b) →
        ∃ y, invDwt rnd levels c' = .ok y ∧
          Close (2 ^ levels / 2 ^ 41 * M + (D 0 + 6 / 5 * ∑ b ∈ range levels, D (b + 1))) y x := by
  refine ⟨dwtRec rnd levels x, dwt_rec rnd first levels hf hl x hx,
    (dwtRec_length rnd first levels x hx).trans hx.symm, ?_⟩
  intro c' D hc' hD h
  rw [dwtRec_length rnd first levels x hx] at hc'
  refine ⟨invRec rnd levels c', invDwt_rec rnd first levels hf c' hc',
    (invRec_length rnd first levels c' hc').trans hx.symm, ?_⟩
  intro i hi
  refine (invRec_err hr first hf D hD levels x c' M hx hc' hM hxM h i (by omega)).trans ?_
  have : ((2 : ℚ) ^ levels - 1) / 2 ^ 41 * M ≤ 2 ^ levels / 2 ^ 41 * M := by
    apply mul_le_mul_of_nonneg_right _ (by linarith)
    apply div_le_div_of_nonneg_right (by linarith) (by norm_num)
  linarith

/-- **C84.** Transforming a signal and transforming it back gives the signal, up to an error of
`2 ^ levels / 2 ^ 41` of its amplitude: for every number of levels, and every length that is at least three
times two to the power of the levels and a multiple of it. -/
theorem c84_reconstructs (first levels : ℕ) (hf : 3 ≤ first) (hl : 1 ≤ levels) (x : List ℚ)
    (hx : x.length = first * 2 ^ levels) (M : ℚ) (hM : 1 ≤ M) (hxM : ∀ v ∈ x, |v| ≤ M) :
    ∃ c y, dwt fl64 levels x = .ok c ∧ invDwt fl64 levels c = .ok y ∧ Close (2 ^ levels / 2 ^ 41 * M) y x := by
  obtain ⟨c, h1, -, h2⟩ := transform_err rounding_fl64 first levels hf hl x hx M hM hxM
  obtain ⟨y, h3, h4⟩ := h2 c (fun _ => 0) rfl (fun _ => le_rfl) (by simp)
  exact ⟨c, y, h1, h3, by simpa using h4⟩

/-- **C84.** Changing the coefficients by at most `D b` in band `b` changes no sample by more than `D 0` and 6/5 of
the sum of the others (and the error of the transform itself). -/
theorem c84_quantised (first levels : ℕ) (hf : 3 ≤ first) (hl : 1 ≤ levels) (x : List ℚ)
    (hx : x.length = first * 2 ^ levels) (M : ℚ) (hM : 1 ≤ M) (hxM : ∀ v ∈ x, |v| ≤ M) :
    ∃ c, dwt fl64 levels x = .ok c ∧ c.length = x.length ∧
      ∀ (c' : List ℚ) (D : ℕ → ℚ), c'.length = c.length → (∀ b, 0 ≤ D b) →
        (∀ b ≤ levels, ∀ i, Band first b i → |c'.getD i 0 - c.getD i 0| ≤ D b) →
        ∃ y, invDwt fl64 levels c' = .ok y ∧
          Close (2 ^ levels / 2 ^ 41 * M + (D 0 + 6 / 5 * ∑ b ∈ range levels, D (b + 1))) y x :=
  transform_err rounding_fl64 first levels hf hl x hx M hM hxM

/-- A block of 16 samples, two levels. -/
example : ∃ x : List ℚ, x.length = 4 * 2 ^ 2 ∧ (∀ v ∈ x, |v| ≤ 1) ∧
    ∃ c y, dwt fl64 2 x = .ok c ∧ invDwt fl64 2 c = .ok y ∧ Close (1 / 2 ^ 39) y x := by
  refine ⟨[0, 1 / 2, 1, 1 / 2, 0, -1 / 2, -1, -1 / 2, 0, 1 / 2, 1, 1 / 2, 0, -1 / 2, -1, -1 / 2], rfl, by decide +kernel, ?_⟩
  obtain ⟨c, y, h1, h2, h3⟩ := c84_reconstructs 4 2 (by norm_num) (by norm_num)
    [0, 1 / 2, 1, 1 / 2, 0, -1 / 2, -1, -1 / 2, 0, 1 / 2, 1, 1 / 2, 0, -1 / 2, -1, -1 / 2] rfl 1 le_rfl (by decide +kernel)
  refine ⟨c, y, h1, h2, ?_⟩
  convert h3 using 1
  norm_num

theorem dwtStep_odd (rnd : ℚ → ℚ) (len : ℕ) (x out : List ℚ) (h : len % 2 = 1) : dwtStep rnd len x out = .error .ub := by
  unfold dwtStep
  have hs : ∀ (a h : List ℚ), (∃ y, symconv1D rnd a h = .ok y) ∨ symconv1D rnd a h = .error .ub := by
    intro a h
    unfold symconv1D extend
    split
    · exact .inr rfl
    · exact .inl ⟨_, rfl⟩
  rcases hs (x.take len) hp with ⟨y, e⟩ | e <;> rw [e]
  · rcases hs (x.take len) lp with ⟨z, e'⟩ | e' <;> rw [e']
    · simp only [bind, Except.bind, if_pos h]
    · rfl
  · rfl

/-- **C84 is false** for signals of less than five samples, or an odd number of them: the transform accesses memory
outside its vectors. -/
theorem c84_length_unsafe (rnd : ℚ → ℚ) (levels : ℕ) (x : List ℚ) (h : x.length < 5 ∨ x.length % 2 = 1) :
    dwt rnd (levels + 1) x = .error .ub := by
  unfold dwt
  rw [dwtLoop, Nat.shiftRight_zero]
  have : dwtStep rnd x.length x (List.replicate x.length 0) = .error .ub := by
    rcases h with h | h
    · unfold dwtStep
      rw [List.take_length]
      have e2 : symconv1D rnd x lp = .error .ub := symconv1D_short rnd x lp (by simp [lp]; omega)
      rw [e2]
      cases e1 : symconv1D rnd x hp with
      | ok y => rfl
      | error e =>
        have : e = .ub := by
          unfold symconv1D extend at e1
          split at e1
          · injection e1 with e1; exact e1.symm
          · cases e1
        rw [this]
        rfl
    · exact dwtStep_odd rnd _ x _ h
  rw [this]
  rfl

/-- **C84 is false** without levels, which is what the encoder chooses for blocks of 4 to 7 samples: the transform of
every signal is zero. -/
theorem c84_levels_negation (rnd : ℚ → ℚ) (x : List ℚ) : dwt rnd 0 x = .ok (List.replicate x.length 0) := rfl

end Haptics.Wavelet.Transform
