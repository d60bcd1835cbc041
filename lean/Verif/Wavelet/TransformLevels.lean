import Verif.Wavelet.TransformRecon
import Mathlib.Algebra.Order.BigOperators.Group.Finset

/-! The levels of the transform. -/

namespace Haptics.Wavelet.Transform
open Haptics

theorem evens_get : ∀ (l : List ℚ) (k : ℕ), (evens l)[k]? = l[2 * k]?
  | [], k => by simp [evens]
  | [a], 0 => by simp [evens]
  | [a], k + 1 => by simp [evens]
  | a :: b :: l, 0 => by simp [evens]
  | a :: b :: l, k + 1 => by
    rw [evens, List.getElem?_cons_succ, evens_get l k, show 2 * (k + 1) = 2 * k + 1 + 1 by ring]
    rfl

theorem odds_get : ∀ (l : List ℚ) (k : ℕ), (odds l)[k]? = l[2 * k + 1]?
  | [], k => by simp [odds]
  | [a], k => by simp [odds]
  | a :: b :: l, 0 => by simp [odds]
  | a :: b :: l, k + 1 => by
    rw [odds, List.getElem?_cons_succ, odds_get l k, show 2 * (k + 1) + 1 = 2 * k + 1 + 1 + 1 by ring]
    rfl

theorem evens_length : ∀ (l : List ℚ), (evens l).length = (l.length + 1) / 2
  | [] => rfl
  | [a] => by simp [evens]
  | a :: b :: l => by
    rw [evens, List.length_cons, evens_length l]
    simp only [List.length_cons]
    omega

theorem odds_length : ∀ (l : List ℚ), (odds l).length = l.length / 2
  | [] => rfl
  | [a] => by simp [odds]
  | a :: b :: l => by
    rw [odds, List.length_cons, odds_length l]
    simp only [List.length_cons]
    omega

theorem spreadEven_length : ∀ (l : List ℚ), (spreadEven l).length = 2 * l.length
  | [] => rfl
  | a :: l => by
    rw [spreadEven, List.length_cons, List.length_cons, List.length_cons, spreadEven_length l]
    ring

theorem spreadOdd_length : ∀ (l : List ℚ), (spreadOdd l).length = 2 * l.length
  | [] => rfl
  | a :: l => by
    rw [spreadOdd, List.length_cons, List.length_cons, List.length_cons, spreadOdd_length l]
    ring

theorem spreadEven_get : ∀ (l : List ℚ) (m : ℕ),
    (spreadEven l).getD m 0 = if m % 2 = 0 then l.getD (m / 2) 0 else 0
  | [], m => by simp [spreadEven]
  | a :: l, 0 => by simp [spreadEven]
  | a :: l, 1 => by simp [spreadEven]
  | a :: l, m + 2 => by
    rw [spreadEven, List.getD_cons_succ, List.getD_cons_succ, spreadEven_get l m, Nat.add_mod_right,
      show (m + 2) / 2 = m / 2 + 1 by omega, List.getD_cons_succ]

theorem spreadOdd_get : ∀ (l : List ℚ) (m : ℕ),
    (spreadOdd l).getD m 0 = if m % 2 = 1 then l.getD (m / 2) 0 else 0
  | [], m => by simp [spreadOdd]
  | a :: l, 0 => by simp [spreadOdd]
  | a :: l, 1 => by simp [spreadOdd]
  | a :: l, m + 2 => by
    rw [spreadOdd, List.getD_cons_succ, List.getD_cons_succ, spreadOdd_get l m, Nat.add_mod_right,
      show (m + 2) / 2 = m / 2 + 1 by omega, List.getD_cons_succ]

/-! ### One level -/

/-- The lower half of a level. -/
def lowPart (rnd : ℚ → ℚ) (x : List ℚ) : List ℚ :=
  evens ((List.range x.length).map (convAt rnd x LP_4 [LP_3, LP_2, LP_1, LP_0, LP_1, LP_2, LP_3, LP_4] 4))

/-- The upper half of a level. -/
def highPart (rnd : ℚ → ℚ) (x : List ℚ) : List ℚ :=
  odds ((List.range x.length).map (convAt rnd x HP_3 [HP_2, HP_1, HP_0, HP_1, HP_2, HP_3] 3))

/-- The signal of two halves. -/
def synth (rnd : ℚ → ℚ) (lo hi : List ℚ) : List ℚ :=
  (List.range (2 * lo.length)).map (fun j => rnd
    (convAt rnd (spreadOdd hi) (-LP_4) [LP_3, -LP_2, LP_1, -LP_0, LP_1, -LP_2, LP_3, -LP_4] 4 j
      + convAt rnd (spreadEven lo) HP_3 [-HP_2, HP_1, -HP_0, HP_1, -HP_2, HP_3] 3 j))

theorem lowPart_length (rnd : ℚ → ℚ) (x : List ℚ) (m : ℕ) (h : x.length = 2 * m) : (lowPart rnd x).length = m := by
  rw [lowPart, evens_length, List.length_map, List.length_range]
  omega

theorem highPart_length (rnd : ℚ → ℚ) (x : List ℚ) (m : ℕ) (h : x.length = 2 * m) : (highPart rnd x).length = m := by
  rw [highPart, odds_length, List.length_map, List.length_range]
  omega

theorem synth_length (rnd : ℚ → ℚ) (lo hi : List ℚ) : (synth rnd lo hi).length = 2 * lo.length := by
  rw [synth, List.length_map, List.length_range]

theorem lowPart_err {rnd : ℚ → ℚ} (hr : Rounding rnd) (x : List ℚ) (m : ℕ) (h : x.length = 2 * m) (hm : 3 ≤ m)
    (M : ℚ) (hM : 1 ≤ M) (hx : ∀ v ∈ x, |v| ≤ M) (k : ℕ) (hk : k < m) :
    |(lowPart rnd x).getD k 0 - low (ext x) (2 * k)| ≤ M / 2 ^ 45 := by
  have e : (lowPart rnd x).getD k 0 =
      convAt rnd x LP_4 [LP_3, LP_2, LP_1, LP_0, LP_1, LP_2, LP_3, LP_4] 4 (2 * k) := by
    rw [List.getD_eq_getElem?_getD, lowPart, evens_get, List.getElem?_map, List.getElem?_range (by omega)]
    rfl
  rw [e]
  have := convAt9_err hr x M hM (ext_le x (by omega) M hx) LP_4 LP_3 LP_2 LP_1 LP_0
    (by linarith [lp_norm]) (2 * k)
  push_cast at this
  exact this

theorem highPart_err {rnd : ℚ → ℚ} (hr : Rounding rnd) (x : List ℚ) (m : ℕ) (h : x.length = 2 * m) (hm : 3 ≤ m)
    (M : ℚ) (hM : 1 ≤ M) (hx : ∀ v ∈ x, |v| ≤ M) (k : ℕ) (hk : k < m) :
    |(highPart rnd x).getD k 0 - high (ext x) (2 * k + 1)| ≤ M / 2 ^ 45 := by
  have e : (highPart rnd x).getD k 0 = convAt rnd x HP_3 [HP_2, HP_1, HP_0, HP_1, HP_2, HP_3] 3 (2 * k + 1) := by
    rw [List.getD_eq_getElem?_getD, highPart, odds_get, List.getElem?_map, List.getElem?_range (by omega)]
    rfl
  rw [e]
  have := convAt7_err hr x M hM (ext_le x (by omega) M hx) HP_3 HP_2 HP_1 HP_0
    (by linarith [hp_norm]) (2 * k + 1)
  push_cast at this
  exact this

theorem lowPart_le {rnd : ℚ → ℚ} (hr : Rounding rnd) (x : List ℚ) (m : ℕ) (h : x.length = 2 * m) (hm : 3 ≤ m)
    (M : ℚ) (hM : 1 ≤ M) (hx : ∀ v ∈ x, |v| ≤ M) : ∀ v ∈ lowPart rnd x, |v| ≤ 2 * M := by
  intro v hv
  obtain ⟨k, hk, rfl⟩ := List.getElem_of_mem hv
  rw [lowPart_length rnd x m h] at hk
  have h1 := lowPart_err hr x m h hm M hM hx k hk
  have h2 := low_le (ext x) M (ext_le x (by omega) M hx) (2 * k)
  rw [List.getD_eq_getElem?_getD, List.getElem?_eq_getElem (by rw [lowPart_length rnd x m h]; exact hk),
    Option.getD_some] at h1
  rw [abs_le] at *
  constructor <;> linarith

/-- The error of a level: `dl` and `dh` are the errors of the halves. -/
theorem synth_err {rnd : ℚ → ℚ} (hr : Rounding rnd) (x lo hi : List ℚ) (m : ℕ) (h : x.length = 2 * m) (hm : 3 ≤ m)
    (hlo : lo.length = m) (hhi : hi.length = m) (M : ℚ) (hM : 1 ≤ M) (hx : ∀ v ∈ x, |v| ≤ M) (dl dh : ℚ)
    (h1 : ∀ k < m, |lo.getD k 0 - low (ext x) (2 * k)| ≤ dl)
    (h2 : ∀ k < m, |hi.getD k 0 - high (ext x) (2 * k + 1)| ≤ dh) (j : ℕ) (hj : j < 2 * m) :
    |(synth rnd lo hi).getD j 0 - x.getD j 0| ≤
      M / 2 ^ 49 + 97 / 100 * dl + 23 / 20 * dh + (2 * M + dl + dh) / 2 ^ 43 := by
  have hx2 : 2 ≤ x.length := by omega
  have hf := ext_le x hx2 M hx
  have hdl : 0 ≤ dl := (abs_nonneg _).trans (h1 0 (by omega))
  have hdh : 0 ≤ dh := (abs_nonneg _).trans (h2 0 (by omega))
  have symL : ∀ t, low (ext x) (refl x.length t) = low (ext x) t :=
    symmetric_refl x.length hx2 (low (ext x)) (low_neg _ (ext_neg x hx2)) (low_add _ _ (ext_add x))
  have symH : ∀ t, high (ext x) (refl x.length t) = high (ext x) t :=
    symmetric_refl x.length hx2 (high (ext x)) (high_neg _ (ext_neg x hx2)) (high_add _ _ (ext_add x))
  -- the two halves with zeros between the values
  have le0 : ∀ t : ℤ, t % 2 = 0 → |ext (spreadEven lo) t - low (ext x) t| ≤ dl := by
    intro t ht
    have p := refl_parity x.length hx2 t
    have q := refl_lt x.length hx2 t
    unfold ext
    rw [spreadEven_length, hlo, ← h, spreadEven_get, if_pos (by omega)]
    have := h1 (refl x.length t / 2) (by omega)
    rw [show (2 * ((refl x.length t / 2 : ℕ) : ℤ)) = (refl x.length t : ℤ) by omega, symL] at this
    exact this
  have le1 : ∀ t : ℤ, t % 2 = 1 → ext (spreadEven lo) t = 0 := by
    intro t ht
    have p := refl_parity x.length hx2 t
    unfold ext
    rw [spreadEven_length, hlo, ← h, spreadEven_get, if_neg (by omega)]
  have he1 : ∀ t : ℤ, t % 2 = 1 → |ext (spreadOdd hi) t - high (ext x) t| ≤ dh := by
    intro t ht
    have p := refl_parity x.length hx2 t
    have q := refl_lt x.length hx2 t
    unfold ext
    rw [spreadOdd_length, hhi, ← h, spreadOdd_get, if_pos (by omega)]
    have := h2 (refl x.length t / 2) (by omega)
    rw [show (2 * ((refl x.length t / 2 : ℕ) : ℤ) + 1) = (refl x.length t : ℤ) by omega, symH] at this
    exact this
  have he0 : ∀ t : ℤ, t % 2 = 0 → ext (spreadOdd hi) t = 0 := by
    intro t ht
    have p := refl_parity x.length hx2 t
    unfold ext
    rw [spreadOdd_length, hhi, ← h, spreadOdd_get, if_neg (by omega)]
  set B := 2 * M + dl + dh with hB
  have bl : ∀ t, |ext (spreadEven lo) t| ≤ B := by
    intro t
    rcases Int.emod_two_eq_zero_or_one t with ht | ht
    · have a := le0 t ht
      have b := low_le (ext x) M hf t
      rw [abs_le] at *
      constructor <;> linarith
    · rw [le1 t ht, abs_zero]; linarith
  have bh : ∀ t, |ext (spreadOdd hi) t| ≤ B := by
    intro t
    rcases Int.emod_two_eq_zero_or_one t with ht | ht
    · rw [he0 t ht, abs_zero]; linarith
    · have a := he1 t ht
      have b := high_le (ext x) M hf t
      rw [abs_le] at *
      constructor <;> linarith
  have c1 := convAt9_err hr (spreadOdd hi) B (by linarith) bh (-LP_4) LP_3 (-LP_2) LP_1 (-LP_0)
    (by simp only [abs_neg]; linarith [lp_norm]) j
  have c2 := convAt7_err hr (spreadEven lo) B (by linarith) bl HP_3 (-HP_2) HP_1 (-HP_0)
    (by simp only [abs_neg]; linarith [hp_norm]) j
  have eg : (synth rnd lo hi).getD j 0 = rnd
    (convAt rnd (spreadOdd hi) (-LP_4) [LP_3, -LP_2, LP_1, -LP_0, LP_1, -LP_2, LP_3, -LP_4] 4 j
      + convAt rnd (spreadEven lo) HP_3 [-HP_2, HP_1, -HP_0, HP_1, -HP_2, HP_3] 3 j) := by
    rw [List.getD_eq_getElem?_getD, synth, List.getElem?_map, List.getElem?_range (by omega)]
    rfl
  rw [eg]
  generalize convAt rnd (spreadOdd hi) (-LP_4) [LP_3, -LP_2, LP_1, -LP_0, LP_1, -LP_2, LP_3, -LP_4] 4 j = u at *
  generalize convAt rnd (spreadEven lo) HP_3 [-HP_2, HP_1, -HP_0, HP_1, -HP_2, HP_3] 3 j = v at *
  -- the exact sum is close to the signal
  have key : |(-LP_4 * (ext (spreadOdd hi) (j + 4) + ext (spreadOdd hi) (j + -4)) +
      LP_3 * (ext (spreadOdd hi) (j + 3) + ext (spreadOdd hi) (j + -3)) +
      -LP_2 * (ext (spreadOdd hi) (j + 2) + ext (spreadOdd hi) (j + -2)) +
      LP_1 * (ext (spreadOdd hi) (j + 1) + ext (spreadOdd hi) (j + -1)) + -LP_0 * ext (spreadOdd hi) j) +
      (HP_3 * (ext (spreadEven lo) (j + 3) + ext (spreadEven lo) (j + -3)) +
      -HP_2 * (ext (spreadEven lo) (j + 2) + ext (spreadEven lo) (j + -2)) +
      HP_1 * (ext (spreadEven lo) (j + 1) + ext (spreadEven lo) (j + -1)) + -HP_0 * ext (spreadEven lo) j)
      - ext x j| ≤ M / 2 ^ 49 + 97 / 100 * dl + 23 / 20 * dh := by
    rcases Int.emod_two_eq_zero_or_one (j : ℤ) with hp | hp
    · rw [he0 (j + 4) (by omega), he0 (j + -4) (by omega), he0 (j + 2) (by omega), he0 (j + -2) (by omega),
        he0 j hp, le1 (j + 3) (by omega), le1 (j + -3) (by omega), le1 (j + 1) (by omega), le1 (j + -1) (by omega)]
      have r := recon_even (ext x) M hf j
      have a1 := he1 (j + 3) (by omega)
      have a2 := he1 (j + -3) (by omega)
      have a3 := he1 (j + 1) (by omega)
      have a4 := he1 (j + -1) (by omega)
      have a5 := le0 (j + 2) (by omega)
      have a6 := le0 (j + -2) (by omega)
      have a7 := le0 j hp
      rw [LP_1_eq, LP_3_eq, HP_0_eq, HP_2_eq] at *
      clear c1 c2 bl bh le0 le1 he0 he1 symL symH h1 h2
      rw [abs_le] at *
      constructor <;> linarith
    · rw [le1 j hp, le1 (j + 2) (by omega), le1 (j + -2) (by omega),
        he0 (j + 3) (by omega), he0 (j + -3) (by omega), he0 (j + 1) (by omega), he0 (j + -1) (by omega)]
      have r := recon_odd (ext x) M hf j
      have a1 := le0 (j + 3) (by omega)
      have a2 := le0 (j + -3) (by omega)
      have a3 := le0 (j + 1) (by omega)
      have a4 := le0 (j + -1) (by omega)
      have a5 := he1 (j + 2) (by omega)
      have a6 := he1 (j + -2) (by omega)
      have a7 := he1 j hp
      have a8 := he1 (j + 4) (by omega)
      have a9 := he1 (j + -4) (by omega)
      rw [LP_0_eq, LP_2_eq, LP_4_eq, HP_1_eq, HP_3_eq] at *
      clear c1 c2 bl bh le0 le1 he0 he1 symL symH h1 h2
      rw [abs_le] at *
      constructor <;> linarith
  rw [ext_nat x hx2 j (by omega)] at key
  have hxj : |x.getD j 0| ≤ M := by rw [← ext_nat x hx2 j (by omega)]; exact hf _
  have hu := hr (u + v)
  generalize (-LP_4 * (ext (spreadOdd hi) (j + 4) + ext (spreadOdd hi) (j + -4)) +
      LP_3 * (ext (spreadOdd hi) (j + 3) + ext (spreadOdd hi) (j + -3)) +
      -LP_2 * (ext (spreadOdd hi) (j + 2) + ext (spreadOdd hi) (j + -2)) +
      LP_1 * (ext (spreadOdd hi) (j + 1) + ext (spreadOdd hi) (j + -1)) + -LP_0 * ext (spreadOdd hi) j) = U at *
  generalize (HP_3 * (ext (spreadEven lo) (j + 3) + ext (spreadEven lo) (j + -3)) +
      -HP_2 * (ext (spreadEven lo) (j + 2) + ext (spreadEven lo) (j + -2)) +
      HP_1 * (ext (spreadEven lo) (j + 1) + ext (spreadEven lo) (j + -1)) + -HP_0 * ext (spreadEven lo) j) = V at *
  have huv : |u + v| ≤ 4 * B := by
    rw [abs_le] at *
    constructor <;> linarith
  rw [abs_le] at c1 c2 key hu ⊢
  constructor <;> linarith

/-! ### All levels -/

/-- The transform, level by level. -/
def dwtRec (rnd : ℚ → ℚ) : ℕ → List ℚ → List ℚ
  | 0, x => x
  | k + 1, x => dwtRec rnd k (lowPart rnd x) ++ highPart rnd x

/-- The inverse transform, level by level. -/
def invRec (rnd : ℚ → ℚ) : ℕ → List ℚ → List ℚ
  | 0, c => c
  | k + 1, c => synth rnd (invRec rnd k (c.take (c.length / 2))) (c.drop (c.length / 2))

theorem dwtRec_length (rnd : ℚ → ℚ) (first : ℕ) : ∀ (k : ℕ) (x : List ℚ), x.length = first * 2 ^ k →
    (dwtRec rnd k x).length = first * 2 ^ k
  | 0, x, h => h
  | k + 1, x, h => by
    have h' : x.length = 2 * (first * 2 ^ k) := by rw [h, pow_succ]; ring
    rw [dwtRec, List.length_append, dwtRec_length rnd first k _ (lowPart_length rnd x _ h'),
      highPart_length rnd x _ h', pow_succ]
    ring

theorem invRec_length (rnd : ℚ → ℚ) (first : ℕ) : ∀ (k : ℕ) (c : List ℚ), c.length = first * 2 ^ k →
    (invRec rnd k c).length = first * 2 ^ k
  | 0, c, h => h
  | k + 1, c, h => by
    have h' : c.length = 2 * (first * 2 ^ k) := by rw [h, pow_succ]; ring
    rw [invRec, synth_length, invRec_length rnd first k _ (by rw [List.length_take]; omega), pow_succ]
    ring

theorem dwtStep_spec (rnd : ℚ → ℚ) (m : ℕ) (hm : 3 ≤ m) (x out : List ℚ) (hx : 2 * m ≤ x.length) :
    dwtStep rnd (2 * m) x out = .ok (lowPart rnd (x.take (2 * m)) ++ x.drop m,
      lowPart rnd (x.take (2 * m)) ++ highPart rnd (x.take (2 * m)) ++ out.drop (2 * m)) := by
  have hl : (x.take (2 * m)).length = 2 * m := by rw [List.length_take]; omega
  unfold dwtStep
  rw [show hp = HP_3 :: [HP_2, HP_1, HP_0, HP_1, HP_2, HP_3] from rfl,
    show lp = LP_4 :: [LP_3, LP_2, LP_1, LP_0, LP_1, LP_2, LP_3, LP_4] from rfl,
    symconv1D_spec rnd _ _ _ 3 rfl (by omega) (by omega), symconv1D_spec rnd _ _ _ 4 rfl (by omega) (by omega)]
  simp only [bind, Except.bind]
  rw [if_neg (by omega), show 2 * m / 2 = m by omega]
  rfl

theorem invStep_spec (rnd : ℚ → ℚ) (m : ℕ) (hm : 3 ≤ m) (out : List ℚ) (ho : 2 * m ≤ out.length) :
    invStep rnd (2 * m) out = .ok (synth rnd (out.take m) ((out.drop m).take m) ++ out.drop (2 * m)) := by
  have l1 : (spreadOdd ((out.drop m).take m)).length = 2 * m := by
    rw [spreadOdd_length, List.length_take, List.length_drop]; omega
  have l2 : (spreadEven (out.take m)).length = 2 * m := by
    rw [spreadEven_length, List.length_take]; omega
  have l3 : 2 * (out.take m).length = 2 * m := by rw [List.length_take]; omega
  unfold invStep
  rw [if_neg (by omega), show 2 * m / 2 = m by omega]
  simp only [bind, Except.bind]
  rw [show lpr = HP_3 :: [-HP_2, HP_1, -HP_0, HP_1, -HP_2, HP_3] from rfl,
    show hpr = -LP_4 :: [LP_3, -LP_2, LP_1, -LP_0, LP_1, -LP_2, LP_3, -LP_4] from rfl,
    symconv1D_spec rnd _ _ _ 4 rfl (by omega) (by omega)]
  simp only
  rw [symconv1DAdd_spec rnd _ _ _ 3 _ rfl (by omega) (by omega)
    (by rw [List.length_map, List.length_range]; omega)]
  simp only [synth]
  rw [l1, l2, l3]
  congr 2
  apply List.map_congr_left
  intro j hj
  rw [List.mem_range] at hj
  congr 2
  rw [List.getD_eq_getElem?_getD, List.getElem?_map, List.getElem?_range hj]
  rfl

theorem dwtLoop_spec (rnd : ℚ → ℚ) (first : ℕ) (hf : 3 ≤ first) (size : ℕ) : ∀ (k i : ℕ) (x out : List ℚ),
    size >>> i = first * 2 ^ (k + 1) → first * 2 ^ (k + 1) ≤ x.length →
    dwtLoop rnd size (k + 1) i x out =
      .ok (dwtRec rnd (k + 1) (x.take (first * 2 ^ (k + 1))) ++ out.drop (first * 2 ^ (k + 1)))
  | 0, i, x, out, hs, hx => by
    rw [dwtLoop, hs, show first * 2 ^ (0 + 1) = 2 * first by ring, dwtStep_spec rnd first hf x out (by omega)]
    rfl
  | k + 1, i, x, out, hs, hx => by
    have e : first * 2 ^ (k + 1 + 1) = 2 * (first * 2 ^ (k + 1)) := by rw [pow_succ]; ring
    have h3 : 3 ≤ first * 2 ^ (k + 1) := le_trans hf (Nat.le_mul_of_pos_right _ (by positivity))
    rw [e] at hx hs
    rw [dwtLoop, hs, e, dwtStep_spec rnd _ h3 x out hx]
    simp only [bind, Except.bind]
    have hl : (x.take (2 * (first * 2 ^ (k + 1)))).length = 2 * (first * 2 ^ (k + 1)) := by
      rw [List.length_take]; omega
    have hll := lowPart_length rnd _ _ hl
    rw [dwtLoop_spec rnd first hf size k (i + 1) _ _
      (by rw [Nat.shiftRight_add, hs, Nat.shiftRight_one]; omega)
      (by rw [List.length_append, hll]; omega)]
    congr 1
    rw [List.take_append_of_le_length (by omega), List.take_of_length_le (by omega), List.append_assoc,
      List.drop_append_of_le_length (by omega), List.drop_of_length_le (by omega), List.nil_append]
    conv_rhs => rw [dwtRec]
    rw [List.append_assoc]

theorem invLoop_split (rnd : ℚ → ℚ) (first : ℕ) (hf : 3 ≤ first) (K : ℕ) : ∀ (k : ℕ) (out : List ℚ), k ≤ K →
    out.length = first * 2 ^ (K + 1) →
    invLoop rnd (first * 2 ^ (K + 1)) (k + 1) out =
      (invLoop rnd (first * 2 ^ K) k (out.take (first * 2 ^ K))).bind
        (fun y => invStep rnd (first * 2 ^ (K + 1)) (y ++ out.drop (first * 2 ^ K)))
  | 0, out, hk, ho => by
    rw [invLoop, invLoop, Nat.shiftRight_zero]
    simp only [Except.bind, List.take_append_drop, bind]
    cases invStep rnd (first * 2 ^ (K + 1)) out <;> rfl
  | k + 1, out, hk, ho => by
    obtain ⟨d, rfl⟩ : ∃ d, K = k + 1 + d := ⟨K - (k + 1), by omega⟩
    have e : first * 2 ^ (k + 1 + d + 1) = 2 * (first * 2 ^ (k + 1 + d)) := by rw [pow_succ]; ring
    have s1 : (first * 2 ^ (k + 1 + d + 1)) >>> (k + 1) = 2 * (first * 2 ^ d) := by
      rw [Nat.shiftRight_eq_div_pow, show first * 2 ^ (k + 1 + d + 1) = 2 * (first * 2 ^ d) * 2 ^ (k + 1) by ring]
      exact Nat.mul_div_cancel _ (by positivity)
    have s2 : (first * 2 ^ (k + 1 + d)) >>> k = 2 * (first * 2 ^ d) := by
      rw [Nat.shiftRight_eq_div_pow, show first * 2 ^ (k + 1 + d) = 2 * (first * 2 ^ d) * 2 ^ k by ring]
      exact Nat.mul_div_cancel _ (by positivity)
    have h3 : 3 ≤ first * 2 ^ d := le_trans hf (Nat.le_mul_of_pos_right _ (by positivity))
    have hle : 2 * (first * 2 ^ d) ≤ first * 2 ^ (k + 1 + d) := by
      rw [show first * 2 ^ (k + 1 + d) = 2 * (first * 2 ^ d) * 2 ^ k by ring]
      exact Nat.le_mul_of_pos_right _ (by positivity)
    set len := first * 2 ^ d with hlen
    set half := first * 2 ^ (k + 1 + d) with hhalf
    have lt : (out.take half).length = half := by rw [List.length_take]; omega
    rw [invLoop, s1, invStep_spec rnd len h3 out (by omega)]
    conv_rhs => rw [invLoop, s2, invStep_spec rnd len h3 (out.take half) (by omega)]
    simp only [bind, Except.bind]
    have t1 : (out.take half).take len = out.take len := by rw [List.take_take, min_eq_left (by omega)]
    have t2 : ((out.take half).drop len).take len = (out.drop len).take len := by
      rw [List.drop_take, List.take_take, min_eq_left (by omega)]
    rw [t1, t2]
    set b := synth rnd (out.take len) ((out.drop len).take len) with hb
    have lb : b.length = 2 * len := by rw [hb, synth_length, List.length_take]; omega
    have lo1 : (b ++ (out.take half).drop (2 * len)).length = half := by
      rw [List.length_append, lb, List.length_drop, lt]; omega
    have split : b ++ out.drop (2 * len) = (b ++ (out.take half).drop (2 * len)) ++ out.drop half := by
      rw [List.append_assoc]
      congr 1
      have : (out.take half ++ out.drop half).drop (2 * len) =
          (out.take half).drop (2 * len) ++ out.drop half := List.drop_append_of_le_length (by omega)
      rwa [List.take_append_drop] at this
    rw [split]
    have ih := invLoop_split rnd first hf (k + 1 + d) k
      ((b ++ (out.take half).drop (2 * len)) ++ out.drop half) (by omega)
      (by rw [List.length_append, lo1, List.length_drop]; omega)
    rw [ih, ← hhalf, List.take_append_of_le_length (by omega), List.take_of_length_le (by omega),
      List.drop_append_of_le_length (by omega), List.drop_of_length_le (l := b ++ _) (by omega)]
    rfl

theorem invLoop_spec (rnd : ℚ → ℚ) (first : ℕ) (hf : 3 ≤ first) : ∀ (k : ℕ) (out : List ℚ),
    out.length = first * 2 ^ k → invLoop rnd (first * 2 ^ k) k out = .ok (invRec rnd k out)
  | 0, out, _ => rfl
  | k + 1, out, ho => by
    have e : first * 2 ^ (k + 1) = 2 * (first * 2 ^ k) := by rw [pow_succ]; ring
    have h3 : 3 ≤ first * 2 ^ k := le_trans hf (Nat.le_mul_of_pos_right _ (by positivity))
    rw [invLoop_split rnd first hf k k out le_rfl ho,
      invLoop_spec rnd first hf k _ (by rw [List.length_take]; omega)]
    have li := invRec_length rnd first k (out.take (first * 2 ^ k)) (by rw [List.length_take]; omega)
    simp only [Except.bind]
    rw [invRec, show out.length / 2 = first * 2 ^ k by omega, e,
      invStep_spec rnd _ h3 _ (by rw [List.length_append, li, List.length_drop]; omega)]
    generalize invRec rnd k (out.take (first * 2 ^ k)) = y at *
    have d1 : (out.drop (first * 2 ^ k)).length = first * 2 ^ k := by rw [List.length_drop]; omega
    have a1 : (y ++ out.drop (first * 2 ^ k)).take (first * 2 ^ k) = y := by
      rw [List.take_append_of_le_length (by omega), List.take_of_length_le (by omega)]
    have a2 : (y ++ out.drop (first * 2 ^ k)).drop (first * 2 ^ k) = out.drop (first * 2 ^ k) := by
      rw [List.drop_append_of_le_length (by omega), List.drop_of_length_le (by omega), List.nil_append]
    have a3 : (y ++ out.drop (first * 2 ^ k)).drop (2 * (first * 2 ^ k)) = [] :=
      List.drop_of_length_le (by rw [List.length_append]; omega)
    rw [a1, a2, a3, List.append_nil, List.take_of_length_le d1.le]

end Haptics.Wavelet.Transform
