import Verif.Wavelet.SpecEncoder
import Verif.Spiht.SpecSpiht
import Verif.Bits.PropsFloat
import Verif.Bits.FloatDouble
import Mathlib.Algebra.Order.Ring.Unbundled.Rat
import Mathlib.Algebra.Order.Field.Rat
import Mathlib.Algebra.BigOperators.Intervals
import Mathlib.Algebra.Order.BigOperators.Group.Finset
import Mathlib.Algebra.Order.Floor.Ring
import Mathlib.Tactic.FieldSimp
import Mathlib.Tactic.Positivity
import Mathlib.Tactic.Linarith
import Mathlib.Tactic.Ring

/-! Lemmas on the quantiser and the allocation of bits. -/

namespace Haptics.Wavelet
open Haptics Haptics.Spiht

/-! ### The quantiser -/

/-- A value of `bits` bits and a sign, in units of `max / 2 ^ bits`. -/
def OnGrid (max : Rat) (bits : Nat) (q : Rat) : Prop :=
  ∃ n : Int, q = max * n / 2 ^ bits ∧ n.natAbs < 2 ^ bits

def Near (max : Rat) (bits : Nat) (x q : Rat) : Prop := |q - x| ≤ max / 2 ^ bits + excess max x

theorem excess_nonneg (m x : Rat) : 0 ≤ excess m x := by
  unfold excess
  split
  · exact le_rfl
  · linarith

theorem excess_mono (m x y : Rat) (h : |x| ≤ |y|) : excess m x ≤ excess m y := by
  unfold excess
  split <;> split <;> linarith

theorem OnGrid.mono {max q : Rat} {a b : Nat} (hab : a ≤ b) (h : OnGrid max a q) : OnGrid max b q := by
  obtain ⟨n, rfl, hn⟩ := h
  refine ⟨n * 2 ^ (b - a), ?_, ?_⟩
  · have : (2 : Rat) ^ b = 2 ^ a * 2 ^ (b - a) := by rw [← pow_add]; congr 1; omega
    rw [this]; push_cast; field_simp
  · rw [Int.natAbs_mul, Int.natAbs_pow]
    have : 2 ^ b = 2 ^ a * 2 ^ (b - a) := by rw [← pow_add]; congr 1; omega
    rw [this]
    exact Nat.mul_lt_mul_of_pos_right hn (by positivity)

theorem onGrid_zero (max : Rat) (bits : Nat) : OnGrid max bits 0 := ⟨0, by simp, by simp⟩

theorem sgn_mul_abs (x : Rat) : sgn x * |x| = x := by
  unfold sgn
  split
  · next h => rw [abs_of_pos h, one_mul]
  · split
    · next h => rw [abs_of_neg h]; ring
    · have : x = 0 := by linarith
      simp [this]

theorem sgn_cases (x : Rat) : (x = 0 ∧ sgn x = 0) ∨ (0 < x ∧ sgn x = 1) ∨ (x < 0 ∧ sgn x = -1) := by
  unfold sgn
  rcases lt_trichotomy x 0 with h | h | h
  · right; right; exact ⟨h, by rw [if_neg (not_lt.mpr h.le), if_pos h]⟩
  · left; subst h; simp
  · right; left; exact ⟨h, by rw [if_pos h]⟩

/-- The maxima the header can hold are multiples of 1/128 with few digits. -/
theorem representable_digits {max : Rat} (h : Representable max) : ∃ j : Nat, j < 2 ^ 12 ∧ max = j / 128 := by
  rcases h with ⟨k, hk, rfl⟩ | ⟨k, hk, rfl⟩
  · exact ⟨k, by omega, rfl⟩
  · exact ⟨128 + 16 * k, by omega, by push_cast; ring⟩

/-- An integer number of steps is represented exactly. -/
theorem fl64_grid {max : Rat} (h : Representable max) (n : Int) (hn : |n| < 2 ^ 40) (b : Nat) (hb : b ≤ 31) :
    fl64 (max * n / 2 ^ b) = max * n / 2 ^ b := by
  obtain ⟨j, hj, rfl⟩ := representable_digits h
  apply IsDouble.exact
  refine ⟨j * n, -(7 + b), ?_, ?_, by omega⟩
  · rw [zpow_neg, zpow_add₀ (by norm_num), zpow_natCast]
    push_cast
    field_simp
  · rw [abs_mul, show (2 : Int) ^ 53 = 2 ^ 13 * 2 ^ 40 by norm_num]
    have h1 : |(j : Int)| < 2 ^ 13 := by rw [abs_of_nonneg (by positivity)]; exact_mod_cast hj.trans (by norm_num)
    exact mul_lt_mul'' h1 hn (abs_nonneg _) (abs_nonneg _)

theorem fl64_near (x : Rat) : |fl64 x - x| ≤ |x| / 2 ^ 53 + 1 / 2 ^ 100 := by
  have h1 := flo_abs_err 53 (-1022) x
  have h2 : (2 : Rat) ^ ((-1022 : Int) - (53 : Nat)) ≤ 1 / 2 ^ 100 := by
    rw [one_div, ← zpow_natCast, ← zpow_neg]
    exact zpow_le_zpow_right₀ (by norm_num) (by norm_num)
  have h3 : (2 : Rat) ^ (-((53 : Nat) : Int)) = 1 / 2 ^ 53 := by norm_num
  rw [h3, mul_one_div] at h1
  exact h1.trans (by linarith)

/-- The number of steps, rounded twice. -/
theorem steps_near (y : Rat) (h0 : 0 ≤ y) (bits : Nat) (hy : y ≤ 2 ^ bits) :
    |fl64 (fl64 y + 1 / 2) - (y + 1 / 2)| ≤ 2 ^ bits / 2 ^ 51 := by
  have hones : (1 : Rat) ≤ 2 ^ bits := one_le_pow₀ (by norm_num)
  have h1 := fl64_near y
  have h2 := fl64_near (fl64 y + 1 / 2)
  have hf : 0 ≤ fl64 y := flo_nonneg _ _ h0
  rw [abs_of_nonneg h0] at h1
  rw [abs_of_nonneg (by linarith : 0 ≤ fl64 y + 1 / 2)] at h2
  rw [abs_le] at h1 h2 ⊢
  norm_num at h1 h2 ⊢
  constructor <;> linarith

/-- The quantised value: an integer number of steps below `2 ^ bits`, with the sign of the input; at most
half a step (and a rounding error) from an input of up to `2 ^ bits - 1 / 2` steps, and at most one step otherwise, but
for what the input exceeds the maximum. -/
theorem quantise_spec (max : Rat) (hmax : 0 < max) (hr : Representable max) (bits : Nat) (hb : bits ≤ 30) (x : Rat) :
    ∃ n : Nat, n < 2 ^ bits ∧ quantise max bits x = sgn x * (max * n / 2 ^ bits) ∧
      (|x| ≤ max * (2 ^ bits - 1 / 2) / 2 ^ bits →
        |quantise max bits x - x| ≤ max / 2 ^ bits * (1 / 2 + 2 ^ bits / 2 ^ 51)) ∧
      |quantise max bits x - x| ≤ max / 2 ^ bits + excess max x := by
  have hp : (0 : Rat) < 2 ^ bits := by positivity
  have hones : (1 : Rat) ≤ 2 ^ bits := one_le_pow₀ (by norm_num)
  have h30 : (2 : Rat) ^ bits ≤ 2 ^ 30 := pow_le_pow_right₀ (by norm_num) hb
  have h30n : 2 ^ bits ≤ 2 ^ 30 := Nat.pow_le_pow_right (by norm_num) hb
  set δ := max / 2 ^ bits with hδ
  have hδ0 : 0 < δ := by positivity
  have hm : max = δ * 2 ^ bits := by rw [hδ]; field_simp
  -- multiples of the step are exact
  have hex : ∀ n : Int, |n| < 2 ^ 40 → fl64 (δ * n) = δ * n := by
    intro n hn
    have := fl64_grid hr n hn bits (by omega)
    rwa [show max * n / 2 ^ bits = δ * n by rw [hδ]; ring] at this
  have hd1 : fl64 δ = δ := by simpa using hex 1 (by norm_num)
  have hd2 : fl64 (δ * (2 ^ bits - 1)) = δ * (2 ^ bits - 1) := by
    have := hex (2 ^ bits - 1) (by
      rw [abs_of_nonneg (by have : (1 : Int) ≤ 2 ^ bits := one_le_pow₀ (by norm_num); omega)]
      have : (2 : Int) ^ bits ≤ 2 ^ 30 := pow_le_pow_right₀ (by norm_num) hb
      omega)
    push_cast at this
    exact this
  set y := |x| / δ with hy
  have hy0 : 0 ≤ y := by positivity
  have hxy : |x| = δ * y := by rw [hy]; field_simp
  set N := ⌊fl64 (fl64 y + 1 / 2)⌋ with hN
  have hN0 : 0 ≤ N := Int.floor_nonneg.mpr (flo_nonneg _ _ (by
    have : 0 ≤ fl64 y := flo_nonneg _ _ hy0
    linarith))
  have hNr : (0 : Rat) ≤ N := by exact_mod_cast hN0
  have hN1 : (N : Rat) ≤ fl64 (fl64 y + 1 / 2) := Int.floor_le _
  have hN2 : fl64 (fl64 y + 1 / 2) < N + 1 := Int.lt_floor_add_one _
  set ε : Rat := 2 ^ bits / 2 ^ 51 with hε
  have hε0 : 0 ≤ ε := by positivity
  have hε1 : ε ≤ 1 / 2 := by
    rw [hε, div_le_iff₀ (by positivity)]
    refine h30.trans (by norm_num)
  have hnear : |x| ≤ max → (N : Rat) ≤ y + 1 / 2 + ε ∧ y + 1 / 2 - ε < N + 1 := by
    intro hx
    have hy' : y ≤ 2 ^ bits := by
      rw [hxy, hm] at hx
      exact le_of_mul_le_mul_left hx hδ0
    have := abs_le.mp (steps_near y hy0 bits hy')
    constructor <;> linarith [this.1, this.2]
  have hq : quantise max bits x =
      if |fl64 (sgn x * δ * N)| > δ * (2 ^ bits - 1) then sgn x * (δ * (2 ^ bits - 1)) else fl64 (sgn x * δ * N) := by
    unfold quantise
    simp only [if_neg hmax.ne', ← hδ, hd1, hd2, ← hy, ← hN]
  have herr : ∀ v : Rat, |sgn x * v - x| ≤ abs (v - abs x) := by
    intro v
    rcases sgn_cases x with ⟨h, hs⟩ | ⟨h, hs⟩ | ⟨h, hs⟩
    · rw [hs, h]; simp
    · rw [hs, abs_of_pos h, one_mul]
    · rw [hs, abs_of_neg h, show -1 * v - x = -(v - -x) by ring, abs_neg]
  have hsg : ∀ v : Rat, fl64 (sgn x * v) = sgn x * fl64 v := by
    intro v
    rcases sgn_cases x with ⟨h, hs⟩ | ⟨h, hs⟩ | ⟨h, hs⟩
    · rw [hs]; simp
    · rw [hs, one_mul, one_mul]
    · rw [hs, show -1 * v = -v by ring, show -1 * fl64 v = -fl64 v by ring]
      exact flo_neg _ _ _
  have hprod : fl64 (sgn x * δ * N) = sgn x * fl64 (δ * N) := by rw [mul_assoc, hsg]
  have hhalf : max * (2 ^ bits - 1 / 2) / 2 ^ bits = δ * (2 ^ bits - 1 / 2) := by rw [hδ]; ring
  rw [hhalf]
  by_cases hc : N < 2 ^ bits
  · have hNlt : |N| < 2 ^ 40 := by
      rw [abs_of_nonneg hN0]
      have : (2 : Int) ^ bits ≤ 2 ^ 30 := pow_le_pow_right₀ (by norm_num) hb
      omega
    have hNN : ((N.toNat : Nat) : Rat) = N := by
      have : ((N.toNat : Nat) : Int) = N := Int.toNat_of_nonneg hN0
      exact_mod_cast congrArg (Int.cast (R := Rat)) this
    have hNm : (N : Rat) ≤ 2 ^ bits - 1 := by
      have : N ≤ 2 ^ bits - 1 := by omega
      exact_mod_cast this
    rw [hprod, hex N hNlt] at hq
    have hle : ¬ |sgn x * (δ * N)| > δ * (2 ^ bits - 1) := by
      rw [not_lt, abs_mul, abs_of_nonneg (mul_nonneg hδ0.le hNr)]
      have hs : |sgn x| ≤ 1 := by rcases sgn_cases x with ⟨-, h⟩ | ⟨-, h⟩ | ⟨-, h⟩ <;> rw [h] <;> norm_num
      calc |sgn x| * (δ * N) ≤ 1 * (δ * N) := mul_le_mul_of_nonneg_right hs (mul_nonneg hδ0.le hNr)
        _ = δ * N := one_mul _
        _ ≤ _ := mul_le_mul_of_nonneg_left hNm hδ0.le
    rw [if_neg hle] at hq
    have hone : |x| ≤ max → |quantise max bits x - x| ≤ δ * (1 / 2 + ε) := by
      intro hx
      obtain ⟨e1, e2⟩ := hnear hx
      rw [hq]
      refine (herr _).trans ?_
      rw [hxy, ← mul_sub, abs_mul, abs_of_pos hδ0]
      refine mul_le_mul_of_nonneg_left ?_ hδ0.le
      rw [abs_le]
      constructor <;> linarith
    -- an input above the maximum would have given more steps
    have hin : |x| ≤ max := by
      by_contra hx
      have hy' : (2 : Rat) ^ bits ≤ y := by
        rw [not_le, hxy, hm] at hx
        exact (lt_of_mul_lt_mul_left hx hδ0.le).le
      have hint : fl64 (((2 ^ bits : Nat) : Int) : Rat) = (((2 ^ bits : Nat) : Int) : Rat) := fl64_int _ (by
        rw [abs_of_nonneg (by positivity)]
        have : (2 : Nat) ^ bits < 2 ^ 53 := by omega
        exact_mod_cast this)
      push_cast at hint
      have h1 : (2 : Rat) ^ bits ≤ fl64 y := by rw [← hint]; exact fl64_mono hy'
      have h2 : (2 : Rat) ^ bits ≤ fl64 (fl64 y + 1 / 2) := by
        rw [← hint]; exact fl64_mono (by linarith)
      have h3 : (2 : Int) ^ bits ≤ N := by
        rw [hN, Int.le_floor]
        push_cast
        exact h2
      omega
    have hexc : excess max x = 0 := by unfold excess; rw [if_pos hin]
    rw [hexc, add_zero]
    refine ⟨N.toNat, ?_, ?_, fun hx => hone ?_, (hone hin).trans ?_⟩
    · have : ((2 ^ bits : Nat) : Int) = 2 ^ bits := by push_cast; rfl
      omega
    · rw [hq, hNN, hδ]; ring
    · rw [hm]; exact hx.trans (mul_le_mul_of_nonneg_left (by linarith) hδ0.le)
    · calc δ * (1 / 2 + ε) ≤ δ * 1 := mul_le_mul_of_nonneg_left (by linarith) hδ0.le
        _ = δ := mul_one _
  · have hN'' : (2 : Rat) ^ bits ≤ N := by
      have := not_lt.mp hc
      exact_mod_cast this
    have hxne : x ≠ 0 := by
      rintro rfl
      have : y = 0 := by rw [hy]; simp
      rw [hN, this, fl64_zero, zero_add] at hc
      have hh : fl64 (1 / 2) = 1 / 2 := by decide +kernel
      rw [hh] at hc
      have h0 : ⌊(1 / 2 : Rat)⌋ = 0 := by rw [Int.floor_eq_iff]; norm_num
      rw [h0] at hc
      exact hc (by positivity)
    have hsabs : |sgn x| = 1 := by
      rcases sgn_cases x with ⟨h, hs⟩ | ⟨h, hs⟩ | ⟨h, hs⟩
      · exact absurd h hxne
      · rw [hs]; norm_num
      · rw [hs]; norm_num
    have hfl : δ * 2 ^ bits ≤ fl64 (δ * N) := by
      have h1 := hex (2 ^ bits) (by
        rw [abs_of_nonneg (by positivity)]
        have : (2 : Int) ^ bits ≤ 2 ^ 30 := pow_le_pow_right₀ (by norm_num) hb
        omega)
      push_cast at h1
      rw [← h1]
      exact fl64_mono (mul_le_mul_of_nonneg_left hN'' hδ0.le)
    have hgt : |fl64 (sgn x * δ * N)| > δ * (2 ^ bits - 1) := by
      rw [hprod, abs_mul, hsabs, one_mul]
      refine lt_of_lt_of_le ?_ (hfl.trans (le_abs_self _))
      rw [mul_sub]; linarith
    rw [if_pos hgt] at hq
    have hlow : |x| ≤ max → δ * (2 ^ bits - 1 / 2 - ε) ≤ |x| := by
      intro hx
      obtain ⟨e1, -⟩ := hnear hx
      rw [hxy]
      exact mul_le_mul_of_nonneg_left (by linarith) hδ0.le
    refine ⟨2 ^ bits - 1, Nat.sub_lt (by positivity) one_pos, ?_, ?_, ?_⟩
    · rw [hq, Nat.cast_sub Nat.one_le_two_pow, hδ]
      push_cast
      ring
    · intro hx
      have hx' : |x| ≤ max := by rw [hm]; exact hx.trans (mul_le_mul_of_nonneg_left (by linarith) hδ0.le)
      have := hlow hx'
      rw [hq]
      refine (herr _).trans ?_
      rw [abs_le]
      constructor <;> nlinarith
    · rw [hq]
      refine (herr _).trans ?_
      unfold excess
      split
      · next hx =>
        have := hlow hx
        rw [hm] at hx
        rw [abs_le]
        constructor <;> nlinarith
      · next hx =>
        rw [hm, not_le] at hx
        rw [hm, abs_le]
        constructor <;> linarith

theorem quantise_grid (max : Rat) (hr : Representable max) (hmax : 0 ≤ max) (bits : Nat) (hb : bits ≤ 30) (x : Rat) :
    OnGrid max bits (quantise max bits x) ∧ Near max bits x (quantise max bits x) := by
  rcases hmax.eq_or_lt with h | h
  · subst h
    have h0 : quantise 0 bits x = 0 := by simp [quantise]
    rw [h0]
    refine ⟨onGrid_zero _ _, ?_⟩
    unfold Near excess
    rw [zero_sub, abs_neg, zero_div, zero_add]
    split
    · next h => exact h
    · simp
  · obtain ⟨n, hn, h1, -, h3⟩ := quantise_spec max h hr bits hb x
    refine ⟨?_, h3⟩
    rw [h1]
    rcases sgn_cases x with ⟨-, hs⟩ | ⟨-, hs⟩ | ⟨-, hs⟩
    · rw [hs, zero_mul]; exact onGrid_zero _ _
    · exact ⟨n, by rw [hs, one_mul]; push_cast; rfl, by simpa using hn⟩
    · exact ⟨-n, by rw [hs]; push_cast; ring, by simpa using hn⟩

/-! ### Bands -/

theorem doubling_length (n v : Nat) : (doubling n v).length = n := by
  induction n generalizing v with
  | zero => rfl
  | succ n ih => simp [doubling, ih]

theorem doubling_getD (n v i : Nat) (h : i < n) : (doubling n v).getD i 0 = v * 2 ^ i := by
  induction n generalizing v i with
  | zero => omega
  | succ n ih =>
    cases i with
    | zero => simp [doubling]
    | succ i => rw [doubling, List.getD_cons_succ, ih _ _ (by omega), pow_succ]; ring

theorem dwtLevel_pow (k : Nat) (hk : 3 ≤ k) : dwtLevel (2 ^ k) = k - 2 := by
  unfold dwtLevel
  rw [show (2 : Nat) ^ k = 2 ^ (k - 2) * 4 by
    rw [show (4 : Nat) = 2 ^ 2 by norm_num, ← pow_add]; congr 1; omega, Nat.mul_div_cancel _ (by norm_num)]
  rw [Nat.log2_two_pow]

theorem base_pow (k : Nat) (hk : 3 ≤ k) : 2 ^ k / 2 ^ (k - 2) = 4 := by
  rw [show (2 : Nat) ^ k = 4 * 2 ^ (k - 2) by
    rw [show (4 : Nat) = 2 ^ 2 by norm_num, ← pow_add]; congr 1; omega]
  exact Nat.mul_div_cancel _ (by positivity)

theorem book_length (k : Nat) (hk : 3 ≤ k) : (book (2 ^ k)).length = bands k := by
  rw [book, dwtLevel_pow k hk, List.length_cons, doubling_length, bands]; omega

theorem start_zero (bl : Nat) : (bookCumulative bl).getD 0 0 = 0 := rfl

theorem start_succ (k : Nat) (hk : 3 ≤ k) (b : Nat) (hb : b < bands k) :
    (bookCumulative (2 ^ k)).getD (b + 1) 0 = 4 * 2 ^ b := by
  rw [bookCumulative, dwtLevel_pow k hk, base_pow k hk, List.getD_cons_succ, doubling_getD]
  unfold bands at hb; omega

theorem book_zero (k : Nat) (hk : 3 ≤ k) : (book (2 ^ k)).getD 0 0 = 4 := by
  rw [book, dwtLevel_pow k hk, base_pow k hk]; rfl

theorem book_succ (k : Nat) (hk : 3 ≤ k) (b : Nat) (hb : b + 1 < bands k) :
    (book (2 ^ k)).getD (b + 1) 0 = 4 * 2 ^ b := by
  rw [book, dwtLevel_pow k hk, base_pow k hk, List.getD_cons_succ, doubling_getD]
  unfold bands at hb; omega

theorem inBand_iff (k : Nat) (hk : 3 ≤ k) (b : Nat) (hb : b < bands k) (i : Nat) :
    ((bookCumulative (2 ^ k)).getD b 0 ≤ i ∧ i < (bookCumulative (2 ^ k)).getD b 0 + (book (2 ^ k)).getD b 0)
      ↔ InBand b i := by
  cases b with
  | zero => rw [start_zero, book_zero k hk]; simp [InBand]
  | succ b =>
    rw [start_succ k hk b (by omega), book_succ k hk b hb, InBand, pow_succ]
    constructor <;> intro h <;> omega

theorem band_stop (k : Nat) (hk : 3 ≤ k) (b : Nat) (hb : b < bands k) :
    (bookCumulative (2 ^ k)).getD b 0 + (book (2 ^ k)).getD b 0 = (bookCumulative (2 ^ k)).getD (b + 1) 0 := by
  rw [start_succ k hk b hb]
  cases b with
  | zero => rw [start_zero, book_zero k hk]; rfl
  | succ b => rw [start_succ k hk b (by omega), book_succ k hk b hb, pow_succ]; ring

theorem band_le (k : Nat) (hk : 3 ≤ k) (b : Nat) (hb : b < bands k) :
    (bookCumulative (2 ^ k)).getD b 0 + (book (2 ^ k)).getD b 0 ≤ 2 ^ k := by
  rw [band_stop k hk b hb, start_succ k hk b hb]
  unfold bands at hb
  rw [show (4 : Nat) = 2 ^ 2 by norm_num, ← pow_add]
  exact Nat.pow_le_pow_right (by norm_num) (by omega)

theorem inBand_lt (k : Nat) (hk : 3 ≤ k) (b : Nat) (hb : b < bands k) (i : Nat) (h : InBand b i) : i < 2 ^ k := by
  have := (inBand_iff k hk b hb i).mpr h
  have := band_le k hk b hb
  omega

theorem inBand_unique {b b' i : Nat} (h : InBand b i) (h' : InBand b' i) : b = b' := by
  have key : ∀ b b' : Nat, b < b' → InBand b i → InBand b' i → False := by
    intro b b' hlt h h'
    cases b' with
    | zero => omega
    | succ b' =>
      have h1 : i < 4 * 2 ^ b := by
        cases b with
        | zero => simpa [InBand] using h
        | succ b => exact h.2
      have h2 : 4 * 2 ^ b' ≤ i := h'.1
      have : 2 ^ b ≤ 2 ^ b' := Nat.pow_le_pow_right (by norm_num) (by omega)
      omega
  rcases Nat.lt_trichotomy b b' with hl | hl | hl
  · exact (key _ _ hl h h').elim
  · exact hl
  · exact (key _ _ hl h' h).elim

theorem inBand_exists (k : Nat) (hk : 3 ≤ k) (i : Nat) (hi : i < 2 ^ k) : ∃ b < bands k, InBand b i := by
  have key : ∀ n, i < 4 * 2 ^ n → ∃ b ≤ n, InBand b i := by
    intro n
    induction n with
    | zero => intro h; exact ⟨0, le_rfl, by simpa [InBand] using h⟩
    | succ n ih =>
      intro h
      by_cases hc : i < 4 * 2 ^ n
      · obtain ⟨b, hb, hin⟩ := ih hc; exact ⟨b, by omega, hin⟩
      · exact ⟨n + 1, le_rfl, by omega, h⟩
  have : 4 * 2 ^ (k - 2) = 2 ^ k := by
    rw [show (4 : Nat) = 2 ^ 2 by norm_num, ← pow_add]; congr 1; omega
  obtain ⟨b, hb, hin⟩ := key (k - 2) (by omega)
  exact ⟨b, by unfold bands; omega, hin⟩

/-! ### The largest coefficient -/

theorem findMax_ge (l : List Rat) : 0 ≤ findMax l ∧ ∀ v ∈ l, |v| ≤ findMax l := by
  have key : ∀ (l : List Rat) (m : Rat),
      m ≤ l.foldl (fun m v => if |v| > m then |v| else m) m ∧
        ∀ v ∈ l, |v| ≤ l.foldl (fun m v => if |v| > m then |v| else m) m := by
    intro l
    induction l with
    | nil => intro m; simp
    | cons a l ih =>
      intro m
      rw [List.foldl_cons]
      obtain ⟨h1, h2⟩ := ih (if |a| > m then |a| else m)
      have hm : m ≤ (if |a| > m then |a| else m) ∧ |a| ≤ (if |a| > m then |a| else m) := by
        split
        · next h => exact ⟨h.le, le_rfl⟩
        · next h => exact ⟨le_rfl, not_lt.mp h⟩
      refine ⟨hm.1.trans h1, fun v hv => ?_⟩
      rcases List.mem_cons.mp hv with rfl | hv
      · exact hm.2.trans h1
      · exact h2 v hv
  exact key l 0

theorem maxQuant_spec (x : Rat) (hx : 0 ≤ x) (f : Nat) :
    ∃ k : Nat, k < 128 ∧ maxQuant x f = k / 2 ^ f ∧ (x ≤ 127 / 2 ^ f → x ≤ maxQuant x f) ∧
      (127 / 2 ^ f ≤ x → maxQuant x f = 127 / 2 ^ f) := by
  have hp : (0 : Rat) < 2 ^ f := by positivity
  unfold maxQuant
  have h127 : ((2 ^ 7 - 1 : Rat)) = 127 := by norm_num
  simp only [h127]
  split
  · next h =>
    have habs : |(127 : Rat) / 2 ^ f * (999 / 1000)| * 2 ^ f = 126873 / 1000 := by
      rw [abs_of_nonneg (by positivity)]; field_simp; norm_num
    have hceil : ⌈(126873 / 1000 : Rat)⌉ = 127 := by rw [Int.ceil_eq_iff]; norm_num
    rw [habs, hceil]
    refine ⟨127, by norm_num, by norm_num, fun h' => ?_, fun _ => by norm_num⟩
    push_cast
    exact h'
  · next h =>
    have h := not_le.mp h
    have hlt : x * 2 ^ f < 127 := by rwa [lt_div_iff₀ hp] at h
    rw [abs_of_nonneg hx]
    have hc0 : 0 ≤ ⌈x * 2 ^ f⌉ := Int.ceil_nonneg (by positivity)
    have hc1 : ⌈x * 2 ^ f⌉ ≤ 127 := Int.ceil_le.mpr (by exact_mod_cast hlt.le)
    have hcast : ((⌈x * 2 ^ f⌉.toNat : Nat) : Rat) = ⌈x * 2 ^ f⌉ := by
      have : ((⌈x * 2 ^ f⌉.toNat : Nat) : Int) = ⌈x * 2 ^ f⌉ := Int.toNat_of_nonneg hc0
      exact_mod_cast congrArg (Int.cast (R := Rat)) this
    refine ⟨⌈x * 2 ^ f⌉.toNat, by omega, by rw [hcast], fun _ => ?_, fun h' => absurd h' (not_le.mpr h)⟩
    rw [le_div_iff₀ hp]
    exact Int.le_ceil _

theorem maximum_spec (dwt : List Rat) :
    Representable (maximumCoefficient dwt) ∧ 0 ≤ maximumCoefficient dwt ∧
      (Expressible (findMax dwt) → ∀ v ∈ dwt, |v| ≤ maximumCoefficient dwt) ∧
      (findMax dwt ≤ 1 + 127 / 8 → findMax dwt ≤ maximumCoefficient dwt + 1 / 128) := by
  obtain ⟨h0, hv⟩ := findMax_ge dwt
  unfold maximumCoefficient quantMode
  by_cases h : findMax dwt < 1
  · simp only [h, if_true, Bool.false_eq_true, if_false, sub_zero, add_zero]
    obtain ⟨k, hk, he, hle, hge⟩ := maxQuant_spec (findMax dwt) h0 7
    refine ⟨.inl ⟨k, hk, by rw [he]; norm_num⟩, by rw [he]; positivity, fun hex v hvm => ?_, fun _ => ?_⟩
    · refine (hv v hvm).trans (hle ?_)
      rcases hex with hex | hex
      · rw [show (2 : Rat) ^ 7 = 128 by norm_num]; exact hex
      · linarith [hex.1]
    · rw [show (2 : Rat) ^ 7 = 128 by norm_num] at hle hge
      rcases le_total (findMax dwt) (127 / 128) with h' | h'
      · linarith [hle h']
      · rw [hge h']; linarith
  · simp only [h, if_false, if_true]
    obtain ⟨k, hk, he, hle, hge⟩ := maxQuant_spec (findMax dwt - 1) (by linarith) 3
    refine ⟨.inr ⟨k, hk, by rw [he]; norm_num; ring⟩, by rw [he]; positivity, fun hex v hvm => ?_, fun hx => ?_⟩
    rotate_left
    · rw [show (2 : Rat) ^ 3 = 8 by norm_num] at hle
      linarith [hle (by linarith)]
    have : findMax dwt - 1 ≤ 127 / 2 ^ 3 := by
      rw [show (2 : Rat) ^ 3 = 8 by norm_num]
      rcases hex with hex | hex
      · exfalso; apply h; linarith
      · linarith [hex.2]
    linarith [hle this, hv v hvm]

theorem isDouble_abs {x : Rat} (h : IsDouble x) : IsDouble |x| := by
  obtain ⟨m, U, rfl, hm, hU⟩ := h
  refine ⟨|m|, U, ?_, by rwa [abs_abs], hU⟩
  rw [abs_mul, abs_of_pos (show (0 : Rat) < 2 ^ U by positivity), Int.cast_abs]

theorem isDouble_scale {x : Rat} (h : IsDouble x) (f : Nat) : IsDouble (x * 2 ^ f) := by
  obtain ⟨m, U, rfl, hm, hU⟩ := h
  exact ⟨m, U + f, by rw [zpow_add₀ (by norm_num), zpow_natCast]; ring, hm, by omega⟩

theorem findMax_double (l : List Rat) (h : ∀ v ∈ l, IsDouble v) : IsDouble (findMax l) := by
  have key : ∀ (l : List Rat) (m : Rat), (∀ v ∈ l, IsDouble v) → IsDouble m →
      IsDouble (l.foldl (fun m v => if |v| > m then |v| else m) m) := by
    intro l
    induction l with
    | nil => intro m _ hm; exact hm
    | cons a l ih =>
      intro m hl hm
      rw [List.foldl_cons]
      refine ih _ (fun v hv => hl v (by simp [hv])) ?_
      split
      · exact isDouble_abs (hl a (by simp))
      · exact hm
  exact key l 0 h ⟨0, 0, by simp, by norm_num, by norm_num⟩

theorem maxQuant_binary64 (x : Rat) (h0 : 0 ≤ x) (hx : IsDouble x) (f : Nat) (hf : f = 3 ∨ f = 7) :
    maxQuant64 x f = maxQuant x f := by
  have hmax : fl64 ((2 ^ 7 - 1) / 2 ^ f) = (2 ^ 7 - 1) / 2 ^ f := by
    rcases hf with rfl | rfl <;> decide +kernel
  have hbig : ⌈fl64 (|fl64 ((2 ^ 7 - 1 : Rat) / 2 ^ f * fl64 (999 / 1000))| * 2 ^ f)⌉ =
      ⌈|(2 ^ 7 - 1 : Rat) / 2 ^ f * (999 / 1000)| * 2 ^ f⌉ := by
    rcases hf with rfl | rfl <;> decide +kernel
  have hint : ∀ n : Int, |n| < 2 ^ 53 → fl64 ((n : Rat) / 2 ^ f) = n / 2 ^ f := by
    intro n hn
    apply IsDouble.exact
    refine ⟨n, -f, ?_, hn, by rcases hf with rfl | rfl <;> norm_num⟩
    rw [zpow_neg, zpow_natCast]; rfl
  obtain ⟨k, hk, he, -, -⟩ := maxQuant_spec x h0 f
  have hceil : ∀ n : Int, (n : Rat) / 2 ^ f = k / 2 ^ f → |n| < 2 ^ 53 := by
    intro n hn
    have : (n : Rat) = ((k : Int) : Rat) := by
      have := (div_left_inj' (show (2 : Rat) ^ f ≠ 0 by positivity)).mp hn
      push_cast; exact this
    have : n = k := by exact_mod_cast this
    rw [this, abs_of_nonneg (by positivity)]
    omega
  unfold maxQuant at he
  unfold maxQuant64 maxQuant
  simp only [hmax] at he ⊢
  split
  · next h =>
    rw [if_pos h] at he
    rw [hbig]
    exact hint _ (hceil _ he)
  · next h =>
    rw [if_neg h] at he
    have : fl64 (|x| * 2 ^ f) = |x| * 2 ^ f := (isDouble_scale (isDouble_abs hx) f).exact
    rw [this]
    exact hint _ (hceil _ he)

theorem maximum_binary64 (dwt : List Rat) (h : ∀ v ∈ dwt, IsDouble v) :
    maximumCoefficient64 dwt = maximumCoefficient dwt := by
  have hd := findMax_double dwt h
  obtain ⟨h0, -⟩ := findMax_ge dwt
  have hrep := (maximum_spec dwt).1
  have hfl : fl64 (maximumCoefficient dwt) = maximumCoefficient dwt := by
    have := fl64_grid hrep 1 (by norm_num) 0 (by norm_num)
    simpa using this
  rw [← hfl]
  unfold maximumCoefficient64 maximumCoefficient quantMode
  by_cases hlt : findMax dwt < 1
  · simp only [hlt, if_true, Bool.false_eq_true, if_false, sub_zero, add_zero]
    rw [hd.exact, maxQuant_binary64 _ h0 hd 7 (.inr rfl)]
  · simp only [hlt, if_false, if_true]
    have h1 : 1 ≤ findMax dwt := not_lt.mp hlt
    have hnn : 0 ≤ fl64 (findMax dwt - 1) := flo_nonneg _ _ (by linarith)
    rw [maxQuant_binary64 _ hnn (isDouble_fl64 _) 3 (.inl rfl)]
    by_cases hb : findMax dwt < 2 ^ 53
    · have := fl64_sub_nat hd hb 1 (by push_cast; exact h1)
      push_cast at this
      rw [this]
    · have hb := not_lt.mp hb
      have h2 : (1000 : Rat) ≤ fl64 (findMax dwt - 1) := by
        have : fl64 ((1000 : Int) : Rat) = ((1000 : Int) : Rat) := fl64_int 1000 (by norm_num)
        push_cast at this
        rw [← this]
        refine fl64_mono ?_
        norm_num at hb
        linarith
      have h3 : (1000 : Rat) ≤ findMax dwt - 1 := by norm_num at hb; linarith
      unfold maxQuant
      have h4 : ((2 ^ 7 - 1) / 2 ^ 3 : Rat) ≤ 1000 := by norm_num
      simp only [ge_iff_le, if_pos (h4.trans h2), if_pos (h4.trans h3)]

end Haptics.Wavelet
