import Verif.Bits.Float
import Verif.Bits.Lemmas
import Mathlib.Tactic.Linarith
import Mathlib.Tactic.Positivity
import Mathlib.Tactic.FieldSimp
import Mathlib.Tactic.NormNum
import Mathlib.Algebra.Order.Field.Power
import Mathlib.Data.Nat.Log
import Mathlib.Algebra.Order.Field.Rat

namespace Haptics

theorem ilog2_spec (q : ℚ) (hq : 0 < q) :
    (2 : ℚ) ^ ilog2 q ≤ q ∧ q < (2 : ℚ) ^ (ilog2 q + 1) := by
  have hn : 0 < q.num := Rat.num_pos.2 hq
  have hnn : q.num.natAbs ≠ 0 := by omega
  have hd : q.den ≠ 0 := q.den_nz
  obtain ⟨a, ha⟩ : ∃ a, a = q.num.natAbs := ⟨_, rfl⟩
  obtain ⟨b, hb⟩ : ∃ b, b = q.den := ⟨_, rfl⟩
  have hqe : q = (a : ℚ) / (b : ℚ) := by
    rw [ha, hb]
    have h1 : ((q.num.natAbs : ℕ) : ℚ) = (q.num : ℚ) := by
      rw [Nat.cast_natAbs, abs_of_pos hn]
    rw [h1]
    exact (Rat.num_div_den q).symm
  have a1 : 2 ^ (Nat.log2 a) ≤ a := Nat.log2_self_le (by rw [ha]; exact hnn)
  have a2 : a < 2 ^ (Nat.log2 a + 1) := Nat.lt_log2_self
  have b1 : 2 ^ (Nat.log2 b) ≤ b := Nat.log2_self_le (by rw [hb]; exact hd)
  have b2 : b < 2 ^ (Nat.log2 b + 1) := Nat.lt_log2_self
  have a1' : (2 : ℚ) ^ ((Nat.log2 a : ℕ) : ℤ) ≤ a := by rw [zpow_natCast]; exact_mod_cast a1
  have a2' : (a : ℚ) < (2 : ℚ) ^ ((Nat.log2 a : ℕ) : ℤ) * 2 := by
    rw [zpow_natCast, ← pow_succ]; exact_mod_cast a2
  have b1' : (2 : ℚ) ^ ((Nat.log2 b : ℕ) : ℤ) ≤ b := by rw [zpow_natCast]; exact_mod_cast b1
  have b2' : (b : ℚ) < (2 : ℚ) ^ ((Nat.log2 b : ℕ) : ℤ) * 2 := by
    rw [zpow_natCast, ← pow_succ]; exact_mod_cast b2
  have hbp : (0 : ℚ) < b := by
    have : 0 < b := by omega
    exact_mod_cast this
  have e1 : (2 : ℚ) ^ ((Nat.log2 a : ℤ) - Nat.log2 b) * 2 ^ ((Nat.log2 b : ℕ) : ℤ)
      = 2 ^ ((Nat.log2 a : ℕ) : ℤ) := by
    rw [← zpow_add₀ (by norm_num : (2 : ℚ) ≠ 0)]; congr 1; omega
  have hp : (0 : ℚ) < 2 ^ ((Nat.log2 a : ℤ) - Nat.log2 b) := by positivity
  have hlb : (0 : ℚ) < 2 ^ ((Nat.log2 b : ℕ) : ℤ) := by positivity
  unfold ilog2
  simp only [← ha, ← hb]
  split
  · rename_i h
    refine ⟨h, ?_⟩
    rw [zpow_add_one₀ (by norm_num : (2 : ℚ) ≠ 0), hqe, div_lt_iff₀ hbp]
    nlinarith
  · rename_i h
    push Not at h
    constructor
    · rw [zpow_sub_one₀ (by norm_num : (2 : ℚ) ≠ 0), hqe, le_div_iff₀ hbp]
      nlinarith
    · simpa using h

theorem ilog2_unique (q : ℚ) (hq : 0 < q) (e : ℤ) (h1 : (2 : ℚ) ^ e ≤ q) (h2 : q < (2 : ℚ) ^ (e + 1)) :
    ilog2 q = e := by
  obtain ⟨a, b⟩ := ilog2_spec q hq
  have l1 : ilog2 q < e + 1 := by
    have := lt_of_le_of_lt a h2
    exact (zpow_lt_zpow_iff_right₀ (by norm_num : (1 : ℚ) < 2)).1 this
  have l2 : e < ilog2 q + 1 := by
    have := lt_of_le_of_lt h1 b
    exact (zpow_lt_zpow_iff_right₀ (by norm_num : (1 : ℚ) < 2)).1 this
  omega

theorem ilog2_mono {x y : ℚ} (hx : 0 < x) (h : x ≤ y) : ilog2 x ≤ ilog2 y := by
  obtain ⟨a, _⟩ := ilog2_spec x hx
  obtain ⟨_, b⟩ := ilog2_spec y (lt_of_lt_of_le hx h)
  have := lt_of_le_of_lt (le_trans a h) b
  have := (zpow_lt_zpow_iff_right₀ (by norm_num : (1 : ℚ) < 2)).1 this
  omega

theorem roundEven_err (q : ℚ) : |(roundEven q : ℚ) - q| ≤ 1 / 2 := by
  have h1 := Int.floor_le q
  have h2 := Int.lt_floor_add_one q
  unfold roundEven
  simp only
  rw [abs_le]
  split_ifs <;> push_cast <;> constructor <;> linarith

theorem roundEven_int (z : ℤ) : roundEven (z : ℚ) = z := by
  unfold roundEven; simp

theorem roundEven_mono {x y : ℚ} (h : x ≤ y) : roundEven x ≤ roundEven y := by
  have hf : ⌊x⌋ ≤ ⌊y⌋ := Int.floor_le_floor h
  have hx1 := Int.floor_le x
  have hy1 := Int.floor_le y
  rcases lt_or_eq_of_le hf with hlt | heq
  · have hub : roundEven x ≤ ⌊x⌋ + 1 := by
      unfold roundEven; simp only; split_ifs <;> omega
    have hlb : ⌊y⌋ ≤ roundEven y := by
      unfold roundEven; simp only; split_ifs <;> omega
    omega
  · unfold roundEven
    simp only [heq]
    split_ifs <;> first | omega | (exfalso; linarith)

theorem roundEven_neg (x : ℚ) : roundEven (-x) = - roundEven x := by
  by_cases hz : x = ⌊x⌋
  · have h1 : roundEven x = ⌊x⌋ := by conv_lhs => rw [hz, roundEven_int]
    have h2 : roundEven (-x) = -⌊x⌋ := by
      have : -x = ((-⌊x⌋ : ℤ) : ℚ) := by push_cast; linarith
      rw [this, roundEven_int]
    rw [h1, h2]
  · have h1 := Int.floor_le x
    have h2 := Int.lt_floor_add_one x
    have h3 : (⌊x⌋ : ℚ) < x := lt_of_le_of_ne h1 (fun h => hz h.symm)
    have hf : ⌊-x⌋ = -⌊x⌋ - 1 := by
      rw [Int.floor_eq_iff]
      push_cast
      constructor <;> linarith
    unfold roundEven
    simp only [hf]
    push_cast
    split_ifs <;> first | omega | (exfalso; linarith)

/-- The rounding unit used for `x`. -/
def ulpOf (p : ℕ) (emin : ℤ) (x : ℚ) : ℚ := 2 ^ (max (ilog2 |x|) emin - ((p : ℤ) - 1))

theorem ulpOf_pos (p : ℕ) (emin : ℤ) (x : ℚ) : 0 < ulpOf p emin x := by unfold ulpOf; positivity

theorem flo_eq (p : ℕ) (emin : ℤ) {x : ℚ} (hx : x ≠ 0) :
    flo p emin x = roundEven (x / ulpOf p emin x) * ulpOf p emin x := by
  unfold flo ulpOf; simp [hx]

@[simp] theorem flo_zero (p : ℕ) (emin : ℤ) : flo p emin 0 = 0 := by simp [flo]

theorem flo_neg (p : ℕ) (emin : ℤ) (x : ℚ) : flo p emin (-x) = - flo p emin x := by
  by_cases hx : x = 0
  · subst hx; simp
  · rw [flo_eq p emin hx, flo_eq p emin (neg_ne_zero.2 hx)]
    have : ulpOf p emin (-x) = ulpOf p emin x := by simp [ulpOf]
    rw [this, neg_div, roundEven_neg]; push_cast; ring

theorem flo_err (p : ℕ) (emin : ℤ) {x : ℚ} (hx : x ≠ 0) :
    |flo p emin x - x| ≤ ulpOf p emin x / 2 := by
  have hu := ulpOf_pos p emin x
  rw [flo_eq p emin hx]
  have h := roundEven_err (x / ulpOf p emin x)
  have e : (roundEven (x / ulpOf p emin x) : ℚ) * ulpOf p emin x - x
      = ((roundEven (x / ulpOf p emin x) : ℚ) - x / ulpOf p emin x) * ulpOf p emin x := by
    field_simp
  rw [e, abs_mul, abs_of_pos hu]
  nlinarith

/-- Representable values are fixed. -/
theorem flo_exact (p : ℕ) (emin : ℤ) (m k : ℤ) (hm : |m| < 2 ^ p) (hk : emin - ((p : ℤ) - 1) ≤ k) :
    flo p emin ((m : ℚ) * 2 ^ k) = (m : ℚ) * 2 ^ k := by
  by_cases hx : (m : ℚ) * 2 ^ k = 0
  · rw [hx]; simp
  · rw [flo_eq p emin hx]
    have hm0 : m ≠ 0 := by rintro rfl; simp at hx
    have habs : |(m : ℚ) * 2 ^ k| = ((|m| : ℤ) : ℚ) * 2 ^ k := by
      rw [abs_mul, abs_of_pos (by positivity : (0 : ℚ) < 2 ^ k)]; push_cast; rfl
    have hlt : |(m : ℚ) * 2 ^ k| < 2 ^ ((p : ℤ) + k) := by
      rw [habs, zpow_add₀ (by norm_num : (2 : ℚ) ≠ 0)]
      apply mul_lt_mul_of_pos_right _ (by positivity)
      rw [zpow_natCast]; exact_mod_cast hm
    have hpos : 0 < |(m : ℚ) * 2 ^ k| := abs_pos.2 hx
    have hl := (ilog2_spec _ hpos).1
    have := lt_of_le_of_lt hl hlt
    have hle := (zpow_lt_zpow_iff_right₀ (by norm_num : (1 : ℚ) < 2)).1 this
    obtain ⟨U, hU⟩ : ∃ U : ℤ, U = max (ilog2 |(m : ℚ) * 2 ^ k|) emin - ((p : ℤ) - 1) := ⟨_, rfl⟩
    have hUk : U ≤ k := by
      rw [hU]
      rcases le_total (ilog2 |(m : ℚ) * 2 ^ k|) emin with h | h
      · rw [max_eq_right h]; exact hk
      · rw [max_eq_left h]; omega
    have hulp : ulpOf p emin ((m : ℚ) * 2 ^ k) = 2 ^ U := by rw [ulpOf, hU]
    obtain ⟨d, hd⟩ : ∃ d : ℕ, k = U + d := ⟨(k - U).toNat, by omega⟩
    have hdiv : (m : ℚ) * 2 ^ k / 2 ^ U = ((m * 2 ^ d : ℤ) : ℚ) := by
      rw [hd, zpow_add₀ (by norm_num : (2 : ℚ) ≠ 0), zpow_natCast]
      push_cast
      have : (2 : ℚ) ^ U ≠ 0 := by positivity
      field_simp
    rw [hulp, hdiv, roundEven_int]
    push_cast
    rw [hd, zpow_add₀ (by norm_num : (2 : ℚ) ≠ 0), zpow_natCast]
    ring

theorem flo_nonneg (p : ℕ) (emin : ℤ) {x : ℚ} (hx : 0 ≤ x) : 0 ≤ flo p emin x := by
  by_cases h : x = 0
  · subst h; simp
  · rw [flo_eq p emin h]
    have hu := ulpOf_pos p emin x
    have : (0 : ℤ) ≤ roundEven (x / ulpOf p emin x) := by
      have := roundEven_mono (div_nonneg hx hu.le)
      have h0 := roundEven_int 0
      push_cast at h0
      rw [h0] at this
      exact this
    have : (0 : ℚ) ≤ roundEven (x / ulpOf p emin x) := by exact_mod_cast this
    positivity

theorem flo_mono_pos (p : ℕ) (hp : 1 ≤ p) (emin : ℤ) {x y : ℚ} (hx : 0 < x) (h : x ≤ y) :
    flo p emin x ≤ flo p emin y := by
  have hy : 0 < y := lt_of_lt_of_le hx h
  rw [flo_eq p emin hx.ne', flo_eq p emin hy.ne']
  have hl := ilog2_mono hx h
  obtain ⟨x1, x2⟩ := ilog2_spec x hx
  obtain ⟨y1, y2⟩ := ilog2_spec y hy
  have hux := ulpOf_pos p emin x
  have huy := ulpOf_pos p emin y
  obtain ⟨Ex, hEx⟩ : ∃ E, E = max (ilog2 x) emin := ⟨_, rfl⟩
  obtain ⟨Ey, hEy⟩ : ∃ E, E = max (ilog2 y) emin := ⟨_, rfl⟩
  have ux : ulpOf p emin x = 2 ^ (Ex - ((p : ℤ) - 1)) := by rw [ulpOf, abs_of_pos hx, hEx]
  have uy : ulpOf p emin y = 2 ^ (Ey - ((p : ℤ) - 1)) := by rw [ulpOf, abs_of_pos hy, hEy]
  have hEE : Ex ≤ Ey := by rw [hEx, hEy]; exact max_le_max_right _ hl
  rcases eq_or_lt_of_le hEE with he | hlt
  · have : ulpOf p emin x = ulpOf p emin y := by rw [ux, uy, he]
    rw [this]
    apply mul_le_mul_of_nonneg_right _ huy.le
    exact_mod_cast roundEven_mono (div_le_div_of_nonneg_right h huy.le)
  · have hEyl : Ey = ilog2 y := by
      rw [hEy]; apply max_eq_left
      rcases le_total (ilog2 y) emin with h' | h'
      · exfalso
        rw [max_eq_right h'] at hEy
        have : emin ≤ Ex := by rw [hEx]; exact le_max_right _ _
        omega
      · exact h'
    have hxl : ilog2 x ≤ Ex := by rw [hEx]; exact le_max_left _ _
    have hxb : x ≤ 2 ^ Ey := by
      apply le_of_lt (lt_of_lt_of_le x2 _)
      exact zpow_le_zpow_right₀ (by norm_num) (by omega)
    have hyb : (2 : ℚ) ^ Ey ≤ y := by rw [hEyl]; exact y1
    -- both sides are compared with 2^Ey
    have hA : (roundEven (x / ulpOf p emin x) : ℚ) * ulpOf p emin x ≤ 2 ^ Ey := by
      obtain ⟨d, hd⟩ : ∃ d : ℕ, Ey = (Ex - ((p : ℤ) - 1)) + d :=
        ⟨(Ey - (Ex - ((p : ℤ) - 1))).toNat, by omega⟩
      have hz : (2 : ℚ) ^ Ey = ((2 ^ d : ℤ) : ℚ) * ulpOf p emin x := by
        rw [ux, hd, zpow_add₀ (by norm_num : (2 : ℚ) ≠ 0), zpow_natCast]; push_cast; ring
      rw [hz]
      apply mul_le_mul_of_nonneg_right _ hux.le
      have : x / ulpOf p emin x ≤ ((2 ^ d : ℤ) : ℚ) := by
        rw [div_le_iff₀ hux, ← hz]; exact hxb
      have := roundEven_mono this
      rw [roundEven_int] at this
      exact_mod_cast this
    have hB : (2 : ℚ) ^ Ey ≤ (roundEven (y / ulpOf p emin y) : ℚ) * ulpOf p emin y := by
      have hz : (2 : ℚ) ^ Ey = ((2 ^ (p - 1) : ℤ) : ℚ) * ulpOf p emin y := by
        rw [uy]; push_cast
        rw [← zpow_natCast, ← zpow_add₀ (by norm_num : (2 : ℚ) ≠ 0)]; congr 1; omega
      rw [hz]
      apply mul_le_mul_of_nonneg_right _ huy.le
      have : ((2 ^ (p - 1) : ℤ) : ℚ) ≤ y / ulpOf p emin y := by
        rw [le_div_iff₀ huy, ← hz]; exact hyb
      have := roundEven_mono this
      rw [roundEven_int] at this
      exact_mod_cast this
    exact le_trans hA hB

theorem flo_mono (p : ℕ) (hp : 1 ≤ p) (emin : ℤ) {x y : ℚ} (h : x ≤ y) :
    flo p emin x ≤ flo p emin y := by
  rcases lt_trichotomy x 0 with hx | hx | hx
  · rcases lt_or_ge y 0 with hy | hy
    · have := flo_mono_pos p hp emin (x := -y) (y := -x) (by linarith) (by linarith)
      rw [flo_neg, flo_neg] at this
      linarith
    · have h1 := flo_nonneg p emin (x := -x) (by linarith)
      rw [flo_neg] at h1
      have h2 := flo_nonneg p emin hy
      linarith
  · subst hx; rw [flo_zero]; exact flo_nonneg p emin h
  · exact flo_mono_pos p hp emin hx h

theorem fl32_mono {x y : ℚ} (h : x ≤ y) : fl32 x ≤ fl32 y := flo_mono 24 (by norm_num) _ h
theorem fl64_mono {x y : ℚ} (h : x ≤ y) : fl64 x ≤ fl64 y := flo_mono 53 (by norm_num) _ h
@[simp] theorem fl32_zero : fl32 0 = 0 := flo_zero _ _
@[simp] theorem fl64_zero : fl64 0 = 0 := flo_zero _ _

/-- Integers below `2^24` are exact in binary32. -/
theorem fl32_int (z : ℤ) (h : |z| < 2 ^ 24) : fl32 (z : ℚ) = z := by
  have := flo_exact 24 (-126) z 0 h (by norm_num)
  simpa [fl32] using this

theorem fl64_int (z : ℤ) (h : |z| < 2 ^ 53) : fl64 (z : ℚ) = z := by
  have := flo_exact 53 (-1022) z 0 h (by norm_num)
  simpa [fl64] using this

@[simp] theorem fl32_one : fl32 1 = 1 := by simpa using fl32_int 1 (by norm_num)
@[simp] theorem fl64_one : fl64 1 = 1 := by simpa using fl64_int 1 (by norm_num)

theorem clamp01_mono {x y : ℚ} (h : x ≤ y) : clamp01 x ≤ clamp01 y := by
  unfold clamp01; split_ifs <;> linarith

theorem clamp01_nonneg (x : ℚ) : 0 ≤ clamp01 x := by unfold clamp01; split_ifs <;> linarith
theorem clamp01_le_one (x : ℚ) : clamp01 x ≤ 1 := by unfold clamp01; split_ifs <;> linarith
@[simp] theorem clamp01_zero : clamp01 0 = 0 := by norm_num [clamp01]
@[simp] theorem clamp01_one : clamp01 1 = 1 := by norm_num [clamp01]

theorem floatCode_mono (n : Nat) {v w mn mx : ℚ} (hm : mn < mx) (h : v ≤ w) :
    floatCode n v mn mx ≤ floatCode n w mn mx := by
  unfold floatCode
  simp only
  apply Int.toNat_le_toNat
  apply Int.floor_le_floor
  apply fl64_mono
  apply mul_le_mul_of_nonneg_right _ (Nat.cast_nonneg _)
  apply clamp01_mono
  apply fl32_mono
  apply div_le_div_of_nonneg_right _ (flo_nonneg _ _ (by linarith))
  apply fl32_mono
  linarith

theorem floatCode_le (n : Nat) (hn : n ≤ 52) (v mn mx : ℚ) : floatCode n v mn mx ≤ 2 ^ n - 1 := by
  unfold floatCode
  simp only
  have h1 : ((2 ^ n - 1 : ℕ) : ℚ) = (((2 ^ n - 1 : ℕ) : ℤ) : ℚ) := by push_cast; rfl
  have hlt : ((2 ^ n - 1 : ℕ) : ℤ) < 2 ^ 53 := by
    have : 2 ^ n ≤ 2 ^ 52 := Nat.pow_le_pow_right (by norm_num) hn
    have h2 : (2 ^ n - 1 : ℕ) < 2 ^ 53 := by omega
    exact_mod_cast h2
  have h : clamp01 (fl32 (fl32 (v - mn) / fl32 (mx - mn))) * ((2 ^ n - 1 : ℕ) : ℚ)
      ≤ ((2 ^ n - 1 : ℕ) : ℚ) := by
    have := clamp01_le_one (fl32 (fl32 (v - mn) / fl32 (mx - mn)))
    nlinarith [Nat.cast_nonneg (α := ℚ) (2 ^ n - 1)]
  have h2 := fl64_mono h
  rw [h1, fl64_int _ (by rw [abs_of_nonneg (Int.natCast_nonneg _)]; exact hlt), ← h1] at h2
  have h3 := Int.floor_le_floor h2
  rw [Int.floor_natCast] at h3
  omega

theorem floatCode_lt (n : Nat) (hn : n ≤ 52) (v mn mx : ℚ) : floatCode n v mn mx < 2 ^ n := by
  have := floatCode_le n hn v mn mx
  have : 0 < 2 ^ n := by positivity
  omega

theorem codeFloat_mono (n : Nat) {k l : Nat} {mn mx : ℚ} (hm : mn < mx) (h : k ≤ l) :
    codeFloat n k mn mx ≤ codeFloat n l mn mx := by
  unfold codeFloat
  simp only
  apply fl32_mono
  gcongr
  apply fl32_mono
  apply mul_le_mul_of_nonneg_right _ (flo_nonneg _ _ (by linarith))
  apply clamp01_mono
  apply fl32_mono
  apply div_le_div_of_nonneg_right _ (flo_nonneg _ _ (Nat.cast_nonneg _))
  apply fl32_mono
  exact_mod_cast h

/-- Reading back what was written. -/
def quantF (n : Nat) (mn mx v : ℚ) : ℚ := codeFloat n (floatCode n v mn mx) mn mx

theorem readFloatNBits_write (n : Nat) (hn : n ≤ 52) (v mn mx : ℚ) (rest : Bits) :
    readFloatNBits n mn mx (writeFloatNBits n v mn mx ++ rest) = .ok (quantF n mn mx v, rest) := by
  unfold readFloatNBits writeFloatNBits
  rw [Rd.bind_apply, rdU_writeNBits n _ rest (floatCode_lt n hn v mn mx)]
  rfl

theorem freadFloatNBits_write (n : Nat) (hn : n ≤ 52) (v mn mx : ℚ) (rest : Bits) :
    freadFloatNBits n mn mx (writeFloatNBits n v mn mx ++ rest) = .ok (quantF n mn mx v, rest) := by
  unfold freadFloatNBits writeFloatNBits
  rw [Rd.bind_apply, frdU_writeNBits n _ rest (floatCode_lt n hn v mn mx)]
  rfl

end Haptics
