import Verif.Bits.FloatLemmas
import Verif.Bits.Fields

namespace Haptics

/-! ## C05 – quantised float fields

`quantF n mn mx v` is by `c05_roundtrip` what a reader gets for the value `v` written on `n` bits with
range `[mn, mx]`.  All operations are the rounded binary32/binary64 operations of the code. -/

/-- The code of every float fits its field, and the reader (stream or file) returns `quantF` and stops
right after the field. -/
theorem c05_roundtrip (n : Nat) (hn : n ≤ 32) (v mn mx : ℚ) (rest : Bits) :
    readFloatNBits n mn mx (writeFloatNBits n v mn mx ++ rest) = .ok (quantF n mn mx v, rest) ∧
    freadFloatNBits n mn mx (writeFloatNBits n v mn mx ++ rest) = .ok (quantF n mn mx v, rest) :=
  ⟨readFloatNBits_write n (by omega) v mn mx rest, freadFloatNBits_write n (by omega) v mn mx rest⟩

/-- Never decreases when the written value increases. -/
theorem c05_monotone (n : Nat) {v w mn mx : ℚ} (hm : mn < mx) (h : v ≤ w) :
    quantF n mn mx v ≤ quantF n mn mx w :=
  codeFloat_mono n hm (floatCode_mono n hm h)

theorem floatCode_below (n : Nat) {v mn mx : ℚ} (hm : mn < mx) (h : v ≤ mn) :
    floatCode n v mn mx = 0 := by
  have h0 : floatCode n mn mn mx = 0 := by
    unfold floatCode; simp
  have := floatCode_mono n hm h
  omega

theorem floatCode_above (n : Nat) (hn : n ≤ 52) {v mn mx : ℚ} (hm : mn < mx) (h : mx ≤ v)
    (hL : 0 < fl32 (mx - mn)) : floatCode n v mn mx = 2 ^ n - 1 := by
  have h1 : floatCode n mx mn mx = 2 ^ n - 1 := by
    unfold floatCode
    simp only
    rw [div_self hL.ne']
    simp only [fl32_one, clamp01_one, one_mul]
    have hlt : ((2 ^ n - 1 : ℕ) : ℤ) < 2 ^ 53 := by
      have : 2 ^ n ≤ 2 ^ 52 := Nat.pow_le_pow_right (by norm_num) hn
      have h2 : (2 ^ n - 1 : ℕ) < 2 ^ 53 := by omega
      exact_mod_cast h2
    have h1 : ((2 ^ n - 1 : ℕ) : ℚ) = (((2 ^ n - 1 : ℕ) : ℤ) : ℚ) := by push_cast; rfl
    rw [h1, fl64_int _ (by rw [abs_of_nonneg (Int.natCast_nonneg _)]; exact hlt)]
    rw [Int.floor_intCast]; exact Int.toNat_natCast _
  have := floatCode_mono n hm h
  have := floatCode_le n hn v mn mx
  omega

/-- The lower end (and everything below it) is reproduced exactly. -/
theorem c05_min_exact (n : Nat) {v mn mx : ℚ} (hm : mn < mx) (hmn : fl32 mn = mn) (h : v ≤ mn) :
    quantF n mn mx v = mn := by
  unfold quantF
  rw [floatCode_below n hm h]
  simp [codeFloat, hmn]

/-- The upper end (and everything above it) is reproduced exactly. -/
theorem c05_max_exact (n : Nat) (h1 : 1 ≤ n) (hn : n ≤ 32) {v mn mx : ℚ} (hm : mn < mx)
    (hL : fl32 (mx - mn) = mx - mn) (hmx : fl32 mx = mx) (h : mx ≤ v) :
    quantF n mn mx v = mx := by
  unfold quantF
  rw [floatCode_above n (by omega) hm h (by rw [hL]; linarith)]
  unfold codeFloat
  simp only
  have hN : 0 < fl32 ((2 ^ n - 1 : ℕ) : ℚ) := by
    have : (1 : ℚ) ≤ ((2 ^ n - 1 : ℕ) : ℚ) := by
      have : 2 ^ 1 ≤ 2 ^ n := Nat.pow_le_pow_right (by norm_num) h1
      have : 1 ≤ 2 ^ n - 1 := by omega
      exact_mod_cast this
    have := fl32_mono this
    rw [fl32_one] at this
    linarith
  rw [div_self hN.ne']
  simp [hL, hmx]

/-- What is read always lies in `[mn, mx]`. -/
theorem c05_in_range (n : Nat) (h1 : 1 ≤ n) (hn : n ≤ 32) (v : ℚ) {mn mx : ℚ} (hm : mn < mx)
    (hL : fl32 (mx - mn) = mx - mn) (hmn : fl32 mn = mn) (hmx : fl32 mx = mx) :
    mn ≤ quantF n mn mx v ∧ quantF n mn mx v ≤ mx := by
  constructor
  · rcases le_total v mn with h | h
    · rw [c05_min_exact n hm hmn h]
    · have := c05_monotone n hm h
      rwa [c05_min_exact n hm hmn le_rfl] at this
  · rcases le_total v mx with h | h
    · have := c05_monotone n hm h
      rwa [c05_max_exact n h1 hn hm hL hmx le_rfl] at this
    · rw [c05_max_exact n h1 hn hm hL hmx h]

theorem flo_abs_err (p : ℕ) (emin : ℤ) (x : ℚ) :
    |flo p emin x - x| ≤ |x| * 2 ^ (-(p : ℤ)) + 2 ^ (emin - p) := by
  by_cases hx : x = 0
  · subst hx; simp only [flo_zero, sub_self, abs_zero, zero_mul, zero_add]; positivity
  · have h := flo_err p emin hx
    have hpos : 0 < |x| := abs_pos.2 hx
    have h2 := (ilog2_spec _ hpos).1
    have e : ulpOf p emin x / 2 = 2 ^ (max (ilog2 |x|) emin - p) := by
      unfold ulpOf
      rw [show max (ilog2 |x|) emin - ((p : ℤ) - 1) = (max (ilog2 |x|) emin - p) + 1 by ring,
        zpow_add_one₀ (by norm_num : (2 : ℚ) ≠ 0)]
      ring
    rw [e] at h
    have hp1 : (0 : ℚ) < 2 ^ (-(p : ℤ)) := by positivity
    have hp2 : (0 : ℚ) < 2 ^ (emin - p) := by positivity
    rcases le_total (ilog2 |x|) emin with h' | h'
    · rw [max_eq_right h'] at h
      nlinarith
    · rw [max_eq_left h'] at h
      have e2 : (2 : ℚ) ^ (ilog2 |x| - (p : ℤ)) = 2 ^ ilog2 |x| * 2 ^ (-(p : ℤ)) := by
        rw [← zpow_add₀ (by norm_num : (2 : ℚ) ≠ 0)]; rfl
      rw [e2] at h
      nlinarith

/-- Rounding error bound for values of magnitude at most `B`, `1 ≤ B`. -/
theorem fl32_err (x B : ℚ) (hB : 1 ≤ B) (hx : |x| ≤ B) : |fl32 x - x| ≤ 1 / 2 ^ 23 * B := by
  have h := flo_abs_err 24 (-126) x
  have e1 : (2 : ℚ) ^ (-((24 : ℕ) : ℤ)) = 1 / 2 ^ 24 := by norm_num
  have e2 : (2 : ℚ) ^ ((-126 : ℤ) - ((24 : ℕ) : ℤ)) ≤ 1 / 2 ^ 24 := by norm_num
  rw [e1] at h
  have e3 : (1 : ℚ) / 2 ^ 23 * B = 1 / 2 ^ 24 * B + 1 / 2 ^ 24 * B := by ring
  rw [e3]
  unfold fl32
  nlinarith

theorem fl64_err (x B : ℚ) (hB : 1 ≤ B) (hx : |x| ≤ B) : |fl64 x - x| ≤ 1 / 2 ^ 23 * B := by
  have h := flo_abs_err 53 (-1022) x
  have e1 : (2 : ℚ) ^ (-((53 : ℕ) : ℤ)) ≤ 1 / 2 ^ 24 := by norm_num
  have e2 : (2 : ℚ) ^ ((-1022 : ℤ) - ((53 : ℕ) : ℤ)) ≤ 1 / 2 ^ 24 := by
    rw [show (1 : ℚ) / 2 ^ 24 = 2 ^ (-24 : ℤ) by norm_num]
    exact zpow_le_zpow_right₀ (by norm_num) (by norm_num)
  have e3 : (1 : ℚ) / 2 ^ 23 * B = 1 / 2 ^ 24 * B + 1 / 2 ^ 24 * B := by ring
  have e4 : |x| * (2 : ℚ) ^ (-((53 : ℕ) : ℤ)) ≤ |x| * (1 / 2 ^ 24) :=
    mul_le_mul_of_nonneg_left e1 (abs_nonneg x)
  rw [e3]
  unfold fl64
  generalize (2 : ℚ) ^ (-((53 : ℕ) : ℤ)) = y1 at *
  generalize (2 : ℚ) ^ ((-1022 : ℤ) - ((53 : ℕ) : ℤ)) = y2 at *
  have e5 : |x| * (1 / 2 ^ 24 : ℚ) ≤ B * (1 / 2 ^ 24) := mul_le_mul_of_nonneg_right hx (by norm_num)
  have e6 : (1 / 2 ^ 24 : ℚ) * 1 ≤ (1 / 2 ^ 24) * B := mul_le_mul_of_nonneg_left hB (by norm_num)
  linarith

/-- `v` limited to `[mn, mx]`. -/
def clampTo (mn mx v : ℚ) : ℚ := if v < mn then mn else if mx < v then mx else v

theorem enc_err (n : Nat) (v mn mx r : ℚ) (hr : r = 1 / 2 ^ 23) (hm : 1 ≤ mx - mn)
    (hL : fl32 (mx - mn) = mx - mn) (hv1 : mn ≤ v) (hv2 : v ≤ mx)
    (hN1 : (1 : ℚ) ≤ ((2 ^ n - 1 : ℕ) : ℚ)) :
    (floatCode n v mn mx : ℚ) / ((2 ^ n - 1 : ℕ) : ℚ) ≤ (v - mn) / (mx - mn) + 3 * r ∧
    (v - mn) / (mx - mn) ≤
      (floatCode n v mn mx : ℚ) / ((2 ^ n - 1 : ℕ) : ℚ) + 1 / ((2 ^ n - 1 : ℕ) : ℚ) + 3 * r := by
  obtain ⟨L, hLd⟩ : ∃ L, L = mx - mn := ⟨_, rfl⟩
  obtain ⟨N, hN⟩ : ∃ N : ℚ, N = ((2 ^ n - 1 : ℕ) : ℚ) := ⟨_, rfl⟩
  obtain ⟨a, ha⟩ : ∃ a, a = fl32 (v - mn) := ⟨_, rfl⟩
  obtain ⟨b, hb⟩ : ∃ b, b = fl32 (a / L) := ⟨_, rfl⟩
  obtain ⟨d, hd⟩ : ∃ d, d = fl64 (b * N) := ⟨_, rfl⟩
  rw [← hLd] at hm hL ⊢
  rw [← hN] at hN1 ⊢
  have hr0 : 0 ≤ r := by rw [hr]; norm_num
  have ha0 : 0 ≤ a := by rw [ha]; exact flo_nonneg _ _ (by linarith)
  have haL : a ≤ L := by rw [ha, ← hL]; exact fl32_mono (by linarith)
  have haL1 : a / L ≤ 1 := by rw [div_le_one (by linarith)]; exact haL
  have haL0 : 0 ≤ a / L := div_nonneg ha0 (by linarith)
  have hb0 : 0 ≤ b := by rw [hb]; exact flo_nonneg _ _ haL0
  have hb1 : b ≤ 1 := by rw [hb, ← fl32_one]; exact fl32_mono haL1
  have hclamp : clamp01 b = b := by
    unfold clamp01; rw [if_neg (by linarith), if_neg (by linarith)]
  have hcode : floatCode n v mn mx = ⌊d⌋.toNat := by
    unfold floatCode
    simp only [← hN, ← hLd, hL]
    rw [← ha, ← hb, hclamp, ← hd]
  have hd0 : 0 ≤ d := by rw [hd]; exact flo_nonneg _ _ (mul_nonneg hb0 (by linarith))
  obtain ⟨k, hk⟩ : ∃ k : ℚ, k = (floatCode n v mn mx : ℚ) := ⟨_, rfl⟩
  have hkd : k = (⌊d⌋ : ℚ) := by
    rw [hk, hcode]
    have : 0 ≤ ⌊d⌋ := Int.floor_nonneg.2 hd0
    have h2 : ((⌊d⌋.toNat : ℤ) : ℚ) = (⌊d⌋ : ℚ) := by rw [Int.toNat_of_nonneg this]
    exact_mod_cast h2
  have hk1 : k ≤ d := by rw [hkd]; exact Int.floor_le d
  have hk2 : d < k + 1 := by rw [hkd]; exact Int.lt_floor_add_one d
  rw [← hk]
  have hLp : 0 < L := by linarith
  have hNp : 0 < N := by linarith
  have ea := fl32_err (v - mn) L hm (by rw [abs_of_nonneg] <;> linarith)
  rw [← ha, ← hr] at ea
  have eb := fl32_err (a / L) 1 le_rfl (by rw [abs_of_nonneg haL0]; exact haL1)
  rw [← hb, ← hr, mul_one] at eb
  have ed := fl64_err (b * N) N hN1 (by rw [abs_of_nonneg (mul_nonneg hb0 hNp.le)]; nlinarith)
  rw [← hd, ← hr] at ed
  have ea' : |a / L - (v - mn) / L| ≤ r := by
    rw [← sub_div, abs_div, abs_of_pos hLp, div_le_iff₀ hLp]; exact ea
  have ed' : |d / N - b| ≤ r := by
    have e1 : d / N - b = (d - b * N) / N := by field_simp
    rw [e1, abs_div, abs_of_pos hNp, div_le_iff₀ hNp]; exact ed
  have hwd1 : k / N ≤ d / N := div_le_div_of_nonneg_right hk1 hNp.le
  have hwd2 : d / N ≤ k / N + 1 / N := by
    rw [← add_div]; exact div_le_div_of_nonneg_right hk2.le hNp.le
  clear ea ed hk1 hk2 hkd hcode hclamp
  rw [abs_le] at ea' eb ed'
  obtain ⟨a1, a2⟩ := ea'
  obtain ⟨b1, b2⟩ := eb
  obtain ⟨d1, d2⟩ := ed'
  constructor <;> linarith

theorem dec_err (n k : Nat) (mn mx r : ℚ) (hr : r = 1 / 2 ^ 23) (hm : 1 ≤ mx - mn)
    (hL : fl32 (mx - mn) = mx - mn) (hN1 : (1 : ℚ) ≤ ((2 ^ n - 1 : ℕ) : ℚ))
    (hkN : (k : ℚ) ≤ ((2 ^ n - 1 : ℕ) : ℚ)) :
    |codeFloat n k mn mx - ((k : ℚ) / ((2 ^ n - 1 : ℕ) : ℚ) * (mx - mn) + mn)|
      ≤ 7 * r * (mx - mn) + r * |mn| := by
  obtain ⟨L, hLd⟩ : ∃ L, L = mx - mn := ⟨_, rfl⟩
  obtain ⟨N, hN⟩ : ∃ N : ℚ, N = ((2 ^ n - 1 : ℕ) : ℚ) := ⟨_, rfl⟩
  unfold codeFloat
  simp only
  rw [← hLd] at hm hL ⊢
  rw [← hN] at hN1 hkN ⊢
  rw [hL]
  have hr0 : 0 ≤ r := by rw [hr]; norm_num
  have hr2 : r ≤ 1 / 2 := by rw [hr]; norm_num
  obtain ⟨kf, hkf⟩ : ∃ x, x = fl32 (k : ℚ) := ⟨_, rfl⟩
  obtain ⟨Nf, hNf⟩ : ∃ x, x = fl32 N := ⟨_, rfl⟩
  obtain ⟨c, hc⟩ : ∃ x, x = fl32 (kf / Nf) := ⟨_, rfl⟩
  obtain ⟨m, hmm⟩ : ∃ x, x = fl32 (c * L) := ⟨_, rfl⟩
  have hk0 : (0 : ℚ) ≤ k := Nat.cast_nonneg _
  have hLp : 0 < L := by linarith
  have hNp : 0 < N := by linarith
  have hNf1 : 1 ≤ Nf := by rw [hNf, ← fl32_one]; exact fl32_mono hN1
  have hNfp : 0 < Nf := by linarith
  have hkf0 : 0 ≤ kf := by rw [hkf]; exact flo_nonneg _ _ hk0
  have hkN' : kf ≤ Nf := by rw [hkf, hNf]; exact fl32_mono hkN
  have hq1 : kf / Nf ≤ 1 := by rw [div_le_one hNfp]; exact hkN'
  have hq0 : 0 ≤ kf / Nf := div_nonneg hkf0 hNfp.le
  have hc0 : 0 ≤ c := by rw [hc]; exact flo_nonneg _ _ hq0
  have hc1 : c ≤ 1 := by rw [hc, ← fl32_one]; exact fl32_mono hq1
  have hcl : clamp01 c = c := by
    unfold clamp01; rw [if_neg (by linarith), if_neg (by linarith)]
  rw [← hkf, ← hNf, ← hc, hcl, ← hmm]
  have hcL0 : 0 ≤ c * L := mul_nonneg hc0 hLp.le
  have hcL1 : c * L ≤ L := by nlinarith
  have hm0 : 0 ≤ m := by rw [hmm]; exact flo_nonneg _ _ hcL0
  have hmL : m ≤ L := by
    have := fl32_mono hcL1
    rw [hL, ← hmm] at this; exact this
  have hmnn := abs_nonneg mn
  have ek := fl32_err k N hN1 (by rw [abs_of_nonneg hk0]; exact hkN)
  rw [← hkf, ← hr] at ek
  have eN := fl32_err N N hN1 (by rw [abs_of_pos hNp])
  rw [← hNf, ← hr] at eN
  have ec := fl32_err (kf / Nf) 1 le_rfl (by rw [abs_of_nonneg hq0]; exact hq1)
  rw [← hc, ← hr, mul_one] at ec
  have em := fl32_err (c * L) L hm (by rw [abs_of_nonneg hcL0]; exact hcL1)
  rw [← hmm, ← hr] at em
  have eo := fl32_err (m + mn) (L + |mn|) (by linarith) (by
    have := abs_add_le m mn
    rw [abs_of_nonneg hm0] at this
    linarith)
  rw [← hr] at eo
  obtain ⟨w, hw⟩ : ∃ w, w = (k : ℚ) / N := ⟨_, rfl⟩
  have hwN : w * N = k := by rw [hw]; field_simp
  have hw0 : 0 ≤ w := by rw [hw]; exact div_nonneg hk0 hNp.le
  have hw1 : w ≤ 1 := by rw [hw, div_le_one hNp]; exact hkN
  rw [← hw]
  have eq1 : |kf / Nf - w| ≤ 4 * r := by
    have e1 : kf / Nf - w = ((kf - k) - w * (Nf - N)) / Nf := by
      rw [← hwN]; field_simp; ring
    rw [e1, abs_div, abs_of_pos hNfp, div_le_iff₀ hNfp]
    have h1 := abs_sub (kf - k) (w * (Nf - N))
    have h2 : |w * (Nf - N)| ≤ |Nf - N| := by
      rw [abs_mul, abs_of_nonneg hw0]
      have := abs_nonneg (Nf - N)
      nlinarith
    have h6 : N ≤ 2 * Nf := by
      have h7 := (abs_le.1 eN).1
      nlinarith
    have h8 : r * N ≤ r * (2 * Nf) := mul_le_mul_of_nonneg_left h6 hr0
    linarith
  have hcw : |c - w| ≤ 5 * r := by
    have := abs_add_le (c - kf / Nf) (kf / Nf - w)
    rw [sub_add_sub_cancel] at this
    linarith
  have hcwL : |c * L - w * L| ≤ 5 * r * L := by
    rw [← sub_mul, abs_mul, abs_of_pos hLp]
    exact mul_le_mul_of_nonneg_right hcw hLp.le
  clear ek eN ec eq1 hcw
  rw [abs_le] at eo em hcwL ⊢
  obtain ⟨o1, o2⟩ := eo
  obtain ⟨m1, m2⟩ := em
  obtain ⟨c1, c2⟩ := hcwL
  constructor <;> linarith

/-- The value read differs from the value written, limited to the range, by at most one quantisation
step plus the rounding of the binary32 arithmetic (`2^-19` of the range and of the offset). -/
theorem c05_error_bound (n : Nat) (h1 : 1 ≤ n) (hn : n ≤ 32) (v mn mx : ℚ) (hm : 1 ≤ mx - mn)
    (hL : fl32 (mx - mn) = mx - mn) (hmn : fl32 mn = mn) (hmx : fl32 mx = mx) :
    |quantF n mn mx v - clampTo mn mx v| ≤
      (mx - mn) / (2 ^ n - 1) + ((mx - mn) + |mn|) / 2 ^ 19 := by
  have hcast : ((2 ^ n - 1 : ℕ) : ℚ) = 2 ^ n - 1 := by
    rw [Nat.cast_sub (Nat.one_le_two_pow)]; push_cast; rfl
  have hN1 : (1 : ℚ) ≤ ((2 ^ n - 1 : ℕ) : ℚ) := by
    have : 2 ^ 1 ≤ 2 ^ n := Nat.pow_le_pow_right (by norm_num) h1
    have : 1 ≤ 2 ^ n - 1 := by omega
    exact_mod_cast this
  have hmnn := abs_nonneg mn
  have hpos : 0 ≤ (mx - mn) / (2 ^ n - 1) + ((mx - mn) + |mn|) / 2 ^ 19 := by
    rw [← hcast]
    have : 0 ≤ (mx - mn) / ((2 ^ n - 1 : ℕ) : ℚ) := div_nonneg (by linarith) (by linarith)
    have : 0 ≤ ((mx - mn) + |mn|) / 2 ^ 19 := div_nonneg (by linarith) (by norm_num)
    linarith
  unfold clampTo
  split
  · rw [c05_min_exact n (by linarith) hmn (by linarith), sub_self, abs_zero]; exact hpos
  · split
    · rw [c05_max_exact n h1 hn (by linarith) hL hmx (by linarith), sub_self, abs_zero]; exact hpos
    · rename_i hv1 hv2
      push Not at hv1 hv2
      rw [← hcast]
      obtain ⟨r, hr⟩ : ∃ r : ℚ, r = 1 / 2 ^ 23 := ⟨_, rfl⟩
      obtain ⟨e1, e2⟩ := enc_err n v mn mx r hr hm hL hv1 hv2 hN1
      have hd := dec_err n (floatCode n v mn mx) mn mx r hr hm hL hN1 (by
        exact_mod_cast floatCode_le n (by omega) v mn mx)
      have e19 : ((mx - mn) + |mn|) / 2 ^ 19 = 16 * r * (mx - mn) + 16 * r * |mn| := by
        rw [hr]; ring
      rw [e19]
      unfold quantF
      have hr0 : 0 ≤ r := by rw [hr]; norm_num
      clear e19 hr
      have hLp : 0 < mx - mn := by linarith
      have hdiv : (mx - mn) / ((2 ^ n - 1 : ℕ) : ℚ) = 1 / ((2 ^ n - 1 : ℕ) : ℚ) * (mx - mn) := by ring
      rw [hdiv]
      have hsN : 0 ≤ 1 / ((2 ^ n - 1 : ℕ) : ℚ) := div_nonneg (by norm_num) (by linarith)
      generalize codeFloat n (floatCode n v mn mx) mn mx = out at hd ⊢
      generalize (floatCode n v mn mx : ℚ) / ((2 ^ n - 1 : ℕ) : ℚ) = w at hd e1 e2 ⊢
      generalize 1 / ((2 ^ n - 1 : ℕ) : ℚ) = s at e2 hsN ⊢
      have ht : (v - mn) / (mx - mn) * (mx - mn) = v - mn := by field_simp
      generalize (v - mn) / (mx - mn) = t at e1 e2 ht
      have f1 : w * (mx - mn) ≤ (t + 3 * r) * (mx - mn) := mul_le_mul_of_nonneg_right e1 hLp.le
      have f2 : t * (mx - mn) ≤ (w + s + 3 * r) * (mx - mn) := mul_le_mul_of_nonneg_right e2 hLp.le
      have hs : 0 ≤ r * (mx - mn) := mul_nonneg hr0 hLp.le
      have hs2 : 0 ≤ r * |mn| := mul_nonneg hr0 hmnn
      have hs3 : 0 ≤ s * (mx - mn) := mul_nonneg hsN hLp.le
      rw [abs_le] at hd ⊢
      obtain ⟨d1, d2⟩ := hd
      constructor <;> linarith

/-- The ranges used by the formats meet the hypotheses. -/
theorem c05_ranges_exact :
    (∀ mn mx : ℚ, (mn, mx) ∈ [(-MAX_AMPLITUDE, MAX_AMPLITUDE), (0, MAX_PHASE), (0, MAX_FREQUENCY),
        (0, MAX_FLOAT), (-MAX_FLOAT, MAX_FLOAT)] →
      1 ≤ mx - mn ∧ fl32 (mx - mn) = mx - mn ∧ fl32 mn = mn ∧ fl32 mx = mx) := by
  intro mn mx h
  simp only [List.mem_cons, Prod.mk.injEq, List.not_mem_nil, or_false] at h
  rcases h with ⟨rfl, rfl⟩ | ⟨rfl, rfl⟩ | ⟨rfl, rfl⟩ | ⟨rfl, rfl⟩ | ⟨rfl, rfl⟩ <;> decide +kernel

/-- Amplitudes of keyframes (8 bits, [-1,1]): at most 1/127 off, always within [-1,1]. -/
theorem c05_amplitude (v : ℚ) (h1 : -1 ≤ v) (h2 : v ≤ 1) :
    |quantF KEYFRAME_AMPLITUDE (-MAX_AMPLITUDE) MAX_AMPLITUDE v - v| ≤ 1 / 127 := by
  have h := c05_ranges_exact (-MAX_AMPLITUDE) MAX_AMPLITUDE (by simp)
  have hb := c05_error_bound 8 (by norm_num) (by norm_num) v (-MAX_AMPLITUDE) MAX_AMPLITUDE
    h.1 h.2.1 h.2.2.1 h.2.2.2
  have hc : clampTo (-MAX_AMPLITUDE) MAX_AMPLITUDE v = v := by
    unfold clampTo MAX_AMPLITUDE
    rw [if_neg (by linarith), if_neg (by linarith)]
  rw [hc] at hb
  refine le_trans hb ?_
  unfold MAX_AMPLITUDE
  norm_num

/-! ## C47 – re-encoding a decoded value (generation loss) -/

/-- Full property (a decoded value is re-encoded to the same code) fails: the code truncates, and the
amplitude of code 1 comes back as code 0. -/
theorem c47_reencode_drifts :
    ∃ k < 256, floatCode 8 (codeFloat 8 k (-MAX_AMPLITUDE) MAX_AMPLITUDE) (-MAX_AMPLITUDE) MAX_AMPLITUDE
      ≠ k :=
  ⟨1, by norm_num, by decide +kernel⟩

/-- Repeated decoding and encoding walks an amplitude down to -1: six generations take code 6 to 0. -/
theorem c47_generation_loss :
    (fun k => floatCode 8 (codeFloat 8 k (-MAX_AMPLITUDE) MAX_AMPLITUDE)
      (-MAX_AMPLITUDE) MAX_AMPLITUDE)^[6] 6 = 0 := by decide +kernel

set_option maxRecDepth 100000 in
theorem reencode_table : ∀ k < 256,
    floatCode 8 (codeFloat 8 k (-MAX_AMPLITUDE) MAX_AMPLITUDE) (-MAX_AMPLITUDE) MAX_AMPLITUDE = k ∨
    floatCode 8 (codeFloat 8 k (-MAX_AMPLITUDE) MAX_AMPLITUDE) (-MAX_AMPLITUDE) MAX_AMPLITUDE + 1 = k := by
  decide +kernel

/-- What holds: one generation never moves an amplitude code up, and moves it down by at most one (whole
table of 256 codes). -/
theorem c47_one_generation_partial (k : Nat) (hk : k < 256) :
    floatCode 8 (codeFloat 8 k (-MAX_AMPLITUDE) MAX_AMPLITUDE) (-MAX_AMPLITUDE) MAX_AMPLITUDE ≤ k ∧
    k ≤ floatCode 8 (codeFloat 8 k (-MAX_AMPLITUDE) MAX_AMPLITUDE) (-MAX_AMPLITUDE) MAX_AMPLITUDE + 1 := by
  rcases reencode_table k hk with h | h <;> omega

/-- The end points are stable under any number of generations, for every width and range. -/
theorem c47_ends_stable (n : Nat) (h1 : 1 ≤ n) (hn : n ≤ 32) {mn mx : ℚ} (hm : mn < mx)
    (hL : fl32 (mx - mn) = mx - mn) (hmn : fl32 mn = mn) (hmx : fl32 mx = mx) :
    quantF n mn mx (quantF n mn mx mn) = mn ∧ quantF n mn mx (quantF n mn mx mx) = mx := by
  rw [c05_min_exact n hm hmn le_rfl, c05_max_exact n h1 hn hm hL hmx le_rfl,
    c05_min_exact n hm hmn le_rfl, c05_max_exact n h1 hn hm hL hmx le_rfl]
  exact ⟨rfl, rfl⟩

end Haptics
