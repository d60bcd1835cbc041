import Verif.Bits.FloatLemmas

/-
Rounding commutes with multiplication by a power of two.
-/
namespace Haptics

theorem ilog2_scale (k : ℕ) {x : ℚ} (hx : 0 < x) : ilog2 (2 ^ k * x) = ilog2 x + k := by
  obtain ⟨h1, h2⟩ := ilog2_spec x hx
  have hk : (0 : ℚ) < 2 ^ k := by positivity
  have e : ∀ z : ℤ, (2 : ℚ) ^ (z + k) = 2 ^ k * 2 ^ z := by
    intro z
    rw [zpow_add₀ (by norm_num : (2 : ℚ) ≠ 0), zpow_natCast, mul_comm]
  apply ilog2_unique _ (by positivity)
  · rw [e]; exact mul_le_mul_of_nonneg_left h1 hk.le
  · rw [show ilog2 x + k + 1 = (ilog2 x + 1) + k by ring, e]
    exact mul_lt_mul_of_pos_left h2 hk

theorem flo_scale (p : ℕ) (emin : ℤ) (k : ℕ) {x : ℚ} (hx : 0 < x) (h : (2 : ℚ) ^ emin ≤ x) :
    flo p emin (2 ^ k * x) = 2 ^ k * flo p emin x := by
  have hk : (0 : ℚ) < 2 ^ k := by positivity
  have hl : emin ≤ ilog2 x := by
    have := lt_of_le_of_lt h (ilog2_spec x hx).2
    have := (zpow_lt_zpow_iff_right₀ (by norm_num : (1 : ℚ) < 2)).1 this
    omega
  have hkx : 0 < 2 ^ k * x := by positivity
  have hu : ulpOf p emin (2 ^ k * x) = 2 ^ k * ulpOf p emin x := by
    unfold ulpOf
    rw [abs_of_pos hkx, abs_of_pos hx, ilog2_scale k hx, max_eq_left hl, max_eq_left (by omega),
      show ilog2 x + k - ((p : ℤ) - 1) = (ilog2 x - ((p : ℤ) - 1)) + k by ring,
      zpow_add₀ (by norm_num : (2 : ℚ) ≠ 0), zpow_natCast, mul_comm]
  rw [flo_eq p emin hkx.ne', flo_eq p emin hx.ne', hu]
  have hup := ulpOf_pos p emin x
  rw [show 2 ^ k * x / (2 ^ k * ulpOf p emin x) = x / ulpOf p emin x by field_simp]
  ring

theorem fl64_scale (k : ℕ) {x : ℚ} (hx : 0 < x) (h : (2 : ℚ) ^ (-1022 : ℤ) ≤ x) :
    fl64 (2 ^ k * x) = 2 ^ k * fl64 x := flo_scale 53 _ k hx h

/-- Powers of two are represented exactly. -/
theorem fl64_two_zpow (k : ℤ) (hk : -1022 ≤ k) : fl64 (2 ^ k) = 2 ^ k := by
  have := flo_exact 53 (-1022) 1 k (by norm_num) (by omega)
  simpa [fl64] using this

end Haptics
