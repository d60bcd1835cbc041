import Verif.Encoder.Ivs
import Verif.Bits.PropsFloat
import Mathlib.Tactic.Linarith
import Mathlib.Tactic.NormNum
import Mathlib.Tactic.Positivity

/-! C72: milliseconds of IVS files in ticks, periods in Hz. -/

namespace Haptics.Ivs
open Haptics

theorem ms_value : fl64 (1 / 1000) = 1152921504606847 / 2 ^ 60 := by decide +kernel

theorem fl64_close (x : ℚ) (h : 0 ≤ x) :
    x - (x / 2 ^ 53 + 1 / 2 ^ 100) ≤ fl64 x ∧ fl64 x ≤ x + (x / 2 ^ 53 + 1 / 2 ^ 100) := by
  have h1 := flo_abs_err 53 (-1022) x
  rw [abs_of_nonneg h] at h1
  have h2 : (2 : ℚ) ^ ((-1022 : ℤ) - (53 : ℕ)) ≤ 1 / 2 ^ 100 := by
    rw [one_div, ← zpow_natCast, ← zpow_neg]
    exact zpow_le_zpow_right₀ (by norm_num) (by norm_num)
  have h3 : x * (2 : ℚ) ^ (-((53 : ℕ) : ℤ)) = x / 2 ^ 53 := by
    rw [zpow_neg, zpow_natCast, div_eq_mul_inv]
  rw [h3] at h1
  have := abs_le.mp h1
  unfold fl64
  constructor <;> linarith [this.1, this.2]

theorem ticks_close (ms ts : ℕ) (hms : ms < 2 ^ 31) (hts : ts < 2 ^ 32) (h : ms * ts / 1000 < 2 ^ 31) :
    (ms * ts : ℚ) / 1000 - 1 / 2000 < fl64 (fl64 (ms * fl64 (1 / 1000)) * ts) ∧
    fl64 (fl64 (ms * fl64 (1 / 1000)) * ts) < (ms * ts : ℚ) / 1000 + 1 / 2000 := by
  have hX : (ms * ts : ℚ) / 1000 < 2 ^ 31 := by
    have : ms * ts < 2 ^ 31 * 1000 := (Nat.div_lt_iff_lt_mul (by norm_num)).mp h
    rw [div_lt_iff₀ (by norm_num)]
    exact_mod_cast this
  have hX0 : (0 : ℚ) ≤ (ms * ts : ℚ) / 1000 := by positivity
  have ht : (ts : ℚ) < 2 ^ 32 := by exact_mod_cast hts
  have ht0 : (0 : ℚ) ≤ ts := by positivity
  have hm0 : (0 : ℚ) ≤ ms := by positivity
  rw [ms_value]
  have hp0 : (0 : ℚ) ≤ ms * (1152921504606847 / 2 ^ 60) := by positivity
  obtain ⟨y1, y2⟩ := fl64_close _ hp0
  have hy0 : 0 ≤ fl64 ((ms : ℚ) * (1152921504606847 / 2 ^ 60)) := flo_nonneg _ _ hp0
  generalize fl64 ((ms : ℚ) * (1152921504606847 / 2 ^ 60)) = y at *
  obtain ⟨z1, z2⟩ := fl64_close (y * ts) (mul_nonneg hy0 ht0)
  generalize fl64 (y * ts) = z at *
  have a1 : (ms : ℚ) / 1000 - ms / 1000 / 2 ^ 53 - 1 / 2 ^ 100 ≤ y := by linarith
  have a2 : y ≤ (ms : ℚ) / 1000 + ms / 1000 / 2 ^ 51 + 1 / 2 ^ 100 := by linarith
  have b1 := mul_le_mul_of_nonneg_right a1 ht0
  have b2 := mul_le_mul_of_nonneg_right a2 ht0
  rw [show ((ms : ℚ) / 1000 - ms / 1000 / 2 ^ 53 - 1 / 2 ^ 100) * ts
    = (ms * ts) / 1000 - (ms * ts) / 1000 / 2 ^ 53 - ts / 2 ^ 100 by ring] at b1
  rw [show ((ms : ℚ) / 1000 + ms / 1000 / 2 ^ 51 + 1 / 2 ^ 100) * ts
    = (ms * ts) / 1000 + (ms * ts) / 1000 / 2 ^ 51 + ts / 2 ^ 100 by ring] at b2
  generalize (ms * ts : ℚ) / 1000 = X at *
  constructor <;> linarith

/-- **C72.** A time in milliseconds becomes the whole number of ticks that have passed then; times that are exactly
on a tick may come out one tick early.  (As long as the number of ticks is an `int`.) -/
theorem c72_ticks (ms ts : ℕ) (hms : ms < 2 ^ 31) (hts : ts < 2 ^ 32) (h : ms * ts / 1000 < 2 ^ 31) :
    ∃ r : ℕ, toTicks ms ts = .ok r ∧ (r = ms * ts / 1000 ∨ 1000 ∣ ms * ts ∧ r + 1 = ms * ts / 1000) := by
  obtain ⟨h1, h2⟩ := ticks_close ms ts hms hts h
  have hz0 : 0 ≤ fl64 (fl64 (ms * fl64 (1 / 1000)) * ts) := by
    have : (0 : ℚ) ≤ fl64 (1 / 1000) := by rw [ms_value]; norm_num
    exact flo_nonneg _ _ (mul_nonneg (flo_nonneg _ _ (mul_nonneg (by positivity) this)) (by positivity))
  unfold toTicks castInt truncQ
  rw [Int.cast_natCast, if_pos hz0]
  generalize fl64 (fl64 (ms * fl64 (1 / 1000)) * ts) = z at *
  have hdiv := Nat.div_add_mod (ms * ts) 1000
  have hmod := Nat.mod_lt (ms * ts) (show 0 < 1000 by norm_num)
  generalize hn : ms * ts / 1000 = n at *
  generalize hr : ms * ts % 1000 = r at *
  have hX : (ms * ts : ℚ) / 1000 = n + (r : ℚ) / 1000 := by
    have : (ms * ts : ℚ) = 1000 * n + r := by exact_mod_cast hdiv.symm
    rw [this]; ring
  rw [hX] at h1 h2
  have hr' : (r : ℚ) ≤ 999 := by exact_mod_cast (by omega : r ≤ 999)
  have hlt : ⌊z⌋ < (n : ℤ) + 1 := by
    rw [Int.floor_lt]; push_cast; linarith
  have h0 : 0 ≤ ⌊z⌋ := Int.floor_nonneg.mpr hz0
  have hin : -2 ^ 31 ≤ ⌊z⌋ ∧ ⌊z⌋ < 2 ^ 31 := by constructor <;> omega
  rw [if_pos hin]
  refine ⟨⌊z⌋.toNat, by rw [Int.toNat_of_nonneg h0], ?_⟩
  by_cases hr0 : r = 0
  · have : (n : ℤ) - 1 ≤ ⌊z⌋ := by
      rw [Int.le_floor]; push_cast
      have : (0 : ℚ) ≤ r := by positivity
      linarith
    have hd : 1000 ∣ ms * ts := by
      rw [Nat.dvd_iff_mod_eq_zero]; omega
    by_cases hf : ⌊z⌋ = n
    · left; omega
    · right; exact ⟨hd, by omega⟩
  · left
    have : (n : ℤ) ≤ ⌊z⌋ := by
      rw [Int.le_floor]; push_cast
      have : (1 : ℚ) ≤ r := by exact_mod_cast Nat.one_le_iff_ne_zero.mpr hr0
      linarith
    omega

example : toTicks 1500 1000 = .ok 1500 := by decide +kernel
example : toTicks 333 44100 = .ok 14685 ∧ 333 * 44100 / 1000 = 14685 := by decide +kernel

/-- **C72, what does not hold.** With 1000 ticks to the second milliseconds are ticks, but 4.007 s is tick 4006. -/
theorem c72_exact_negation : ∃ ms : ℕ, toTicks ms 1000 ≠ .ok ms :=
  ⟨4007, by decide +kernel⟩

/-- **C72.** Later times do not become earlier. -/
theorem c72_monotone (a b : Int) (ts : ℕ) (x y : Int) (hab : a ≤ b) (ha : toTicks a ts = .ok x)
    (hb : toTicks b ts = .ok y) : x ≤ y := by
  have hk : (0 : ℚ) ≤ fl64 (1 / 1000) := by rw [ms_value]; norm_num
  have hm : fl64 (fl64 (a * fl64 (1 / 1000)) * ts) ≤ fl64 (fl64 (b * fl64 (1 / 1000)) * ts) := by
    refine fl64_mono (mul_le_mul_of_nonneg_right (fl64_mono (mul_le_mul_of_nonneg_right ?_ hk)) (by positivity))
    exact_mod_cast hab
  unfold toTicks castInt at ha hb
  split at ha
  · split at hb
    · injection ha with ha
      injection hb with hb
      subst ha hb
      generalize fl64 (fl64 (a * fl64 (1 / 1000)) * ts) = u at *
      generalize fl64 (fl64 (b * fl64 (1 / 1000)) * ts) = v at *
      unfold truncQ
      split <;> split
      · exact Int.floor_le_floor hm
      · linarith
      · rename_i hu hv
        have : ⌈u⌉ ≤ 0 := Int.ceil_le.mpr (by push_cast; linarith)
        have := Int.floor_nonneg.mpr hv
        omega
      · exact Int.ceil_le_ceil hm
    · cases hb
  · cases ha

/-- **C72, safety.** More than 2^31 ticks are undefined behaviour: 36 minutes, in microseconds. -/
theorem c72_overflow_unsafe : toTicks (36 * 60 * 1000) 1000000 = .error .ub := by decide +kernel

theorem frequency_table : ∀ p ≤ 1000, 1 ≤ p → frequency (p : ℕ) = .ok ((1000 / p : ℕ) : Int) := by decide +kernel

/-- **C72.** A period of `p` milliseconds, one or more, becomes 1000 / p Hz, rounded down. -/
theorem c72_frequency (p : ℕ) (h1 : 1 ≤ p) : frequency p = .ok ((1000 / p : ℕ) : Int) := by
  rcases Nat.lt_or_ge 1000 p with h | h
  · have hk : (0 : ℚ) ≤ fl64 (1 / 1000) := by rw [ms_value]; norm_num
    have hp : fl32 ((1001 : ℕ) : ℚ) ≤ fl32 (((p : ℕ) : Int) : ℚ) := fl32_mono (by exact_mod_cast h)
    have hw : fl64 (fl32 ((1001 : ℕ) : ℚ) * fl64 (1 / 1000)) ≤ fl64 (fl32 (((p : ℕ) : Int) : ℚ) * fl64 (1 / 1000)) :=
      fl64_mono (mul_le_mul_of_nonneg_right hp hk)
    have hc : (1 : ℚ) < fl64 (fl32 ((1001 : ℕ) : ℚ) * fl64 (1 / 1000)) := by decide +kernel
    have hd : fl64 (1 / fl64 (fl32 ((1001 : ℕ) : ℚ) * fl64 (1 / 1000))) < 1 := by decide +kernel
    unfold frequency
    generalize hg : fl64 (fl32 (((p : ℕ) : Int) : ℚ) * fl64 (1 / 1000)) = w at *
    generalize hv : fl64 (fl32 ((1001 : ℕ) : ℚ) * fl64 (1 / 1000)) = v at *
    have hv0 : 0 < v := lt_trans (by norm_num) hc
    have hw0 : 0 < w := lt_of_lt_of_le hv0 hw
    rw [if_neg (ne_of_gt hw0)]
    have hlt : fl64 (1 / w) < 1 := lt_of_le_of_lt (fl64_mono (one_div_le_one_div_of_le hv0 hw)) hd
    have hge : 0 ≤ fl64 (1 / w) := flo_nonneg _ _ (by positivity)
    have hfl : ⌊fl64 (1 / w)⌋ = 0 := Int.floor_eq_zero_iff.mpr ⟨hge, hlt⟩
    unfold castInt truncQ
    rw [if_pos hge, hfl, Nat.div_eq_of_lt h]
    rfl
  · exact frequency_table p h h1

/-- **C72, safety.** A period of zero is undefined behaviour (infinity becomes an `int`). -/
theorem c72_period_unsafe : frequency 0 = .error .ub := by decide +kernel

/-- **C72, what does not hold.** A periodic effect without period gets the frequency -1000 Hz. -/
theorem c72_period_negation : ∃ (b : Basis) (l : Launch) (e : Effect), b.period = none ∧ l.periodOverride = none ∧
    convertToEffect b l 1000 = .ok (some e) ∧ e.keyframes.map (·.frequencyModulation) = [some (-1000), some (-1000)] := by
  refine ⟨{ type := "periodic", waveform := "sine", duration := some 100, magnitude := some 10000 }, {}, ?_⟩
  generalize h : convertToEffect _ _ _ = r
  have : r.toOption.bind (·.map (fun e => e.keyframes.map (·.frequencyModulation)))
      = some [some (-1000), some (-1000)] := by rw [← h]; decide +kernel
  match r, this with
  | .ok (some e), this => exact ⟨e, rfl, rfl, rfl, Option.some.inj this⟩

end Haptics.Ivs
