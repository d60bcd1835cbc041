import Verif.Bits.SpecRecode
import Verif.Bits.PropsFloat

/-! **C98** A value that was coded before is not changed by coding it again. -/

namespace Haptics

theorem recoded_iff (n : Nat) (hn : n ≤ 32) (mn mx v w : ℚ) : Recoded n mn mx v w ↔ w = quantF n mn mx v := by
  constructor
  · intro h
    have := (h []).symm.trans (c05_roundtrip n hn v mn mx []).1
    simpa using this
  · rintro rfl rest
    exact (c05_roundtrip n hn v mn mx rest).1

theorem recodings_iff (n : Nat) (hn : n ≤ 32) (mn mx : ℚ) (k : Nat) (v w : ℚ) :
    Recodings n mn mx k v w ↔ w = (quantF n mn mx)^[k] v := by
  induction k generalizing w with
  | zero =>
    constructor
    · intro h; cases h; rfl
    · rintro rfl; exact .zero _
  | succ k ih =>
    rw [Function.iterate_succ_apply']
    constructor
    · intro h
      cases h with
      | succ h1 h2 => rw [← (ih _).mp h1]; exact (recoded_iff n hn mn mx _ _).mp h2
    · rintro rfl
      exact .succ ((ih _).mpr rfl) ((recoded_iff n hn mn mx _ _).mpr rfl)

/-- The codes of amplitudes, coded again. -/
theorem amplitude_codes : ∀ k : Fin 256,
    floatCode KEYFRAME_AMPLITUDE (codeFloat KEYFRAME_AMPLITUDE k (-MAX_AMPLITUDE) MAX_AMPLITUDE) (-MAX_AMPLITUDE) MAX_AMPLITUDE =
      (if k.1 < 64 then k.1 - 1 else k.1) ∧
    (codeFloat KEYFRAME_AMPLITUDE k (-MAX_AMPLITUDE) MAX_AMPLITUDE ≤ -1 / 2 ↔ k.1 < 64) ∧
    (codeFloat KEYFRAME_AMPLITUDE k (-MAX_AMPLITUDE) MAX_AMPLITUDE = -1 ↔ k.1 = 0) ∧
    (k.1 < 64 → 0 < k.1 → codeFloat KEYFRAME_AMPLITUDE (k.1 - 1) (-MAX_AMPLITUDE) MAX_AMPLITUDE <
      codeFloat KEYFRAME_AMPLITUDE k (-MAX_AMPLITUDE) MAX_AMPLITUDE) := by
  decide +kernel

/-- The amplitude that was read, as a code. -/
theorem amplitude_code (v w : ℚ) (h : Recoded KEYFRAME_AMPLITUDE (-MAX_AMPLITUDE) MAX_AMPLITUDE v w) :
    ∃ k : Fin 256, w = codeFloat KEYFRAME_AMPLITUDE k (-MAX_AMPLITUDE) MAX_AMPLITUDE :=
  ⟨⟨_, floatCode_lt 8 (by norm_num) v _ _⟩, (recoded_iff 8 (by norm_num) _ _ _ _).mp h⟩

/-- **C98, partial.** An amplitude that was written and read is not changed by writing and reading it again if and only if it is
-1 or above -1/2. -/
theorem c98_amplitude_partial (v w x : ℚ) (h1 : Recoded KEYFRAME_AMPLITUDE (-MAX_AMPLITUDE) MAX_AMPLITUDE v w)
    (h2 : Recoded KEYFRAME_AMPLITUDE (-MAX_AMPLITUDE) MAX_AMPLITUDE w x) : x = w ↔ w = -1 ∨ -1 / 2 < w := by
  obtain ⟨k, rfl⟩ := amplitude_code v w h1
  have hx := (recoded_iff 8 (by norm_num) _ _ _ _).mp h2
  obtain ⟨a, b, c, d⟩ := amplitude_codes k
  unfold quantF at hx
  rw [show (8 : ℕ) = KEYFRAME_AMPLITUDE from rfl, a] at hx
  have b' : -1 / 2 < codeFloat KEYFRAME_AMPLITUDE k (-MAX_AMPLITUDE) MAX_AMPLITUDE ↔ ¬ k.1 < 64 := by rw [← b, not_le]
  rw [hx, c, b']
  split
  · rename_i hk
    constructor
    · intro h
      left
      by_contra h0
      exact absurd h (d hk (by omega)).ne
    · rintro (h | h)
      · rw [h]
      · exact absurd hk h
  · rename_i hk
    exact ⟨fun _ => .inr hk, fun _ => rfl⟩

/-- **C98, negation.** Every other amplitude is smaller each time, … -/
theorem c98_amplitude_negation (v w x : ℚ) (h1 : Recoded KEYFRAME_AMPLITUDE (-MAX_AMPLITUDE) MAX_AMPLITUDE v w)
    (h2 : Recoded KEYFRAME_AMPLITUDE (-MAX_AMPLITUDE) MAX_AMPLITUDE w x) (h : w ≠ -1) (hw : w ≤ -1 / 2) : x < w := by
  obtain ⟨k, rfl⟩ := amplitude_code v w h1
  have hx := (recoded_iff 8 (by norm_num) _ _ _ _).mp h2
  obtain ⟨a, b, c, d⟩ := amplitude_codes k
  unfold quantF at hx
  have hk := b.mp hw
  rw [show (8 : ℕ) = KEYFRAME_AMPLITUDE from rfl, a, if_pos hk] at hx
  rw [hx]
  exact d hk (Nat.pos_of_ne_zero (fun h0 => h (c.mpr h0)))

/-- … and after 64 times it is -1. -/
theorem c98_drift_negation (v w x : ℚ) (h1 : Recoded KEYFRAME_AMPLITUDE (-MAX_AMPLITUDE) MAX_AMPLITUDE v w) (hw : w ≤ -1 / 2)
    (h2 : Recodings KEYFRAME_AMPLITUDE (-MAX_AMPLITUDE) MAX_AMPLITUDE 63 w x) : x = -1 := by
  obtain ⟨k, rfl⟩ := amplitude_code v w h1
  have hx := (recodings_iff 8 (by norm_num) _ _ _ _ _).mp h2
  have hk := (amplitude_codes k).2.1.mp hw
  have step : ∀ j, ∀ k : Fin 256, k.1 < 64 → (quantF KEYFRAME_AMPLITUDE (-MAX_AMPLITUDE) MAX_AMPLITUDE)^[j]
      (codeFloat KEYFRAME_AMPLITUDE k (-MAX_AMPLITUDE) MAX_AMPLITUDE) =
        codeFloat KEYFRAME_AMPLITUDE (k.1 - j) (-MAX_AMPLITUDE) MAX_AMPLITUDE := by
    intro j
    induction j with
    | zero => intro k _; rfl
    | succ j ih =>
      intro k hk
      rw [Function.iterate_succ_apply]
      have a := (amplitude_codes k).1
      rw [if_pos hk] at a
      have : quantF KEYFRAME_AMPLITUDE (-MAX_AMPLITUDE) MAX_AMPLITUDE
          (codeFloat KEYFRAME_AMPLITUDE k (-MAX_AMPLITUDE) MAX_AMPLITUDE) =
          codeFloat KEYFRAME_AMPLITUDE (k.1 - 1) (-MAX_AMPLITUDE) MAX_AMPLITUDE := by
        unfold quantF; rw [a]
      rw [this]
      have := ih ⟨k.1 - 1, by omega⟩ (by show k.1 - 1 < 64; omega)
      rw [this]
      congr 1
      show k.1 - 1 - j = k.1 - (j + 1)
      omega
  rw [hx, show (8 : ℕ) = KEYFRAME_AMPLITUDE from rfl, step 63 k hk]
  have h0 : k.1 - 63 = 0 := by omega
  rw [h0]
  exact (amplitude_codes ⟨0, by norm_num⟩).2.2.1.mpr rfl

/-- **C98, negation.** A frequency of 10 Hz (of a reference device) becomes smaller each time. -/
theorem c98_frequency_negation : ∃ a b c,
    Recoded 32 0 MAX_FREQUENCY 10 a ∧ Recoded 32 0 MAX_FREQUENCY a b ∧ Recoded 32 0 MAX_FREQUENCY b c ∧ c < b ∧ b < a ∧ a < 10 :=
  ⟨_, _, _, (recoded_iff 32 le_rfl _ _ _ _).mpr rfl, (recoded_iff 32 le_rfl _ _ _ _).mpr rfl,
    (recoded_iff 32 le_rfl _ _ _ _).mpr rfl, by decide +kernel, by decide +kernel, by decide +kernel⟩

/-- A code of at most 16 bits that is read and written again stays or becomes one less. -/
theorem recode_step (n k : ℕ) (h1 : 1 ≤ n) (hn : n ≤ 16) (mn mx : ℚ) (hm : 1 ≤ mx - mn) (hL : fl32 (mx - mn) = mx - mn) (hmn : fl32 mn = mn)
    (hmx : fl32 mx = mx) (hab : |mn| ≤ mx - mn) (hk : k < 2 ^ n) :
    floatCode n (codeFloat n k mn mx) mn mx ≤ k ∧ k ≤ floatCode n (codeFloat n k mn mx) mn mx + 1 := by
  have hp : 2 ^ n ≤ 2 ^ 16 := Nat.pow_le_pow_right (by norm_num) hn
  have hp1 : 2 ^ 1 ≤ 2 ^ n := Nat.pow_le_pow_right (by norm_num) h1
  have hN1 : (1 : ℚ) ≤ ((2 ^ n - 1 : ℕ) : ℚ) := by exact_mod_cast (by omega : 1 ≤ 2 ^ n - 1)
  have hN2 : ((2 ^ n - 1 : ℕ) : ℚ) ≤ 65535 := by exact_mod_cast (by omega : 2 ^ n - 1 ≤ 65535)
  have hkN : (k : ℚ) ≤ ((2 ^ n - 1 : ℕ) : ℚ) := by exact_mod_cast (by omega : k ≤ 2 ^ n - 1)
  have hd := dec_err n k mn mx (1 / 2 ^ 23) rfl hm hL hN1 hkN
  have hmm : mn < mx := by linarith
  have hlow : mn ≤ codeFloat n k mn mx := by
    have := codeFloat_mono n hmm (Nat.zero_le k)
    have h0 : codeFloat n 0 mn mx = mn := by simp [codeFloat, hmn]
    rwa [h0] at this
  have hhigh : codeFloat n k mn mx ≤ mx := by
    have := codeFloat_mono n hmm (by omega : k ≤ 2 ^ n - 1)
    have hq := c05_max_exact n h1 (by omega) hmm hL hmx (le_refl mx)
    unfold quantF at hq
    rw [floatCode_above n (by omega) hmm le_rfl (by rw [hL]; linarith)] at hq
    rwa [hq] at this
  obtain ⟨e1, e2⟩ := enc_err n (codeFloat n k mn mx) mn mx (1 / 2 ^ 23) rfl hm hL hlow hhigh hN1
  generalize floatCode n (codeFloat n k mn mx) mn mx = c at e1 e2 ⊢
  generalize codeFloat n k mn mx = w at *
  generalize ((2 ^ n - 1 : ℕ) : ℚ) = N at *
  have hLp : 0 < mx - mn := by linarith
  have hNp : 0 < N := by linarith
  have hq : |(w - mn) / (mx - mn) - k / N| ≤ 8 * (1 / 2 ^ 23) := by
    have : (w - mn) / (mx - mn) - k / N = (w - (k / N * (mx - mn) + mn)) / (mx - mn) := by field_simp; ring
    rw [this, abs_div, abs_of_pos hLp, div_le_iff₀ hLp]
    linarith
  rw [abs_le] at hq
  have a1 : (c : ℚ) / N ≤ k / N + 11 * (1 / 2 ^ 23) := by linarith [hq.2]
  have a2 : (k : ℚ) / N ≤ c / N + 1 / N + 11 * (1 / 2 ^ 23) := by linarith [hq.1]
  have b1 : (c : ℚ) ≤ k + 11 * (1 / 2 ^ 23) * N := by
    have := mul_le_mul_of_nonneg_right a1 hNp.le
    rwa [add_mul, div_mul_cancel₀ _ hNp.ne', div_mul_cancel₀ _ hNp.ne'] at this
  have b2 : (k : ℚ) ≤ c + 1 + 11 * (1 / 2 ^ 23) * N := by
    have := mul_le_mul_of_nonneg_right a2 hNp.le
    rwa [add_mul, add_mul, div_mul_cancel₀ _ hNp.ne', div_mul_cancel₀ _ hNp.ne', div_mul_cancel₀ _ hNp.ne'] at this
  have hsmall : 11 * (1 / 2 ^ 23) * N < 1 := by norm_num; linarith
  constructor
  · have : (c : ℚ) < ((k + 1 : ℕ) : ℚ) := by push_cast; linarith
    have := Nat.cast_lt.mp this
    omega
  · have : (k : ℚ) < ((c + 2 : ℕ) : ℚ) := by push_cast; linarith
    have := Nat.cast_lt.mp this
    omega

/-- **C98, partial.** Whatever the field, up to 16 bits: a value that was written and read never increases when it is written and read again,
and loses at most one step.  Missing: that it does not change, which is false. -/
theorem c98_generation_partial (n : ℕ) (h1 : 1 ≤ n) (hn : n ≤ 16) (mn mx v w x : ℚ) (hr : (mn, mx) ∈ [(-MAX_AMPLITUDE, MAX_AMPLITUDE), (0, MAX_PHASE),
      (0, MAX_FREQUENCY), (0, MAX_FLOAT), (-MAX_FLOAT, MAX_FLOAT)]) (hw : Recoded n mn mx v w) (hx : Recoded n mn mx w x) :
    x ≤ w ∧ w ≤ x + ((mx - mn) / (2 ^ n - 1) + (mx - mn) / 2 ^ 19) := by
  obtain ⟨hm, hL, hmn, hmx⟩ := c05_ranges_exact mn mx hr
  have hab : |mn| ≤ mx - mn := by
    simp only [List.mem_cons, Prod.mk.injEq, List.not_mem_nil, or_false] at hr
    rcases hr with ⟨rfl, rfl⟩ | ⟨rfl, rfl⟩ | ⟨rfl, rfl⟩ | ⟨rfl, rfl⟩ | ⟨rfl, rfl⟩
    · norm_num [MAX_AMPLITUDE]
    · rw [abs_zero]; linarith
    · norm_num [MAX_FREQUENCY]
    · norm_num [MAX_FLOAT]
    · norm_num [MAX_FLOAT]
  rw [recoded_iff n (by omega)] at hw hx
  have hk := floatCode_lt n (by omega) v mn mx
  unfold quantF at hw hx
  generalize floatCode n v mn mx = k at hw hk
  subst hw
  obtain ⟨s1, s2⟩ := recode_step n k h1 hn mn mx hm hL hmn hmx hab hk
  generalize floatCode n (codeFloat n k mn mx) mn mx = c at hx s1 s2
  subst hx
  refine ⟨codeFloat_mono n (by linarith) s1, ?_⟩
  have hp1 : 2 ^ 1 ≤ 2 ^ n := Nat.pow_le_pow_right (by norm_num) h1
  have hN1 : (1 : ℚ) ≤ ((2 ^ n - 1 : ℕ) : ℚ) := by exact_mod_cast (by omega : 1 ≤ 2 ^ n - 1)
  have d1 := dec_err n k mn mx (1 / 2 ^ 23) rfl hm hL hN1 (by exact_mod_cast (by omega : k ≤ 2 ^ n - 1))
  have d2 := dec_err n c mn mx (1 / 2 ^ 23) rfl hm hL hN1 (by exact_mod_cast (by omega : c ≤ 2 ^ n - 1))
  have hcast : ((2 ^ n - 1 : ℕ) : ℚ) = 2 ^ n - 1 := by rw [Nat.cast_sub Nat.one_le_two_pow]; push_cast; rfl
  rw [hcast] at d1 d2 hN1
  have hNp : (0 : ℚ) < 2 ^ n - 1 := by linarith
  have hkc : (k : ℚ) / (2 ^ n - 1) * (mx - mn) ≤ c / (2 ^ n - 1) * (mx - mn) + (mx - mn) / (2 ^ n - 1) := by
    have : (k : ℚ) ≤ c + 1 := by exact_mod_cast s2
    rw [div_mul_eq_mul_div, div_mul_eq_mul_div, ← add_div]
    apply div_le_div_of_nonneg_right _ hNp.le
    nlinarith
  rw [abs_le] at d1 d2
  have : (mx - mn) / 2 ^ 19 = 16 * (1 / 2 ^ 23) * (mx - mn) := by ring
  linarith [d1.2, d2.1]

/-- **C98, partial.** … and after at most as many times as the field has values, it stays. -/
theorem c98_settles_partial (n : ℕ) (h1 : 1 ≤ n) (hn : n ≤ 16) (mn mx v w x : ℚ) (hr : (mn, mx) ∈ [(-MAX_AMPLITUDE, MAX_AMPLITUDE), (0, MAX_PHASE),
      (0, MAX_FREQUENCY), (0, MAX_FLOAT), (-MAX_FLOAT, MAX_FLOAT)]) (hw : Recodings n mn mx (2 ^ n) v w) (hx : Recoded n mn mx w x) : x = w := by
  obtain ⟨hm, hL, hmn, hmx⟩ := c05_ranges_exact mn mx hr
  have hab : |mn| ≤ mx - mn := by
    simp only [List.mem_cons, Prod.mk.injEq, List.not_mem_nil, or_false] at hr
    rcases hr with ⟨rfl, rfl⟩ | ⟨rfl, rfl⟩ | ⟨rfl, rfl⟩ | ⟨rfl, rfl⟩ | ⟨rfl, rfl⟩
    · norm_num [MAX_AMPLITUDE]
    · rw [abs_zero]; linarith
    · norm_num [MAX_FREQUENCY]
    · norm_num [MAX_FLOAT]
    · norm_num [MAX_FLOAT]
  rw [recodings_iff n (by omega)] at hw
  rw [recoded_iff n (by omega)] at hx
  have key : ∀ j, ∃ k < 2 ^ n, (quantF n mn mx)^[j + 1] v = codeFloat n k mn mx ∧
      (k + j < 2 ^ n ∨ floatCode n (codeFloat n k mn mx) mn mx = k) := by
    intro j
    induction j with
    | zero => exact ⟨_, floatCode_lt n (by omega) v mn mx, rfl, .inl (floatCode_lt n (by omega) v mn mx)⟩
    | succ j ih =>
      obtain ⟨k, hk, e, h⟩ := ih
      obtain ⟨s1, s2⟩ := recode_step n k h1 hn mn mx hm hL hmn hmx hab hk
      rw [Function.iterate_succ_apply', e]
      refine ⟨_, lt_of_le_of_lt s1 hk, rfl, ?_⟩
      rcases h with h | h
      · by_cases hc : floatCode n (codeFloat n k mn mx) mn mx = k
        · right; rw [hc, hc]
        · left; omega
      · right; rw [h, h]
  obtain ⟨k, hk, e, h⟩ := key (2 ^ n - 1)
  rw [Nat.sub_add_cancel Nat.one_le_two_pow] at e
  rw [hx, hw, e]
  have hk' : floatCode n (codeFloat n k mn mx) mn mx = k := by
    rcases h with h | h
    · have h0 : k = 0 := by omega
      have := (recode_step n k h1 hn mn mx hm hL hmn hmx hab hk).1
      omega
    · exact h
  unfold quantF
  rw [hk']

/-- The codes of some phases, coded again. -/
theorem phase_codes : ∀ k : Fin 128, floatCode EFFECT_PHASE (codeFloat EFFECT_PHASE (32768 + k) 0 MAX_PHASE) 0 MAX_PHASE = 32767 + k := by
  decide +kernel

/-- **C98, negation.** A phase of 3.1538 gets smaller each of 127 times, by 0.012 in all. -/
theorem c98_phase_negation : ∃ w y, Recoded EFFECT_PHASE 0 MAX_PHASE (31538 / 10000) w ∧ Recodings EFFECT_PHASE 0 MAX_PHASE 127 w y ∧
    y + 12 / 1000 < w ∧ |w - 31538 / 10000| < 1 / 10000 := by
  have hw : quantF EFFECT_PHASE 0 MAX_PHASE (31538 / 10000) = codeFloat EFFECT_PHASE (32768 + 126) 0 MAX_PHASE := by decide +kernel
  have step : ∀ j ≤ 127, (quantF EFFECT_PHASE 0 MAX_PHASE)^[j] (codeFloat EFFECT_PHASE (32768 + 126) 0 MAX_PHASE) =
      codeFloat EFFECT_PHASE (32768 + 126 - j) 0 MAX_PHASE := by
    intro j
    induction j with
    | zero => intro _; rfl
    | succ j ih =>
      intro hj
      have h := phase_codes ⟨126 - j, by omega⟩
      have e : 32768 + (126 - j) = 32768 + 126 - j := by omega
      have e' : 32767 + (126 - j) = 32768 + 126 - (j + 1) := by omega
      simp only [e, e'] at h
      rw [Function.iterate_succ_apply', ih (by omega)]
      unfold quantF
      rw [h]
  refine ⟨_, _, (recoded_iff 16 (by norm_num) _ _ _ _).mpr rfl, (recodings_iff 16 (by norm_num) _ _ _ _ _).mpr rfl, ?_, ?_⟩
  · rw [show (16 : ℕ) = EFFECT_PHASE from rfl, hw, step 127 le_rfl]
    decide +kernel
  · rw [show (16 : ℕ) = EFFECT_PHASE from rfl, hw, abs_lt]
    constructor <;> decide +kernel

/-- Non-vacuity of `c98_generation_partial` and `c98_settles_partial`: a phase. -/
example : ∃ w x, Recoded EFFECT_PHASE 0 MAX_PHASE 1 w ∧ Recoded EFFECT_PHASE 0 MAX_PHASE w x ∧ x ≤ w :=
  have hw := (recoded_iff 16 (by norm_num) 0 MAX_PHASE 1 _).mpr rfl
  have hx := (recoded_iff 16 (by norm_num) 0 MAX_PHASE _ _).mpr rfl
  ⟨_, _, hw, hx, (c98_generation_partial 16 (by norm_num) le_rfl 0 MAX_PHASE 1 _ _ (by simp) hw hx).1⟩

example : ∃ w, Recodings EFFECT_PHASE 0 MAX_PHASE (2 ^ 16) 1 w ∧ Recoded EFFECT_PHASE 0 MAX_PHASE w w := by
  obtain ⟨w, hw⟩ : ∃ w, Recodings EFFECT_PHASE 0 MAX_PHASE (2 ^ 16) 1 w := ⟨_, (recodings_iff 16 (by norm_num) 0 MAX_PHASE (2 ^ 16) 1 _).mpr rfl⟩
  obtain ⟨x, hx⟩ : ∃ x, Recoded EFFECT_PHASE 0 MAX_PHASE w x := ⟨_, (recoded_iff 16 (by norm_num) 0 MAX_PHASE w _).mpr rfl⟩
  have he := c98_settles_partial 16 (by norm_num) le_rfl 0 MAX_PHASE 1 w x (by simp) hw hx
  subst he
  exact ⟨_, hw, hx⟩

/-- Non-vacuity: -3/4 is read as about -0.757, then as about -0.765; 1/4 is stable. -/
example : ∃ w x, Recoded KEYFRAME_AMPLITUDE (-MAX_AMPLITUDE) MAX_AMPLITUDE (-3 / 4) w ∧
    Recoded KEYFRAME_AMPLITUDE (-MAX_AMPLITUDE) MAX_AMPLITUDE w x ∧ w ≠ -1 ∧ w ≤ -1 / 2 ∧ x < -76 / 100 ∧ -76 / 100 < w :=
  ⟨_, _, (recoded_iff 8 (by norm_num) _ _ _ _).mpr rfl, (recoded_iff 8 (by norm_num) _ _ _ _).mpr rfl,
    by decide +kernel, by decide +kernel, by decide +kernel, by decide +kernel⟩

example : ∃ w, Recoded KEYFRAME_AMPLITUDE (-MAX_AMPLITUDE) MAX_AMPLITUDE (1 / 4) w ∧ -1 / 2 < w :=
  ⟨_, (recoded_iff 8 (by norm_num) _ _ _ _).mpr rfl, by decide +kernel⟩

end Haptics
