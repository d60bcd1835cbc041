import Verif.Psycho.SpecSmr
import Verif.Psycho.Props
import Verif.Encoder.PropsIvsTime
import Verif.Encoder.AhapLemmas
import Mathlib.Tactic.Linarith
import Mathlib.Tactic.FieldSimp
import Verif.Wavelet.PropsEncoder
import Verif.Wavelet.PropsCodec
import Mathlib.Analysis.SpecialFunctions.Sqrt
import Mathlib.Analysis.SpecialFunctions.Log.Deriv
import Mathlib.Analysis.Complex.ExponentialBounds

/-! C93: the ratios of signal to mask. -/

namespace Haptics.Psycho
open Haptics Finset

/-! ### The threshold -/

theorem constB_double : fl64 constB = constB := by decide +kernel

theorem threshold_first (lib : Lib) (h : lib.Sane) : 1 ≤ thresholdAt lib 0 := by
  unfold thresholdAt
  simp only
  apply h.pow_one
  have e0 : fl64 (fl64 (constC * 0) + constB) = constB := by
    rw [mul_zero, fl64_zero, zero_add, constB_double]
  rw [e0]
  have h1 := h.square_low
  have h2 := h.square_high
  set s := lib.square (lib.log10 constB) with hs
  have hs0 : 0 < s := by linarith
  have hd : 50 / s * s = 50 := by field_simp
  obtain ⟨h3, -⟩ := Ivs.fl64_close (50 / s) (by positivity)
  have h4 : (49 : ℚ) ≤ fl64 (50 / s) * s := by
    have := mul_le_mul_of_nonneg_right h3 hs0.le
    have e : (50 / s - (50 / s / 2 ^ 53 + 1 / 2 ^ 100)) * s = 50 - 50 / 2 ^ 53 - s / 2 ^ 100 := by
      field_simp
      ring
    rw [e] at this
    have : s / 2 ^ 100 ≤ 1 / 2 := by
      rw [div_le_iff₀ (by norm_num)]
      linarith
    norm_num at *
    linarith
  have h5 : (49 : ℚ) ≤ fl64 (fl64 (50 / s) * s) := by
    have := Ahap.int_le_fl64 (n := 49) (by norm_num) (by exact_mod_cast h4)
    exact_mod_cast this
  rw [abs_of_nonneg (by linarith)]
  have h6 : (4 : ℚ) ≤ fl64 (fl64 (fl64 (50 / s) * s) - 45) := by
    have := Ahap.int_le_fl64 (x := fl64 (fl64 (50 / s) * s) - 45) (n := 4) (by norm_num) (by push_cast; linarith)
    exact_mod_cast this
  have := Ahap.int_le_fl64 (x := fl64 (fl64 (fl64 (50 / s) * s) - 45) / 10) (n := 0) (by norm_num)
    (by push_cast; apply div_nonneg <;> linarith)
  exact_mod_cast this

theorem threshold_ones (lib : Lib) (h : lib.Sane) (bl fs : ℕ) : threshold lib (freqs bl fs) = List.replicate bl 1 := by
  cases bl with
  | zero => rfl
  | succ n =>
    unfold freqs
    rw [List.range_succ_eq_map, List.map_cons, threshold]
    simp only [Nat.cast_zero, zero_mul]
    rw [if_pos (threshold_first lib h), List.map_map, List.replicate_succ]
    congr 1
    rw [List.map_map]
    exact List.eq_replicate_iff.mpr ⟨by simp, fun x hx => by
      obtain ⟨i, -, rfl⟩ := List.mem_map.mp hx
      rfl⟩

theorem sensation_low (f : ℝ) (h1 : 200 ≤ f) (h2 : f ≤ 300) : sensation f < 1 / 10000 := by
  unfold sensation
  have hl : (0 : ℝ) < Real.log 10 := Real.log_pos (by norm_num)
  have hb : Real.log (6 / 11) ≤ -(5 / 11) := by
    have := Real.log_le_sub_one_of_pos (show (0 : ℝ) < 6 / 11 by norm_num)
    linarith
  set x := f / 550 + 6 / 11 with hx
  have hx1 : 10 / 11 ≤ x := by rw [hx]; linarith
  have hx2 : x ≤ 12 / 11 := by rw [hx]; linarith
  have hlx : |Real.log x| ≤ 1 / 10 := by
    rw [abs_le]
    constructor
    · have := Real.one_sub_inv_le_log_of_pos (show 0 < x by linarith)
      have hi : x⁻¹ ≤ 11 / 10 := by
        rw [inv_le_comm₀ (by linarith) (by norm_num)]
        norm_num
        linarith
      linarith
    · have := Real.log_le_sub_one_of_pos (show 0 < x by linarith)
      linarith
  have hq : 50 / Real.logb 10 (6 / 11) ^ 2 * Real.logb 10 x ^ 2 ≤ 3 := by
    have e : 50 / Real.logb 10 (6 / 11) ^ 2 * Real.logb 10 x ^ 2 = 50 * (Real.log x ^ 2 / Real.log (6 / 11) ^ 2) := by
      unfold Real.logb
      field_simp
    rw [e]
    have h3 : Real.log x ^ 2 ≤ 1 / 100 := by
      rw [← sq_abs]
      nlinarith [abs_nonneg (Real.log x)]
    have h4 : (1 : ℝ) / 5 ≤ Real.log (6 / 11) ^ 2 := by nlinarith
    have h5 : Real.log x ^ 2 / Real.log (6 / 11) ^ 2 ≤ 1 / 20 := by
      rw [div_le_iff₀ (by linarith)]
      linarith
    linarith
  have hn : 0 ≤ 50 / Real.logb 10 (6 / 11) ^ 2 * Real.logb 10 x ^ 2 := by positivity
  rw [abs_of_nonneg hn]
  calc (10 : ℝ) ^ ((50 / Real.logb 10 (6 / 11) ^ 2 * Real.logb 10 x ^ 2 - 45) / 10)
      < 10 ^ (-4 : ℝ) := Real.rpow_lt_rpow_of_exponent_lt (by norm_num) (by linarith)
    _ = 1 / 10000 := by
      rw [Real.rpow_neg (by norm_num), show (4 : ℝ) = ((4 : ℕ) : ℝ) by norm_num, Real.rpow_natCast]
      norm_num

/-- **C93, what does not hold.** The threshold of perception does not depend on the frequency: it is 1 at every bin of every
model, as the loop that limits it at high frequencies ends at the first bin, that of 0 Hz, already.  Around 250 Hz, where
touch is most sensitive, the formula gives less than a ten-thousandth of it. -/
theorem c93_threshold_negation (lib : Lib) (h : lib.Sane) (bl fs : ℕ) :
    threshold lib (freqs bl fs) = List.replicate bl 1 ∧ ∀ f, 200 ≤ f → f ≤ 300 → sensation f < 1 / 10000 :=
  ⟨threshold_ones lib h bl fs, sensation_low⟩

/-! ### The bands -/

theorem sum_slice (v : List ℚ) : ∀ (n a : ℕ), a + n ≤ v.length →
    ((v.drop a).take n).sum = ∑ i ∈ Ico a (a + n), v.getD i 0 := by
  intro n
  induction n with
  | zero => intro a _; simp
  | succ n ih =>
    intro a h
    rw [List.drop_eq_getElem_cons (by omega), List.take_succ_cons, List.sum_cons, ih (a + 1) (by omega),
      Finset.sum_eq_sum_Ico_succ_bot (by omega : a < a + (n + 1))]
    rw [List.getD_eq_getElem?_getD, List.getElem?_eq_getElem (by omega), Option.getD_some]
    rw [show a + 1 + n = a + (n + 1) by omega]

/-- Where band `b` begins. -/
def first (b : ℕ) : ℕ := if b = 0 then 0 else 4 * 2 ^ (b - 1)

theorem first_le (b : ℕ) : first b ≤ 4 * 2 ^ b := by
  unfold first
  split
  · exact Nat.zero_le _
  · exact Nat.mul_le_mul_left _ (Nat.pow_le_pow_right (by norm_num) (by omega))

theorem bandSums_spec (v : List ℚ) : ∀ (n m : ℕ), (∀ b, b < m + n → 4 * 2 ^ b ≤ v.length) →
    (bandSums v (first m) ((List.range n).map (fun i => 4 * 2 ^ (m + i)))).length = n ∧
    ∀ b < n, (bandSums v (first m) ((List.range n).map (fun i => 4 * 2 ^ (m + i)))).getD b 0 =
      ∑ i ∈ bins (m + b), v.getD i 0 := by
  intro n
  induction n with
  | zero => intro m _; exact ⟨rfl, fun b hb => by omega⟩
  | succ n ih =>
    intro m h
    have hm : 4 * 2 ^ m = first (m + 1) := by unfold first; rw [if_neg (by omega)]; rfl
    have e : (List.range (n + 1)).map (fun i => 4 * 2 ^ (m + i)) =
        4 * 2 ^ m :: (List.range n).map (fun i => 4 * 2 ^ (m + 1 + i)) := by
      rw [List.range_succ_eq_map, List.map_cons, List.map_map]
      congr 1
      apply List.map_congr_left
      intro i _
      simp only [Function.comp]
      congr 2
      omega
    rw [e, bandSums, hm]
    obtain ⟨i1, i2⟩ := ih (m + 1) (fun b hb => h b (by omega))
    refine ⟨by rw [List.length_cons, i1], fun b hb => ?_⟩
    cases b with
    | zero =>
      rw [List.getD_cons_zero, ← hm, sum_slice _ _ _ (by have := first_le m; have := h m (by omega); omega)]
      unfold bins
      have := first_le m
      rw [show first m + (4 * 2 ^ m - first m) = 4 * 2 ^ m by omega]
      rfl
    | succ b =>
      rw [List.getD_cons_succ, i2 b (by omega), show m + 1 + b = m + (b + 1) by omega]

/-! ### The magnitudes -/

theorem mags_spec (lib : Lib) (hl : lib.Sane) (c : ℚ) (bl : ℕ) (block : List ℚ) (hb : block.length ≤ 2 * bl) :
    ∃ mags, magnitudes lib c bl block = .ok mags ∧ mags.length = bl ∧
      ∀ i < bl, mags.getD i 0 = c * lib.sqrt (power lib bl block i * lib.sqrt (2 * bl) ^ 2) := by
  refine ⟨_, by unfold magnitudes; rw [if_neg (by omega)], ?_, ?_⟩
  · rw [List.length_map, List.length_take, hl.fft_length, List.length_append, List.length_replicate]
    omega
  · intro i hi
    have hlen : i < (lib.fft (block ++ List.replicate (2 * bl - block.length) 0)).length := by
      rw [hl.fft_length, List.length_append, List.length_replicate]
      omega
    rw [List.getD_eq_getElem?_getD, List.getElem?_map, List.getElem?_take, if_pos hi, List.getElem?_eq_getElem hlen]
    simp only [Option.map_some, Option.getD_some]
    unfold power
    simp only [List.getD_eq_getElem?_getD, List.getElem?_eq_getElem hlen, Option.getD_some]
    congr 2
    ring

theorem power_nonneg (lib : Lib) (bl : ℕ) (block : List ℚ) (i : ℕ) : 0 ≤ power lib bl block i := by
  unfold power
  simp only
  positivity

/-- The magnitude that is put into dB for bin `i`. -/
def magAt (lib : Lib) (c : ℚ) (bl : ℕ) (block : List ℚ) (i : ℕ) : ℚ :=
  c * lib.sqrt (power lib bl block i * lib.sqrt (2 * bl) ^ 2)

theorem magAt_nonneg (lib : Lib) (hl : lib.Sane) (c : ℚ) (hc : 0 < c) (bl : ℕ) (hbl : 0 < bl) (block : List ℚ) (i : ℕ) :
    0 ≤ magAt lib c bl block i ∧ (magAt lib c bl block i = 0 ↔ power lib bl block i = 0) := by
  unfold magAt
  have hs : 0 < lib.sqrt (2 * (bl : ℚ)) := hl.sqrt_pos _ (by positivity)
  rcases (power_nonneg lib bl block i).eq_or_lt with h | h
  · rw [← h, zero_mul, hl.sqrt_zero, mul_zero]
    exact ⟨le_refl _, by simp⟩
  · have := hl.sqrt_pos (power lib bl block i * lib.sqrt (2 * bl) ^ 2) (by positivity)
    have h2 := mul_pos hc this
    exact ⟨h2.le, ⟨fun h0 => by linarith, fun h0 => by linarith⟩⟩

theorem energy_spec (lib : Lib) (hl : lib.Sane) (m : ℚ) : 0 ≤ energy lib m ∧ (energy lib m = 0 ↔ m = 0) := by
  unfold energy
  split
  · rename_i h; exact ⟨le_refl _, by simp [h]⟩
  · rename_i h
    have := hl.pow_pos (20 * lib.log10 m / 10)
    exact ⟨this.le, ⟨fun h0 => by linarith, fun h0 => absurd h0 h⟩⟩

theorem maskValues_spec (lib : Lib) (hl : lib.Sane) (x : List ℚ) (fs : ℕ) (hfs : 0 < fs) (p h : ℚ) (ps : List (ℕ × ℚ))
    (hp : findPeaks x p h = .ok ps) : ∀ bins : List (ℚ × ℚ), (∀ b ∈ bins, b.2 = 1) →
    ∃ vs, maskValues lib (freqs x.length fs) ps bins = .ok vs ∧ vs.length = bins.length ∧ ∀ v ∈ vs, 1 ≤ v := by
  intro bins
  induction bins with
  | nil => intro _; exact ⟨[], rfl, rfl, by simp⟩
  | cons b l ih =>
    intro hb
    obtain ⟨vs, e, e2, e3⟩ := ih (fun c hc => hb c (List.mem_cons_of_mem _ hc))
    have h1 : b.2 = 1 := hb b List.mem_cons_self
    have hv : ∃ v, maskValue lib (freqs x.length fs) ps b.1 b.2 = .ok v ∧ 1 ≤ v := by
      unfold maskValue
      by_cases h0 : ps = []
      · rw [if_pos h0]; exact ⟨_, rfl, h1.ge⟩
      · rw [if_neg h0]
        obtain ⟨ps', q1, -, q2⟩ := c86_mask x fs hfs p h b.1
        obtain rfl : ps = ps' := Except.ok.inj (hp.symm.trans q1)
        obtain ⟨m, m1, -⟩ := q2 h0
        rw [m1]
        refine ⟨_, rfl, ?_⟩
        have := hl.pow_pos (m / 10)
        linarith
    obtain ⟨v, v1, v2⟩ := hv
    refine ⟨v :: vs, ?_, by simp [e2], fun w hw => ?_⟩
    · rw [maskValues, v1]
      simp only [bind, Except.bind, e]
    · rcases List.mem_cons.mp hw with rfl | hw
      · exact v2
      · exact e3 w hw

/-! ### The whole -/

/-- What is known of the result for a block, with the factor `c` for its magnitudes. -/
structure Result (lib : Lib) (k : ℕ) (c : ℚ) (block : List ℚ) (m : Wavelet.Model) : Prop where
  energies : m.bandenergy.length = k + 2
  ratios : m.smr.length = k + 2
  energy : ∀ b < k + 2, m.bandenergy.getD b 0 = ∑ i ∈ bins b, Psycho.energy lib (magAt lib c (8 * 2 ^ k) block i)
  smr : ∀ b < k + 2, ∃ M, 0 < M ∧
    m.smr.getD b .nan = (Wavelet.Ext.ratio (m.bandenergy.getD b 0) M).log (fun q => 10 * lib.log10 q)

theorem bins_lt (k b : ℕ) (hb : b < k + 2) : ∀ i ∈ bins b, i < 8 * 2 ^ k := by
  intro i hi
  have h1 := (Finset.mem_Ico.mp hi).2
  have h2 : 4 * 2 ^ b ≤ 4 * 2 ^ (k + 1) := Nat.mul_le_mul_left _ (Nat.pow_le_pow_right (by norm_num) (by omega))
  rw [pow_succ] at h2
  omega

theorem bins_nonempty (b : ℕ) : (bins b).Nonempty := by
  unfold bins
  rw [Finset.nonempty_Ico]
  split
  · positivity
  · exact Nat.mul_lt_mul_of_pos_left (Nat.pow_lt_pow_right (by norm_num) (by omega)) (by norm_num)

theorem getSMR_spec (lib : Lib) (hl : lib.Sane) (bottom : ℚ) (k fs : ℕ) (hfs : 0 < fs) (st : Option ℚ)
    (block : List ℚ) (hb : block.length ≤ 2 * (8 * 2 ^ k)) :
    ∃ m, getSMR lib bottom (8 * 2 ^ k) fs st block =
        .ok (m, some (st.getD (1 / lib.sqrt ((8 * 2 ^ k : ℕ) : ℚ)))) ∧
      Result lib k (st.getD (1 / lib.sqrt ((8 * 2 ^ k : ℕ) : ℚ))) block m := by
  set c := st.getD (1 / lib.sqrt ((8 * 2 ^ k : ℕ) : ℚ)) with hc
  obtain ⟨mags, m1, m2, m3⟩ := mags_spec lib hl c (8 * 2 ^ k) block hb
  obtain ⟨ps, p1, -⟩ := c86_safe (mags.map (level lib bottom)) 12 (findMaxVector (mags.map (level lib bottom)) - 45)
  have hfl : (freqs (8 * 2 ^ k) fs).length = 8 * 2 ^ k := by unfold freqs; simp
  obtain ⟨vs, v1, v2, v3⟩ := maskValues_spec lib hl (mags.map (level lib bottom)) fs hfs _ _ ps p1
    ((freqs (8 * 2 ^ k) fs).zip (threshold lib (freqs (8 * 2 ^ k) fs))) (fun b hb => by
      rw [threshold_ones lib hl] at hb
      exact List.eq_of_mem_replicate (List.of_mem_zip hb).2)
  rw [List.length_map, m2] at v1
  have v2 : vs.length = 8 * 2 ^ k := by
    rw [v2, threshold_ones lib hl, List.length_zip, List.length_replicate, hfl, Nat.min_self]
  have hpow : ∀ b, b < 0 + (k + 2) → 4 * 2 ^ b ≤ 8 * 2 ^ k := by
    intro b hb
    have h2 : 4 * 2 ^ b ≤ 4 * 2 ^ (k + 1) := Nat.mul_le_mul_left _ (Nat.pow_le_pow_right (by norm_num) (by omega))
    rw [pow_succ] at h2
    omega
  have hst := (c86_bands k).1
  have e1 := bandSums_spec (mags.map (energy lib)) (k + 2) 0 (by rw [List.length_map, m2]; exact hpow)
  have e2 := bandSums_spec vs (k + 2) 0 (by rw [v2]; exact hpow)
  have h0 : first 0 = 0 := rfl
  simp only [Nat.zero_add, h0] at e1 e2
  refine ⟨⟨bandSums (mags.map (energy lib)) 0 ((List.range (k + 2)).map (fun i => 4 * 2 ^ i)), (bandSums (mags.map (energy lib)) 0 ((List.range (k + 2)).map (fun i => 4 * 2 ^ i))).zipWith
    (fun e m => (Wavelet.Ext.ratio e m).log (fun q => 10 * lib.log10 q))
    (bandSums vs 0 ((List.range (k + 2)).map (fun i => 4 * 2 ^ i)))⟩, ?_, ?_⟩
  · unfold getSMR
    simp only [← hc, m1, p1, v1, hst, bind, Except.bind, List.tail_cons]
  · refine ⟨e1.1, ?_, ?_, ?_⟩
    · rw [List.length_zipWith, e1.1, e2.1, Nat.min_self]
    · intro b hb
      rw [e1.2 b hb]
      apply Finset.sum_congr rfl
      intro i hi
      have hi := bins_lt k b hb i hi
      rw [List.getD_eq_getElem?_getD, List.getElem?_map, List.getElem?_eq_getElem (by rw [m2]; exact hi)]
      have := m3 i hi
      rw [List.getD_eq_getElem?_getD, List.getElem?_eq_getElem (by rw [m2]; exact hi), Option.getD_some] at this
      simp only [Option.map_some, Option.getD_some]
      rw [this]
      rfl
    · intro b hb
      refine ⟨∑ i ∈ bins b, vs.getD i 0, ?_, ?_⟩
      · apply Finset.sum_pos
        · intro i hi
          have hi := bins_lt k b hb i hi
          rw [List.getD_eq_getElem?_getD, List.getElem?_eq_getElem (by rw [v2]; exact hi), Option.getD_some]
          exact lt_of_lt_of_le one_pos (v3 _ (List.getElem_mem _))
        · exact bins_nonempty b
      · rw [← e2.2 b hb]
        simp only [List.getD_eq_getElem?_getD, List.getElem?_zipWith]
        rw [List.getElem?_eq_getElem (by rw [e1.1]; exact hb), List.getElem?_eq_getElem (by rw [e2.1]; exact hb)]
        rfl

/-- **C93.** The energies and ratios of a block exist whatever is in it: one of each for each band.  An energy is zero exactly if
all bins of its band are, and then its ratio is −inf; otherwise the ratio is a number. -/
theorem c93_total (lib : Lib) (hl : lib.Sane) (bottom : ℚ) (k fs : ℕ) (hfs : 0 < fs) (block : List ℚ)
    (hb : block.length ≤ 2 * (8 * 2 ^ k)) :
    ∃ m st, getSMR lib bottom (8 * 2 ^ k) fs none block = .ok (m, st) ∧ m.bandenergy.length = k + 2 ∧ m.smr.length = k + 2 ∧
      ∀ b < k + 2, 0 ≤ m.bandenergy.getD b 0 ∧
        (m.bandenergy.getD b 0 = 0 ↔ ∀ i ∈ bins b, power lib (8 * 2 ^ k) block i = 0) ∧
        (m.bandenergy.getD b 0 = 0 → m.smr.getD b .nan = .ninf) ∧
        (0 < m.bandenergy.getD b 0 → ∃ q, m.smr.getD b .nan = .fin q) := by
  obtain ⟨m, m1, m2⟩ := getSMR_spec lib hl bottom k fs hfs none block hb
  refine ⟨m, _, m1, m2.energies, m2.ratios, fun b hb' => ?_⟩
  have hpos : (0 : ℚ) < ((8 * 2 ^ k : ℕ) : ℚ) := by positivity
  have hc : 0 < (none : Option ℚ).getD (1 / lib.sqrt ((8 * 2 ^ k : ℕ) : ℚ)) := by
    have := hl.sqrt_pos _ hpos
    simp only [Option.getD_none]
    positivity
  have hn : ∀ i ∈ bins b, 0 ≤ energy lib (magAt lib ((none : Option ℚ).getD (1 / lib.sqrt ((8 * 2 ^ k : ℕ) : ℚ)))
    (8 * 2 ^ k) block i) := fun i _ => (energy_spec lib hl _).1
  have h0 := Finset.sum_nonneg hn
  have hz := Finset.sum_eq_zero_iff_of_nonneg hn
  rw [← m2.energy b hb'] at h0 hz
  obtain ⟨M, M1, M2⟩ := m2.smr b hb'
  refine ⟨h0, ?_, ?_, ?_⟩
  · rw [hz]
    refine forall₂_congr (fun i _ => ?_)
    rw [(energy_spec lib hl _).2, (magAt_nonneg lib hl _ hc _ (by positivity) block i).2]
  · intro he
    rw [M2, he]
    unfold Wavelet.Ext.ratio
    rw [if_neg M1.ne', zero_div]
    rfl
  · intro he
    rw [M2]
    unfold Wavelet.Ext.ratio
    rw [if_neg M1.ne', Wavelet.Ext.log, if_neg (div_pos he M1).ne']
    exact ⟨_, rfl⟩

/-! ### The energies -/

theorem close_iff {x y ε : ℚ} (h : |x - y| ≤ ε * y) : (1 - ε) * y ≤ x ∧ x ≤ (1 + ε) * y := by
  rw [abs_le] at h
  constructor <;> linarith

theorem energy_close (lib : Lib) (hl : lib.Sane) (ε : ℚ) (he : lib.Accurate ε) (h0 : 0 ≤ ε) (h1 : ε ≤ 1 / 10) (n bl : ℕ)
    (hn : 0 < n) (hbl : 0 < bl) (block : List ℚ) (i : ℕ) :
    |energy lib (magAt lib (1 / lib.sqrt n) bl block i) - 2 * bl / n * power lib bl block i| ≤
      5 * ε * (2 * bl / n * power lib bl block i) := by
  have hn' : (0 : ℚ) < n := by exact_mod_cast hn
  have hbl' : (0 : ℚ) < bl := by exact_mod_cast hbl
  have hc := hl.sqrt_pos n hn'
  have hm := magAt_nonneg lib hl (1 / lib.sqrt n) (by positivity) bl hbl block i
  rcases (power_nonneg lib bl block i).eq_or_lt with hp | hp
  · rw [hm.2.mpr hp.symm, ← hp]
    unfold energy
    simp
  · have hm0 : magAt lib (1 / lib.sqrt n) bl block i ≠ 0 := fun h => hp.ne' (hm.2.mp h)
    unfold energy
    rw [if_neg hm0]
    obtain ⟨a1, a2⟩ := close_iff (he.db _ (lt_of_le_of_ne hm.1 (Ne.symm hm0)))
    generalize lib.pow10 (20 * lib.log10 (magAt lib (1 / lib.sqrt n) bl block i) / 10) = E at a1 a2 ⊢
    unfold magAt at a1 a2
    have hs := hl.sqrt_pos (2 * bl) (by positivity)
    have b0 := close_iff (he.root (2 * bl) (by positivity))
    generalize lib.sqrt (2 * bl) = s at *
    have c0 := close_iff (he.root (power lib bl block i * s ^ 2) (by positivity))
    have hr := hl.sqrt_pos (power lib bl block i * s ^ 2) (by positivity)
    generalize lib.sqrt (power lib bl block i * s ^ 2) = r at *
    have d0 := close_iff (he.root n hn'.le)
    generalize lib.sqrt n = c at *
    generalize power lib bl block i = p at *
    have hq : (1 / c * r) ^ 2 = r ^ 2 / c ^ 2 := by field_simp
    rw [hq] at a1 a2
    have hcc : 0 < c ^ 2 := by positivity
    -- the ratio of the squares, between its bounds
    have u1 : r ^ 2 / c ^ 2 ≤ (1 + ε) ^ 2 / (1 - ε) * (2 * bl / n * p) := by
      rw [div_le_iff₀ hcc]
      have e1 : r ^ 2 ≤ (1 + ε) * (p * ((1 + ε) * (2 * bl))) :=
        c0.2.trans (mul_le_mul_of_nonneg_left (mul_le_mul_of_nonneg_left b0.2 hp.le) (by linarith))
      have e2 : (1 + ε) ^ 2 / (1 - ε) * (2 * bl / n * p) * c ^ 2 ≥
          (1 + ε) ^ 2 / (1 - ε) * (2 * bl / n * p) * ((1 - ε) * n) :=
        mul_le_mul_of_nonneg_left d0.1 (by have : 0 < 1 - ε := by linarith
                                           positivity)
      have e3 : (1 + ε) ^ 2 / (1 - ε) * (2 * bl / n * p) * ((1 - ε) * n) = (1 + ε) * (p * ((1 + ε) * (2 * bl))) := by
        have : (1 - ε) ≠ 0 := by linarith
        field_simp
      linarith
    have l1 : (1 - ε) ^ 2 / (1 + ε) * (2 * bl / n * p) ≤ r ^ 2 / c ^ 2 := by
      rw [le_div_iff₀ hcc]
      have e1 : (1 - ε) * (p * ((1 - ε) * (2 * bl))) ≤ r ^ 2 :=
        (mul_le_mul_of_nonneg_left (mul_le_mul_of_nonneg_left b0.1 hp.le) (by linarith)).trans c0.1
      have e2 : (1 - ε) ^ 2 / (1 + ε) * (2 * bl / n * p) * c ^ 2 ≤
          (1 - ε) ^ 2 / (1 + ε) * (2 * bl / n * p) * ((1 + ε) * n) :=
        mul_le_mul_of_nonneg_left d0.2 (by have : 0 < 1 + ε := by linarith
                                           positivity)
      have e3 : (1 - ε) ^ 2 / (1 + ε) * (2 * bl / n * p) * ((1 + ε) * n) = (1 - ε) * (p * ((1 - ε) * (2 * bl))) := by
        have : (1 + ε) ≠ 0 := by linarith
        field_simp
      linarith
    set T := 2 * bl / n * p with hT
    have hT0 : 0 < T := by positivity
    have k1 : (1 + ε) * ((1 + ε) ^ 2 / (1 - ε)) ≤ 1 + 5 * ε := by
      rw [← mul_div_assoc, div_le_iff₀ (by linarith)]
      nlinarith [mul_nonneg h0 h0, mul_nonneg h0 (mul_nonneg h0 h0)]
    have k2 : 1 - 5 * ε ≤ (1 - ε) * ((1 - ε) ^ 2 / (1 + ε)) := by
      rw [← mul_div_assoc, le_div_iff₀ (by linarith)]
      nlinarith [mul_nonneg h0 h0, mul_nonneg h0 (mul_nonneg h0 h0)]
    rw [abs_le]
    constructor
    · have := mul_le_mul_of_nonneg_left l1 (show (0 : ℚ) ≤ 1 - ε by linarith)
      have := mul_le_mul_of_nonneg_right k2 hT0.le
      linarith
    · have := mul_le_mul_of_nonneg_left u1 (show (0 : ℚ) ≤ 1 + ε by linarith)
      have := mul_le_mul_of_nonneg_right k1 hT0.le
      linarith

theorem sum_close (s : Finset ℕ) (f g : ℕ → ℚ) (ε : ℚ) (h : ∀ i ∈ s, |f i - g i| ≤ ε * g i) :
    |∑ i ∈ s, f i - ∑ i ∈ s, g i| ≤ ε * ∑ i ∈ s, g i := by
  rw [← Finset.sum_sub_distrib, Finset.mul_sum]
  exact (Finset.abs_sum_le_sum_abs _ _).trans (Finset.sum_le_sum h)

/-- **C93.** The energy of a band is twice the sum of the squared magnitudes of its bins, as exactly as logarithms, powers and
square roots are computed. -/
theorem c93_energy (lib : Lib) (hl : lib.Sane) (ε : ℚ) (he : lib.Accurate ε) (h0 : 0 ≤ ε) (h1 : ε ≤ 1 / 10) (bottom : ℚ)
    (k fs : ℕ) (hfs : 0 < fs) (block : List ℚ) (hb : block.length ≤ 2 * (8 * 2 ^ k)) :
    ∃ m st, getSMR lib bottom (8 * 2 ^ k) fs none block = .ok (m, st) ∧ ∀ b < k + 2,
      |m.bandenergy.getD b 0 - 2 * ∑ i ∈ bins b, power lib (8 * 2 ^ k) block i| ≤
        5 * ε * (2 * ∑ i ∈ bins b, power lib (8 * 2 ^ k) block i) := by
  obtain ⟨m, m1, m2⟩ := getSMR_spec lib hl bottom k fs hfs none block hb
  refine ⟨m, _, m1, fun b hb' => ?_⟩
  rw [m2.energy b hb', Finset.mul_sum]
  apply sum_close
  intro i _
  have h8 : (0 : ℚ) < ((8 * 2 ^ k : ℕ) : ℚ) := by positivity
  have := energy_close lib hl ε he h0 h1 (8 * 2 ^ k) (8 * 2 ^ k) (by positivity) (by positivity) block i
  rwa [mul_div_assoc, div_self h8.ne', mul_one] at this

/-! ### Earlier blocks -/

theorem getSMR_none (lib : Lib) (bottom : ℚ) (bl fs : ℕ) (st : Option ℚ) (block : List ℚ)
    (h : st.getD (1 / lib.sqrt bl) = 1 / lib.sqrt bl) :
    getSMR lib bottom bl fs st block = getSMR lib bottom bl fs none block := by
  unfold getSMR
  simp only [h, Option.getD_none]

theorem getSMR_state (lib : Lib) (bottom : ℚ) (bl fs : ℕ) (st : Option ℚ) (block : List ℚ) (r : Wavelet.Model × Option ℚ)
    (h : getSMR lib bottom bl fs st block = .ok r) : r.2 = some (st.getD (1 / lib.sqrt bl)) := by
  unfold getSMR at h
  simp only [bind, Except.bind] at h
  split at h
  · cases h
  · split at h
    · cases h
    · split at h
      · cases h
      · split at h
        · cases h
        · obtain rfl := Except.ok.inj h
          rfl

/-- **C93.** As long as all models of a process have the same block length, what is told about a block does not depend on what the
models were asked before. -/
theorem c93_history (lib : Lib) (bottom : ℚ) (bl : ℕ) (calls : List (ℕ × ℕ × List ℚ)) (hc : ∀ c ∈ calls, c.1 = bl)
    (ms : List Wavelet.Model) (h : run lib bottom none calls = .ok ms) :
    List.Forall₂ (fun c m => ∃ st, getSMR lib bottom c.1 c.2.1 none c.2.2 = .ok (m, st)) calls ms := by
  have key : ∀ (calls : List (ℕ × ℕ × List ℚ)) (st : Option ℚ) (ms : List Wavelet.Model), (∀ c ∈ calls, c.1 = bl) →
      st.getD (1 / lib.sqrt bl) = 1 / lib.sqrt bl → run lib bottom st calls = .ok ms →
      List.Forall₂ (fun c m => ∃ st, getSMR lib bottom c.1 c.2.1 none c.2.2 = .ok (m, st)) calls ms := by
    intro calls
    induction calls with
    | nil =>
      intro st ms _ _ h
      obtain rfl := Except.ok.inj h
      exact .nil
    | cons c l ih =>
      intro st ms hc hst h
      obtain ⟨b, fs, block⟩ := c
      have hb : b = bl := hc _ List.mem_cons_self
      subst hb
      rw [run] at h
      rw [getSMR_none lib bottom b fs st block hst] at h
      simp only [bind, Except.bind] at h
      split at h
      · cases h
      · rename_i r hr
        split at h
        · cases h
        · rename_i more hm
          obtain rfl := Except.ok.inj h
          refine .cons ⟨r.2, hr⟩ (ih r.2 more (fun c hc' => hc c (List.mem_cons_of_mem _ hc')) ?_ hm)
          rw [getSMR_state lib bottom b fs none block r hr]
          rfl
  exact key calls none ms hc rfl h

/-- **C93, what does not hold.** A model of another block length that was asked before changes what is told about a block: after one
of 8 bins, the energies of a block of 32 bins are more than three times as large as they are without. -/
theorem c93_history_negation (lib : Lib) (hl : lib.Sane) (he : lib.Accurate (1 / 100)) (bottom : ℚ) (fs : ℕ) (hfs : 0 < fs)
    (before block : List ℚ) (h8 : before.length = 8) (h32 : block.length = 32) (b : ℕ) (hb : b < 4)
    (hp : 0 < ∑ i ∈ bins b, power lib 32 block i) :
    ∃ m₀ m m', run lib bottom none [(8, fs, before), (32, fs, block)] = .ok [m₀, m] ∧
      run lib bottom none [(32, fs, block)] = .ok [m'] ∧ 3 * m'.bandenergy.getD b 0 < m.bandenergy.getD b 0 := by
  obtain ⟨m₀, a1, -⟩ := getSMR_spec lib hl bottom 0 fs hfs none before (by omega)
  obtain ⟨m, b1, b2⟩ := getSMR_spec lib hl bottom 2 fs hfs (some (1 / lib.sqrt ((8 : ℕ) : ℚ))) block (by omega)
  obtain ⟨m', c1, c2⟩ := getSMR_spec lib hl bottom 2 fs hfs none block (by omega)
  have a1 : getSMR lib bottom 8 fs none before = .ok (m₀, some (1 / lib.sqrt ((8 : ℕ) : ℚ))) := a1
  have b1 : getSMR lib bottom 32 fs (some (1 / lib.sqrt ((8 : ℕ) : ℚ))) block = .ok (m, _) := b1
  have c1 : getSMR lib bottom 32 fs none block = .ok (m', _) := c1
  refine ⟨m₀, m, m', ?_, ?_, ?_⟩
  · simp only [run, a1, b1, bind, Except.bind]
  · simp only [run, c1, bind, Except.bind]
  · rw [b2.energy b hb, c2.energy b hb]
    have e1 := close_iff (sum_close (bins b) _ _ _ (fun i _ =>
      energy_close lib hl (1 / 100) he (by norm_num) (by norm_num) 8 32 (by norm_num) (by norm_num) block i))
    have e2 := close_iff (sum_close (bins b) _ _ _ (fun i _ =>
      energy_close lib hl (1 / 100) he (by norm_num) (by norm_num) 32 32 (by norm_num) (by norm_num) block i))
    rw [← Finset.mul_sum] at e1 e2
    have e1 := e1.1
    have e2 := e2.2
    norm_num at e1 e2 hp ⊢
    linarith

/-! ### Such functions exist -/

theorem exists_log (m : ℚ) (h : 0 < m) : ∃ l : ℚ, Real.logb 10 m < l ∧ (l : ℝ) < Real.logb 10 (m * (1001 / 1000)) := by
  have hm : (0 : ℝ) < m := by exact_mod_cast h
  exact exists_rat_btwn (Real.logb_lt_logb (by norm_num) hm (by linarith))

theorem exists_pow (x : ℚ) : ∃ r : ℚ, (10 : ℝ) ^ (x : ℝ) < r ∧ (r : ℝ) < 10 ^ (x : ℝ) * (1001 / 1000) :=
  exists_rat_btwn (by have : (0 : ℝ) < 10 ^ (x : ℝ) := Real.rpow_pos_of_pos (by norm_num) _
                      linarith)

theorem exists_root (x : ℚ) (h : 0 < x) : ∃ r : ℚ, Real.sqrt x < r ∧ (r : ℝ) < Real.sqrt x * (1001 / 1000) :=
  exists_rat_btwn (by have : 0 < Real.sqrt x := Real.sqrt_pos.mpr (by exact_mod_cast h)
                      linarith)

theorem log_constB (l : ℚ) (h1 : Real.logb 10 constB < l) (h2 : (l : ℝ) < Real.logb 10 (constB * (1001 / 1000))) :
    1 / 100 ≤ l * l ∧ l * l ≤ 1 := by
  have b1 : (1 / 2 : ℚ) ≤ constB ∧ constB ≤ 547 / 1000 := by decide +kernel
  have b2 : ((1 / 2 : ℚ) : ℝ) ≤ constB := by exact_mod_cast b1.1
  have b3 : (constB : ℝ) ≤ ((547 / 1000 : ℚ) : ℝ) := by exact_mod_cast b1.2
  push_cast at b2 b3
  have t1 : (0 : ℝ) < Real.log 10 := Real.log_pos (by norm_num)
  have t2 : Real.log 10 < 3 := by
    have : Real.log 10 ≤ Real.log (2 ^ 4) := Real.log_le_log (by norm_num) (by norm_num)
    rw [Real.log_pow] at this
    have := Real.log_two_lt_d9
    push_cast at *
    linarith
  have l1 : (-1 : ℝ) ≤ l := by
    refine le_of_lt (lt_of_le_of_lt ?_ h1)
    rw [Real.logb, le_div_iff₀ t1]
    have := Real.log_le_log (by norm_num : (0 : ℝ) < 1 / 10) (show (1 / 10 : ℝ) ≤ constB by linarith)
    rw [one_div, Real.log_inv] at this
    linarith
  have l2 : (l : ℝ) ≤ -(1 / 10) := by
    refine le_of_lt (lt_of_lt_of_le h2 ?_)
    rw [Real.logb, div_le_iff₀ t1]
    have := Real.log_le_sub_one_of_pos (show (0 : ℝ) < constB * (1001 / 1000) by linarith)
    linarith
  have l1 : (-1 : ℚ) ≤ l := by exact_mod_cast l1
  have l2 : l ≤ -(1 / 10) := by
    have : (l : ℝ) ≤ ((-(1 / 10) : ℚ) : ℝ) := by push_cast; exact l2
    exact_mod_cast this
  constructor <;> nlinarith

/-- There are functions that compute as exactly as the theorems ask for. -/
theorem lib_exists : ∃ lib : Lib, lib.Sane ∧ lib.Accurate (1 / 100) ∧ lib.fft = fun l => l.map (fun x => (x, 0)) := by
  classical
  let lib : Lib :=
    { log10 := fun m => if h : 0 < m then (exists_log m h).choose else 0
      pow10 := fun x => (exists_pow x).choose
      square := fun x => x * x
      sqrt := fun x => if h : 0 < x then (exists_root x h).choose else 0
      fft := fun l => l.map (fun x => (x, 0)) }
  have hpow : ∀ x : ℚ, (10 : ℝ) ^ (x : ℝ) < lib.pow10 x ∧ (lib.pow10 x : ℝ) < 10 ^ (x : ℝ) * (1001 / 1000) :=
    fun x => (exists_pow x).choose_spec
  have hlog : ∀ m : ℚ, 0 < m → Real.logb 10 m < lib.log10 m ∧ (lib.log10 m : ℝ) < Real.logb 10 (m * (1001 / 1000)) := by
    intro m h
    have := (exists_log m h).choose_spec
    simp only [lib, dif_pos h]
    exact this
  have hroot : ∀ x : ℚ, 0 < x → Real.sqrt x < lib.sqrt x ∧ (lib.sqrt x : ℝ) < Real.sqrt x * (1001 / 1000) := by
    intro x h
    have := (exists_root x h).choose_spec
    simp only [lib, dif_pos h]
    exact this
  have hcb : (0 : ℚ) < constB := by decide +kernel
  have hb := log_constB (lib.log10 constB) (hlog constB hcb).1 (hlog constB hcb).2
  refine ⟨lib, ⟨fun x => ?_, fun x hx => ?_, hb.1, hb.2, fun x hx => ?_, ?_, fun l => List.length_map _, fun n a ha => ?_⟩,
    ⟨fun m hm => ?_, fun x hx => ?_⟩, rfl⟩
  · have : (0 : ℝ) < 10 ^ (x : ℝ) := Real.rpow_pos_of_pos (by norm_num) _
    have := this.trans (hpow x).1
    exact_mod_cast this
  · have : (1 : ℝ) ≤ 10 ^ (x : ℝ) := Real.one_le_rpow (by norm_num) (by exact_mod_cast hx)
    have := this.trans (hpow x).1.le
    exact_mod_cast this
  · have := lt_of_le_of_lt (Real.sqrt_nonneg x) (hroot x hx).1
    exact_mod_cast this
  · simp [lib]
  · obtain ⟨x, hx, rfl⟩ := List.mem_map.mp ha
    rw [List.eq_of_mem_replicate hx]
  · have hm' : (0 : ℝ) < m := by exact_mod_cast hm
    obtain ⟨p1, p2⟩ := hpow (20 * lib.log10 m / 10)
    obtain ⟨l1, l2⟩ := hlog m hm
    generalize lib.pow10 (20 * lib.log10 m / 10) = E at *
    generalize hl : lib.log10 m = l at *
    have e : (10 : ℝ) ^ ((20 * l / 10 : ℚ) : ℝ) = ((10 : ℝ) ^ (l : ℝ)) ^ 2 := by
      rw [← Real.rpow_natCast, ← Real.rpow_mul (by norm_num)]
      congr 1
      push_cast
      ring
    rw [e] at p1 p2
    have q1 : (m : ℝ) < 10 ^ (l : ℝ) := by
      rwa [Real.logb_lt_iff_lt_rpow (by norm_num) hm'] at l1
    have q2 : (10 : ℝ) ^ (l : ℝ) < m * (1001 / 1000) := by
      rwa [Real.lt_logb_iff_rpow_lt (by norm_num) (by positivity)] at l2
    generalize (10 : ℝ) ^ (l : ℝ) = t at *
    have r1 : (m : ℝ) ^ 2 ≤ E := by nlinarith
    have r2 : (E : ℝ) ≤ 101 / 100 * (m : ℝ) ^ 2 := by
      have : t ^ 2 ≤ (m * (1001 / 1000)) ^ 2 := by
        apply pow_le_pow_left₀ (by linarith) q2.le
      nlinarith
    have r1 : m ^ 2 ≤ E := by exact_mod_cast r1
    have r2 : E ≤ 101 / 100 * m ^ 2 := by
      have : (E : ℝ) ≤ ((101 / 100 * m ^ 2 : ℚ) : ℝ) := by push_cast; exact r2
      exact_mod_cast this
    rw [abs_le]
    constructor <;> nlinarith
  · rcases hx.eq_or_lt with rfl | hx
    · simp [lib]
    · obtain ⟨r1, r2⟩ := hroot x hx
      generalize lib.sqrt x = r at *
      have hx' : (0 : ℝ) < x := by exact_mod_cast hx
      have hs := Real.sq_sqrt hx'.le
      have hs0 := Real.sqrt_nonneg (x : ℝ)
      generalize Real.sqrt x = s at *
      have t1 : (x : ℝ) ≤ r ^ 2 := by nlinarith
      have t2 : (r : ℝ) ^ 2 ≤ 101 / 100 * x := by
        have : (r : ℝ) ^ 2 ≤ (s * (1001 / 1000)) ^ 2 := pow_le_pow_left₀ (by linarith) r2.le 2
        nlinarith
      have t1 : x ≤ r ^ 2 := by exact_mod_cast t1
      have t2 : r ^ 2 ≤ 101 / 100 * x := by
        have : ((r ^ 2 : ℚ) : ℝ) ≤ ((101 / 100 * x : ℚ) : ℝ) := by push_cast; exact t2
        exact_mod_cast this
      rw [abs_le]
      constructor <;> linarith

/-- A model for 8 bins and then one for 32, with such functions and a block of 32 ones. -/
example (bottom : ℚ) : ∃ lib : Lib, lib.Sane ∧ ∃ m₀ m m',
    run lib bottom none [(8, 8000, List.replicate 8 0), (32, 8000, List.replicate 32 1)] = .ok [m₀, m] ∧
      run lib bottom none [(32, 8000, List.replicate 32 1)] = .ok [m'] ∧
      3 * m'.bandenergy.getD 0 0 < m.bandenergy.getD 0 0 := by
  obtain ⟨lib, h1, h2, h3⟩ := lib_exists
  refine ⟨lib, h1, c93_history_negation lib h1 h2 bottom 8000 (by norm_num) _ _ rfl rfl 0 (by norm_num) ?_⟩
  unfold power
  rw [h3]
  decide +kernel

/-! ### The wavelet encoder with this model -/

theorem ratios_spec (lib : Lib) (hl : lib.Sane) (bottom : ℚ) (k fs : ℕ) (hk : 3 ≤ k) (hfs : 0 < fs) (block : List ℚ)
    (hb : block.length = 2 ^ k) : ∀ b < Wavelet.bands k,
      0 ≤ (ratios lib bottom (2 ^ k) fs block).bandenergy.getD b 0 ∧
      ((ratios lib bottom (2 ^ k) fs block).bandenergy.getD b 0 = 0 ↔ ∀ i ∈ bins b, power lib (2 ^ k) block i = 0) ∧
      (0 < (ratios lib bottom (2 ^ k) fs block).bandenergy.getD b 0 →
        ∃ q, (ratios lib bottom (2 ^ k) fs block).smr.getD b .nan = .fin q) := by
  obtain ⟨j, rfl⟩ : ∃ j, k = j + 3 := ⟨k - 3, by omega⟩
  have e : 2 ^ (j + 3) = 8 * 2 ^ j := by rw [pow_add]; ring
  rw [e] at hb ⊢
  obtain ⟨m, st, m1, m2, m3, m4⟩ := c93_total lib hl bottom j fs hfs block (by omega)
  intro b hb'
  have : ratios lib bottom (8 * 2 ^ j) fs block = m := by unfold ratios; rw [m1]
  rw [this]
  obtain ⟨r1, r2, -, r4⟩ := m4 b (by unfold Wavelet.bands at hb'; omega)
  exact ⟨r1, r2, r4⟩

/-- **C93.** With this model, the condition under which the wavelet encoder keeps within its bits (C43) is one on the spectrum of
the block and its coefficients: each band has a bin that is not zero, and enough bands are not reproduced exactly.  Silent
blocks do not matter up to 30 bits. -/
theorem c93_fits (lib : Lib) (hl : lib.Sane) (bottom : ℚ) (k fs : ℕ) (hk : 3 ≤ k) (hfs : 0 < fs) (block dwt : List ℚ)
    (hb : block.length = 2 ^ k) (max : ℚ) (budget : ℤ)
    (h : budget ≤ 15 ∨ (∀ b < Wavelet.bands k, ∃ i ∈ bins b, power lib (2 ^ k) block i ≠ 0) ∧
      (∃ G : Finset ℕ, (∀ b ∈ G, b < Wavelet.bands k ∧ Wavelet.Inexact dwt max b) ∧
        min budget (15 * Wavelet.bands k) ≤ 15 * G.card) ∨ budget ≤ 30 ∧ ∀ v ∈ dwt, v = 0) :
    Wavelet.BudgetFits k dwt max (ratios lib bottom (2 ^ k) fs block) budget := by
  rcases h with h | ⟨h1, h2⟩ | h
  · exact .inl h
  rotate_left
  · exact .inr (.inr h)
  · refine .inr (.inl ⟨fun b hb' => ?_, h2⟩)
    obtain ⟨r1, r2, r3⟩ := ratios_spec lib hl bottom k fs hk hfs block hb b hb'
    have hp : 0 < (ratios lib bottom (2 ^ k) fs block).bandenergy.getD b 0 := by
      refine lt_of_le_of_ne r1 (fun h0 => ?_)
      obtain ⟨i, i1, i2⟩ := h1 b hb'
      exact i2 (r2.mp h0.symm i i1)
    exact ⟨hp, r3 hp⟩

/-- A block of eight ones, whose coefficients are taken to be 1/3, and 30 bits. -/
example (bottom : ℚ) : ∃ lib : Lib, lib.Sane ∧ Wavelet.BudgetFits 3 (List.replicate 8 (1 / 3)) (43 / 128)
    (ratios lib bottom (2 ^ 3) 8000 (List.replicate 8 1)) 30 := by
  obtain ⟨lib, h1, -, h3⟩ := lib_exists
  have hn := Wavelet.third_inexact
  refine ⟨lib, h1, c93_fits lib h1 bottom 3 8000 (by norm_num) (by norm_num) _ _ rfl _ _ (.inr (.inl ⟨?_, {0, 1}, ?_, by decide⟩))⟩
  · unfold power
    rw [h3]
    intro b hb
    have : b = 0 ∨ b = 1 := by unfold Wavelet.bands at hb; omega
    rcases this with rfl | rfl
    · exact ⟨0, by decide, by decide +kernel⟩
    · exact ⟨4, by decide, by decide +kernel⟩
  · intro b hb
    have : b = 0 ∨ b = 1 := by simpa using hb
    rcases this with rfl | rfl
    · exact ⟨by decide, 0, by simp [Wavelet.InBand], hn⟩
    · exact ⟨by decide, 4, by simp [Wavelet.InBand], hn⟩

/-- All values are zero. -/
def Zeros (l : List ℚ) : Prop := ∀ v ∈ l, v = 0

theorem Zeros.append {a b : List ℚ} (ha : Zeros a) (hb : Zeros b) : Zeros (a ++ b) := fun v hv =>
  (List.mem_append.mp hv).elim (ha v) (hb v)

theorem Zeros.getD {l : List ℚ} (h : Zeros l) (i : ℕ) : l.getD i 0 = 0 := by
  rw [List.getD_eq_getElem?_getD]
  cases hi : l[i]? with
  | none => rfl
  | some v => exact h v (List.mem_of_getElem? hi)

theorem Zeros.taps (x : List ℚ) (hx : Zeros x) : ∀ (h : List ℚ) (i : ℕ) (out : List ℚ), Zeros out →
    Zeros (Wavelet.Transform.taps fl64 x i h out) := by
  intro h
  induction h with
  | nil => intro i out ho; exact ho
  | cons c h ih =>
    intro i out ho
    refine ih (i + 1) _ (fun v hv => ?_)
    obtain ⟨j, hj, rfl⟩ := List.mem_mapIdx.mp hv
    have : out[j] = 0 := ho _ (List.getElem_mem _)
    rw [this, hx.getD, zero_mul, fl64_zero, zero_add, fl64_zero, ite_self]

theorem Zeros.conv (x : List ℚ) (hx : Zeros x) (h : List ℚ) : Zeros (Wavelet.Transform.conv1D fl64 x h) := by
  cases h with
  | nil => intro v hv; cases hv
  | cons c h =>
    refine Zeros.taps x hx h 1 _ (Zeros.append (fun v hv => ?_) (fun v hv => List.eq_of_mem_replicate hv))
    obtain ⟨w, hw, rfl⟩ := List.mem_map.mp hv
    rw [hx w hw, zero_mul, fl64_zero]

theorem Zeros.sym (x h y : List ℚ) (hx : Zeros x) (e : Wavelet.Transform.symconv1D fl64 x h = .ok y) : Zeros y := by
  unfold Wavelet.Transform.symconv1D Wavelet.Transform.extend at e
  split at e
  · cases e
  · obtain rfl := Except.ok.inj e
    refine fun v hv => Zeros.conv _ ?_ h v (List.mem_of_mem_drop (List.mem_of_mem_take hv))
    refine Zeros.append (Zeros.append (fun w hw => ?_) hx) (fun w hw => ?_)
    · exact hx w (List.mem_of_mem_drop (List.mem_of_mem_take (List.mem_reverse.mp hw)))
    · exact hx w (List.mem_of_mem_drop (List.mem_of_mem_take (List.mem_reverse.mp hw)))

theorem Zeros.evens : ∀ (l : List ℚ), Zeros l → Zeros (Wavelet.Transform.evens l)
  | [], h => h
  | [a], h => h
  | a :: b :: l, h => by
    intro v hv
    rcases List.mem_cons.mp hv with rfl | hv
    · exact h v (by simp)
    · exact Zeros.evens l (fun w hw => h w (by simp [hw])) v hv

theorem Zeros.odds : ∀ (l : List ℚ), Zeros l → Zeros (Wavelet.Transform.odds l)
  | [], h => h
  | [a], h => fun v hv => by cases hv
  | a :: b :: l, h => by
    intro v hv
    rcases List.mem_cons.mp hv with rfl | hv
    · exact h v (by simp)
    · exact Zeros.odds l (fun w hw => h w (by simp [hw])) v hv

theorem Zeros.loop (size : ℕ) : ∀ (n i : ℕ) (x out y : List ℚ), Zeros x → Zeros out →
    Wavelet.Transform.dwtLoop fl64 size n i x out = .ok y → Zeros y := by
  intro n
  induction n with
  | zero => intro i x out y _ ho e; obtain rfl := Except.ok.inj e; exact ho
  | succ n ih =>
    intro i x out y hx ho e
    rw [Wavelet.Transform.dwtLoop] at e
    cases hs : Wavelet.Transform.dwtStep fl64 (size >>> i) x out with
    | error r => rw [hs] at e; cases e
    | ok r =>
      rw [hs] at e
      have ht : Zeros (x.take (size >>> i)) := fun v hv => hx v (List.mem_of_mem_take hv)
      unfold Wavelet.Transform.dwtStep at hs
      simp only [bind, Except.bind] at hs
      split at hs
      · cases hs
      · rename_i hh h1
        split at hs
        · cases hs
        · rename_i ll h2
          split at hs
          · cases hs
          · obtain rfl := Except.ok.inj hs
            have z1 := Zeros.sym _ _ _ ht h1
            have z2 := Zeros.sym _ _ _ ht h2
            exact ih (i + 1) _ _ y (Zeros.append (Zeros.evens _ z2) (fun v hv => hx v (List.mem_of_mem_drop hv)))
              (Zeros.append (Zeros.append (Zeros.evens _ z2) (Zeros.odds _ z1)) (fun v hv => ho v (List.mem_of_mem_drop hv))) e

theorem transform_silent (k : ℕ) (hk : 3 ≤ k) :
    Wavelet.transformBlock (List.replicate (2 ^ k) 0) = List.replicate (2 ^ k) 0 := by
  have hlen := Wavelet.transformBlock_length k hk (List.replicate (2 ^ k) 0) List.length_replicate
  refine List.eq_replicate_iff.mpr ⟨hlen, ?_⟩
  unfold Wavelet.transformBlock
  split
  · rename_i c hc
    exact Zeros.loop _ _ 0 _ _ _ (fun v hv => List.eq_of_mem_replicate hv) (fun v hv => List.eq_of_mem_replicate hv) hc
  · intro v hv; cases hv

theorem ratios_silent (lib : Lib) (hl : lib.Sane) (bottom : ℚ) (k fs : ℕ) (hk : 3 ≤ k) (hfs : 0 < fs) :
    ∀ b, (ratios lib bottom (2 ^ k) fs (List.replicate (2 ^ k) 0)).bandenergy.getD b 0 = 0 := by
  intro b
  by_cases hb : b < Wavelet.bands k
  · refine (ratios_spec lib hl bottom k fs hk hfs _ List.length_replicate b hb).2.1.mpr (fun i _ => ?_)
    unfold power
    rw [List.length_replicate, ← List.replicate_add]
    have : (lib.fft (List.replicate (2 ^ k + (2 * 2 ^ k - 2 ^ k)) 0)).getD i (0, 0) = (0, 0) := by
      rw [List.getD_eq_getElem?_getD]
      cases hi : (lib.fft (List.replicate (2 ^ k + (2 * 2 ^ k - 2 ^ k)) 0))[i]? with
      | none => rfl
      | some a => exact hl.fft_zero _ a (List.mem_of_getElem? hi)
    simp only [this]
    norm_num
  · obtain ⟨j, rfl⟩ : ∃ j, k = j + 3 := ⟨k - 3, by omega⟩
    have e : 2 ^ (j + 3) = 8 * 2 ^ j := by rw [pow_add]; ring
    rw [e]
    obtain ⟨m, st, m1, m2, -⟩ := c93_total lib hl bottom j fs hfs (List.replicate (8 * 2 ^ j) 0)
      (by rw [List.length_replicate]; omega)
    have : ratios lib bottom (8 * 2 ^ j) fs (List.replicate (8 * 2 ^ j) 0) = m := by unfold ratios; rw [m1]
    rw [this, List.getD_eq_getElem?_getD, List.getElem?_eq_none (by unfold Wavelet.bands at hb; omega)]
    rfl

/-- **C93, what does not hold.** A recording in which one block is silent is not encoded: with a budget of 31 bits or more, the
program runs into undefined behaviour at that block. -/
theorem c93_silent_unsafe (lib : Lib) (hl : lib.Sane) (bottom : ℚ) (lg : ℚ → ℚ) (k fs ts : ℕ) (hk : 5 ≤ k) (hfs : 0 < fs)
    (budget : ℤ) (hb : 31 ≤ budget) (sig : List ℚ) (e : Spiht.Encoder)
    (hs : List.replicate (2 ^ k) 0 ∈ Wavelet.splitLoop (2 ^ k) sig (Wavelet.numBlocks (2 ^ k) sig.length) 0) :
    (∀ band, Wavelet.encodeSignal lg Wavelet.transformBlock (ratios lib bottom (2 ^ k) fs) (2 ^ k) fs ts budget sig e ≠
      .ok band) ∧
    ∀ e', Wavelet.encodeBlock lg (2 ^ k) (Wavelet.transformBlock (List.replicate (2 ^ k) 0))
      (ratios lib bottom (2 ^ k) fs (List.replicate (2 ^ k) 0)) budget e' = .error .ub := by
  have key : ∀ e', Wavelet.encodeBlock lg (2 ^ k) (Wavelet.transformBlock (List.replicate (2 ^ k) 0))
      (ratios lib bottom (2 ^ k) fs (List.replicate (2 ^ k) 0)) budget e' = .error .ub := by
    intro e'
    rw [transform_silent k (by omega)]
    exact Wavelet.c43_silent_unsafe k hk lg _ (ratios_silent lib hl bottom k fs (by omega) hfs) budget hb e'
  refine ⟨?_, key⟩
  have loop : ∀ (l : List (List ℚ)) (pos ticks : ℕ) (e' : Spiht.Encoder), List.replicate (2 ^ k) 0 ∈ l → ∀ r,
      Wavelet.encodeLoop lg Wavelet.transformBlock (ratios lib bottom (2 ^ k) fs) (2 ^ k) ticks budget l pos e' ≠ .ok r := by
    intro l
    induction l with
    | nil => intro _ _ _ h; cases h
    | cons block l ih =>
      intro pos ticks e' h r hr
      rw [Wavelet.encodeLoop] at hr
      rcases List.mem_cons.mp h with h | h
      · rw [← h, key e'] at hr
        cases hr
      · cases hbl : Wavelet.encodeBlock lg (2 ^ k) (Wavelet.transformBlock block) (ratios lib bottom (2 ^ k) fs block) budget e' with
        | error x => rw [hbl] at hr; cases hr
        | ok q =>
          rw [hbl] at hr
          simp only [bind, Except.bind] at hr
          split at hr
          · cases hr
          · rename_i more hm
            exact ih _ _ _ h more hm
  intro band hband
  unfold Wavelet.encodeSignal at hband
  rw [if_neg (by omega)] at hband
  simp only [bind, Except.bind] at hband
  split at hband
  · cases hband
  · rename_i r hr
    exact loop _ _ _ _ hs _ hr

/-- Such a recording: 32 samples that are not zero, and 40 that are. -/
example : List.replicate (2 ^ 5) (0 : ℚ) ∈ Wavelet.splitLoop (2 ^ 5) (List.replicate 32 (1 / 2) ++ List.replicate 40 0)
    (Wavelet.numBlocks (2 ^ 5) (List.replicate 32 (1 / 2 : ℚ) ++ List.replicate 40 0).length) 0 := by decide +kernel

end Haptics.Psycho
