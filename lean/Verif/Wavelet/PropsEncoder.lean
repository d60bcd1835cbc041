import Verif.Wavelet.AllocLemmas
import Verif.Wavelet.Decoder
import Verif.Spiht.PropsSpiht

/-! C43: the quantiser of the wavelet encoder.  C42: how a signal is split into blocks. -/

namespace Haptics.Wavelet
open Haptics Haptics.Spiht

/-- **C43.** The quantised value is an integer number of steps that fits the bits, with the sign of the
input; it is not larger than the maximum, at most one step from the input (and what the input exceeds the maximum),
and at most half a step and a rounding
error of binary64 if the input is below the maximum by at least half a step. -/
theorem c43_quantise (max : Rat) (hmax : 0 < max) (hr : Representable max) (bits : Nat) (hb : bits ≤ 30) (x : Rat) :
    (∃ n : Nat, n < 2 ^ bits ∧ quantise max bits x = sgn x * (max * n / 2 ^ bits)) ∧
      |quantise max bits x| ≤ max ∧
      |quantise max bits x - x| ≤ max / 2 ^ bits + excess max x ∧
      (|x| ≤ max - max / 2 ^ bits / 2 → |quantise max bits x - x| ≤ max / 2 ^ bits / 2 + max / 2 ^ 51) := by
  obtain ⟨n, hn, h1, h2, h3⟩ := quantise_spec max hmax hr bits hb x
  have hp : (0 : Rat) < 2 ^ bits := by positivity
  refine ⟨⟨n, hn, h1⟩, ?_, h3, fun h => (h2 ?_).trans (le_of_eq ?_)⟩
  · rw [h1, abs_mul]
    have hs : |sgn x| ≤ 1 := by rcases sgn_cases x with ⟨-, h⟩ | ⟨-, h⟩ | ⟨-, h⟩ <;> rw [h] <;> norm_num
    have hv : |max * n / 2 ^ bits| ≤ max := by
      rw [abs_of_nonneg (by positivity), div_le_iff₀ hp]
      have : (n : Rat) ≤ 2 ^ bits := by exact_mod_cast hn.le
      exact mul_le_mul_of_nonneg_left this hmax.le
    calc |sgn x| * |max * n / 2 ^ bits| ≤ 1 * max := mul_le_mul hs hv (abs_nonneg _) (by norm_num)
      _ = max := one_mul _
  · refine h.trans (le_of_eq ?_)
    field_simp
  · field_simp

example : Representable (1 / 2) := .inl ⟨64, by norm_num, by norm_num⟩

example : quantise (1 / 2) 3 (-1 / 5) = -3 / 16 := by decide +kernel

/-- **C43.** The maximum put into the header can be expressed there, and no coefficient exceeds it as long
as the largest one is at most 127/128, or between 1 and 1 + 127/8.  Up to 1 + 127/8 no coefficient exceeds it by more
than 1/128. -/
theorem c43_maximum (dwt : List Rat) :
    Representable (maximumCoefficient dwt) ∧
      (Expressible (findMax dwt) → ∀ v ∈ dwt, |v| ≤ maximumCoefficient dwt) ∧
      (findMax dwt ≤ 1 + 127 / 8 → ∀ v ∈ dwt, excess (maximumCoefficient dwt) v ≤ 1 / 128) := by
  refine ⟨(maximum_spec dwt).1, (maximum_spec dwt).2.2.1, fun h v hv => ?_⟩
  have h1 := (maximum_spec dwt).2.2.2 h
  have h2 := (findMax_ge dwt).2 v hv
  unfold excess
  split
  · norm_num
  · linarith

example : Expressible (findMax [1 / 3, -9 / 10, 0]) := by left; decide +kernel

/-- **C43.** The maximum is the same in binary64. -/
theorem c43_maximum_binary64 (dwt : List Rat) (h : ∀ v ∈ dwt, IsDouble v) :
    maximumCoefficient64 dwt = maximumCoefficient dwt := maximum_binary64 dwt h

example : ∀ v ∈ ([3 / 8, -9 / 16, 0] : List Rat), IsDouble v := by
  intro v hv
  simp only [List.mem_cons, List.not_mem_nil, or_false] at hv
  rcases hv with rfl | rfl | rfl
  · exact ⟨3, -3, by norm_num, by norm_num, by norm_num⟩
  · exact ⟨-9, -4, by norm_num, by norm_num, by norm_num⟩
  · exact ⟨0, 0, by norm_num, by norm_num, by norm_num⟩

/-- Half a step is exceeded indeed, but only by a rounding error: this value is below 1/2 of a step, and
the sum with 0.5 is rounded to a whole step. -/
theorem c43_half_negation : ∃ x : Rat, IsDouble x ∧ |x| ≤ 1 / 2 - 1 / 2 / 2 ^ 1 / 2 ∧
    1 / 2 / 2 ^ 1 / 2 < |quantise (1 / 2) 1 x - x| := by
  refine ⟨1 / 8 - 1 / 2 ^ 56, ⟨2 ^ 53 - 1, -56, by norm_num, by norm_num, by norm_num⟩, ?_, ?_⟩
  · rw [abs_of_nonneg] <;> norm_num
  · have : quantise (1 / 2) 1 (1 / 8 - 1 / 2 ^ 56) = 1 / 4 := by decide +kernel
    rw [this, abs_of_nonneg] <;> norm_num

/-- Between 127/128 and 1 the maximum of the header is below the largest coefficient. -/
theorem c43_maximum_negation : ∃ dwt : List Rat, ∃ v ∈ dwt, maximumCoefficient dwt < |v| :=
  ⟨[255 / 256], 255 / 256, by simp, by decide +kernel⟩

theorem foldl_max (l : List Nat) : ∀ m : Nat, m ≤ l.foldl Nat.max m ∧ (∀ v ∈ l, v ≤ l.foldl Nat.max m) ∧
    ∀ c, m ≤ c → (∀ v ∈ l, v ≤ c) → l.foldl Nat.max m ≤ c := by
  induction l with
  | nil => intro m; simp
  | cons a l ih =>
    intro m
    obtain ⟨h1, h2, h3⟩ := ih (Nat.max m a)
    have hm : m ≤ Nat.max m a := Nat.le_max_left _ _
    have ha : a ≤ Nat.max m a := Nat.le_max_right _ _
    rw [List.foldl_cons]
    refine ⟨hm.trans h1, fun v hv => ?_, fun c hc hl => h3 c ?_ fun v hv => hl v (by simp [hv])⟩
    · rcases List.mem_cons.mp hv with rfl | hv
      · exact ha.trans h1
      · exact h2 v hv
    · exact Nat.max_le.mpr ⟨hc, hl a (by simp)⟩

theorem round_near (n : Int) (x : Rat) (h : |x - n| < 1 / 2) : round x = n := by
  rw [abs_lt] at h
  unfold round
  split
  · rw [Int.floor_eq_iff]; constructor <;> linarith
  · rw [Int.ceil_eq_iff]; constructor <;> linarith

/-- Two roundings do not disturb a small integer. -/
theorem integer_near (max : Rat) (hmax : 0 < max) (hr : Representable max) (bitmax : Nat) (hb : bitmax ≤ 15) (n : Int)
    (hn : n.natAbs < 2 ^ bitmax) : round (fl64 (max * n / 2 ^ bitmax * fl64 (2 ^ bitmax / max))) = n := by
  have h15 : (2 : Rat) ^ bitmax ≤ 2 ^ 15 := pow_le_pow_right₀ (by norm_num) hb
  have hp : (0 : Rat) < 2 ^ bitmax := by positivity
  have hna : |(n : Rat)| ≤ 2 ^ bitmax := by
    rw [← Int.cast_abs, Int.abs_eq_natAbs]
    exact_mod_cast hn.le
  obtain ⟨j, hj, rfl⟩ := representable_digits hr
  set max : Rat := j / 128
  have hm16 : max ≤ 32 := by
    have : (j : Rat) ≤ 2 ^ 12 := by exact_mod_cast hj.le
    show (j : Rat) / 128 ≤ 32
    linarith
  have h1 := fl64_near (2 ^ bitmax / max)
  rw [abs_of_nonneg (by positivity : (0 : Rat) ≤ 2 ^ bitmax / max)] at h1
  set f := fl64 (2 ^ bitmax / max)
  have e : max * n / 2 ^ bitmax * f - n = max * n / 2 ^ bitmax * (f - 2 ^ bitmax / max) := by field_simp
  have hq : |max * n / 2 ^ bitmax| ≤ max := by
    rw [abs_div, abs_mul, abs_of_pos hmax, abs_of_pos hp, div_le_iff₀ hp]
    exact mul_le_mul_of_nonneg_left hna hmax.le
  have h2 : |max * n / 2 ^ bitmax * f - n| ≤ 1 / 2 ^ 30 := by
    rw [e, abs_mul]
    calc |max * n / 2 ^ bitmax| * |f - 2 ^ bitmax / max|
        ≤ max * (2 ^ bitmax / max / 2 ^ 53 + 1 / 2 ^ 100) := mul_le_mul hq h1 (abs_nonneg _) hmax.le
      _ = 2 ^ bitmax / 2 ^ 53 + max / 2 ^ 100 := by field_simp
      _ ≤ 2 ^ 15 / 2 ^ 53 + 32 / 2 ^ 100 := by gcongr
      _ ≤ 1 / 2 ^ 30 := by norm_num
  set p := max * n / 2 ^ bitmax * f
  have h3 := fl64_near p
  have hpa : |p| ≤ 2 ^ 15 + 1 := by
    have : |p| ≤ |p - n| + |(n : Rat)| := by
      have := abs_add_le (p - n) n
      rwa [sub_add_cancel] at this
    norm_num at h2 hna h15 ⊢
    linarith
  apply round_near
  calc |fl64 p - n| = |(fl64 p - p) + (p - n)| := by rw [sub_add_sub_cancel]
    _ ≤ |fl64 p - p| + |p - n| := abs_add_le _ _
    _ ≤ (|p| / 2 ^ 53 + 1 / 2 ^ 100) + 1 / 2 ^ 30 := add_le_add h3 h2
    _ ≤ ((2 ^ 15 + 1) / 2 ^ 53 + 1 / 2 ^ 100) + 1 / 2 ^ 30 := by gcongr
    _ < 1 / 2 := by norm_num

/-- The integers given to set partitioning fit its bit planes, and scaling them back gives the quantised
coefficients. -/
theorem integers_spec (max : Rat) (hr : Representable max) (hmax : 0 ≤ max) (bitmax : Nat) (hb : bitmax ≤ 15) (quant : List Rat)
    (hg : ∀ q ∈ quant, OnGrid max bitmax q) :
    ∃ block, integers max bitmax quant = .ok block ∧ Fits block bitmax ∧
      (∀ v ∈ block, v.natAbs < 2 ^ bitmax) ∧
      block.map (fun d : Int => fl64 ((d : Rat) * fl64 (max / 2 ^ bitmax))) = quant := by
  unfold integers
  rw [if_neg (by omega)]
  refine ⟨_, rfl, ?_⟩
  have key : ∀ q ∈ quant,
      (if max ≠ 0 then round (fl64 (q * fl64 (2 ^ bitmax / max))) else 0).natAbs < 2 ^ bitmax ∧
      fl64 (((if max ≠ 0 then round (fl64 (q * fl64 (2 ^ bitmax / max))) else 0 : Int) : Rat) *
        fl64 (max / 2 ^ bitmax)) = q := by
    intro q hq
    obtain ⟨n, rfl, hn⟩ := hg q hq
    by_cases hm : max = 0
    · subst hm; simp
    · rw [if_pos hm]
      rw [integer_near max (lt_of_le_of_ne hmax (Ne.symm hm)) hr bitmax hb n hn]
      have e1 := fl64_grid hr 1 (by norm_num) bitmax (by omega)
      have e2 := fl64_grid hr n (by
        have : 2 ^ bitmax ≤ 2 ^ 15 := Nat.pow_le_pow_right (by norm_num) hb
        rw [Int.abs_eq_natAbs]
        omega) bitmax (by omega)
      simp only [Int.cast_one, mul_one] at e1
      refine ⟨hn, ?_⟩
      rw [e1, show (n : Rat) * (max / 2 ^ bitmax) = max * n / 2 ^ bitmax by ring]
      exact e2
  refine ⟨?_, ?_, ?_⟩
  · intro v hv
    obtain ⟨q, hq, rfl⟩ := List.mem_map.mp hv
    have := (key q hq).1
    rw [pow_succ]; omega
  · intro v hv
    obtain ⟨q, hq, rfl⟩ := List.mem_map.mp hv
    exact (key q hq).1
  · rw [List.map_map]
    conv_rhs => rw [← List.map_id quant]
    apply List.map_congr_left
    intro q hq
    exact (key q hq).2

theorem spend_block (k : Nat) (hk : 3 ≤ k) (lg : Rat → Rat) (dwt : List Rat) (hlen : dwt.length = 2 ^ k)
    (pm : Model) (budget : Int)
    (hfit : budget ≤ 15 ∨ Spendable k dwt (maximumCoefficient dwt) pm budget)
    (e : Spiht.Encoder) (he : e.counters = resetCounters) (d : Spiht.Decoder) (hd : d.counters = resetCounters) :
    ∃ bytes e' r d', ∃ bits : List Nat, encodeBlock lg (2 ^ k) dwt pm budget e = .ok (bytes, e') ∧
      e'.counters = resetCounters ∧
      d.decodeEffect bytes (List.replicate (2 ^ k) 0) (2 ^ k) = .ok (r, d') ∧ d'.counters = resetCounters ∧
      bits.length = bands k ∧ (∀ n ∈ bits, n ≤ 15) ∧ bits.sum = (min budget (15 * bands k)).toNat ∧
      (coefficients r).length = 2 ^ k ∧
      ∀ b < bands k, ∀ i, InBand b i → |(coefficients r).getD i 0 - dwt.getD i 0| ≤
        maximumCoefficient dwt / 2 ^ bits.getD b 0 + excess (maximumCoefficient dwt) (dwt.getD i 0) := by
  obtain ⟨s, hs, hinv, h15, hsum⟩ := allocate_spec k hk lg dwt hlen pm budget hfit
  have hget : ∀ b < bands k, s.bits.getD b 0 ∈ s.bits := by
    intro b hb
    rw [List.getD_eq_getElem?_getD, List.getElem?_eq_getElem (by rw [hinv.len_bits]; exact hb), Option.getD_some]
    exact List.getElem_mem _
  have hall : ∀ n ∈ s.bits, n ≤ 15 := by
    intro n hn
    obtain ⟨b, hb, rfl⟩ := List.getElem_of_mem hn
    have := h15 b (by rw [← hinv.len_bits]; exact hb)
    rwa [List.getD_eq_getElem?_getD, List.getElem?_eq_getElem hb, Option.getD_some] at this
  obtain ⟨-, hle, hub⟩ := foldl_max s.bits 0
  set bitmax := s.bits.foldl Nat.max 0 with hbm
  have hb15 : bitmax ≤ 15 := hub 15 (by omega) hall
  have hgrid : ∀ q ∈ s.quant, OnGrid (maximumCoefficient dwt) bitmax q := by
    intro q hq
    obtain ⟨i, hi, rfl⟩ := List.getElem_of_mem hq
    obtain ⟨b, hb, hin⟩ := inBand_exists k hk i (by rw [← hinv.len_quant]; exact hi)
    have := hinv.grid b hb i hin
    rw [List.getD_eq_getElem?_getD (l := s.quant), List.getElem?_eq_getElem hi, Option.getD_some] at this
    exact this.mono (hle _ (hget b hb))
  obtain ⟨block, hbl, hfits, habs, hback⟩ := integers_spec (maximumCoefficient dwt)
    (maximum_spec dwt).1 (maximum_spec dwt).2.1 bitmax hb15 s.quant hgrid
  have hblen : block.length = 2 ^ k := by
    rw [← hinv.len_quant, ← hback, List.length_map]
  have henc : encodeBlock lg (2 ^ k) dwt pm budget e = e.encodeEffect block bitmax (maximumCoefficient dwt) := by
    unfold encodeBlock
    simp only [hs, bind, Except.bind, ← hbm, hbl]
  have hzeros : ∀ v ∈ List.replicate (2 ^ k) (0 : Int), v = 0 := fun v hv => (List.mem_replicate.mp hv).2
  -- what has to be shown of the decoded coefficients
  have hfinal : ∀ r : List Int × Rat × Nat, coefficients r = s.quant →
      (coefficients r).length = 2 ^ k ∧
      ∀ b < bands k, ∀ i, InBand b i → |(coefficients r).getD i 0 - dwt.getD i 0| ≤
        maximumCoefficient dwt / 2 ^ s.bits.getD b 0 + excess (maximumCoefficient dwt) (dwt.getD i 0) := by
    intro r hr
    rw [hr]
    exact ⟨hinv.len_quant, fun b hb i hin => hinv.near b hb i hin⟩
  have hzero : (∀ v ∈ block, v = 0) → ∀ m : Rat, ∀ n : Nat, coefficients (block, m, n) = s.quant := by
    intro h0 m n
    rw [← hback]
    unfold coefficients
    apply List.map_congr_left
    intro v hv
    rw [h0 v hv]; simp
  rw [henc]
  by_cases hb0 : bitmax = 0
  · have h0 : ∀ v ∈ block, v = 0 := by
      intro v hv
      have := habs v hv
      rw [hb0, pow_zero] at this
      omega
    obtain ⟨d', hd', hr'⟩ := c22_empty d hd k hk (List.replicate (2 ^ k) 0) hzeros
    have hrep : block = List.replicate (2 ^ k) 0 := List.eq_replicate_iff.mpr ⟨hblen, h0⟩
    obtain ⟨f1, f2⟩ := hfinal (List.replicate (2 ^ k) 0, 0, 0) (by rw [← hrep]; exact hzero h0 0 0)
    exact ⟨[], e, _, d', s.bits, by unfold Encoder.encodeEffect; rw [if_pos hb0], he, hd', hr', hinv.len_bits,
      hall, hsum, f1, f2⟩
  · obtain ⟨bytes, e', r, d', h1, h2, h3, h4, h5, h6⟩ := c22_lossless e he d hd block ⟨k, hk, hblen⟩ bitmax
      (by omega) hb15 hfits (maximumCoefficient dwt) (c43_maximum dwt).1 (List.replicate (2 ^ k) 0) hzeros
    rw [hblen] at h3
    have hr : coefficients r = s.quant := by
      by_cases hnz : ∃ v ∈ block, v ≠ 0
      · rw [h6 hnz]; exact hback
      · push Not at hnz
        obtain ⟨x, m, n⟩ := r
        simp only at h5
        subst h5
        exact hzero hnz m n
    obtain ⟨f1, f2⟩ := hfinal r hr
    exact ⟨bytes, e', r, d', s.bits, h1, h2, h3, h4, hinv.len_bits, hall, hsum, f1, f2⟩

theorem silent_block (k : Nat) (hk : 3 ≤ k) (lg : Rat → Rat) (dwt : List Rat) (hlen : dwt.length = 2 ^ k)
    (pm : Model) (budget : Int) (hB : budget ≤ 30) (h0 : ∀ v ∈ dwt, v = 0)
    (e : Spiht.Encoder) (he : e.counters = resetCounters) (d : Spiht.Decoder) (hd : d.counters = resetCounters) :
    ∃ bytes e' r d', ∃ bits : List Nat, encodeBlock lg (2 ^ k) dwt pm budget e = .ok (bytes, e') ∧
      e'.counters = resetCounters ∧
      d.decodeEffect bytes (List.replicate (2 ^ k) 0) (2 ^ k) = .ok (r, d') ∧ d'.counters = resetCounters ∧
      bits.length = bands k ∧ (∀ n ∈ bits, n ≤ 15) ∧ bits.sum = (min budget (15 * bands k)).toNat ∧
      (coefficients r).length = 2 ^ k ∧
      ∀ b < bands k, ∀ i, InBand b i → |(coefficients r).getD i 0 - dwt.getD i 0| ≤
        maximumCoefficient dwt / 2 ^ bits.getD b 0 + excess (maximumCoefficient dwt) (dwt.getD i 0) := by
  obtain rfl : dwt = List.replicate (2 ^ k) 0 := List.eq_replicate_iff.mpr ⟨hlen, h0⟩
  obtain ⟨s, hs, hq⟩ := allocate_quiet k hk lg pm budget hB
  obtain ⟨-, -, hub⟩ := foldl_max s.bits 0
  have hb30 : s.bits.foldl Nat.max 0 ≤ 30 := hub 30 (by omega) hq.low
  have hz : ∀ i, (List.replicate (2 ^ k) (0 : Rat)).getD i 0 = 0 := by
    intro i
    rw [List.getD_eq_getElem?_getD, List.getElem?_replicate]; split <;> rfl
  have hmax := (maximum_spec (List.replicate (2 ^ k) 0)).2.1
  have hint : integers (maximumCoefficient (List.replicate (2 ^ k) 0)) (s.bits.foldl Nat.max 0) s.quant =
      .ok (List.replicate (2 ^ k) 0) := by
    unfold integers
    rw [if_neg (by omega), hq.quant, List.map_replicate]
    congr 2
    split
    · rw [zero_mul, fl64_zero]
      exact round_near 0 0 (by norm_num)
    · rfl
  have henc : encodeBlock lg (2 ^ k) (List.replicate (2 ^ k) 0) pm budget e = .ok ([], e) := by
    unfold encodeBlock
    simp only [hs, bind, Except.bind, hint]
    unfold Encoder.encodeEffect
    split
    · rfl
    · rw [if_pos (by rw [List.all_eq_true]; intro v hv; rw [(List.mem_replicate.mp hv).2]; rfl)]
  obtain ⟨d', hd', hr'⟩ := c22_empty d hd k hk (List.replicate (2 ^ k) 0) (fun v hv => (List.mem_replicate.mp hv).2)
  obtain ⟨bits, b1, b2, b3⟩ := distribution_exists (bands k) (min budget (15 * bands k)).toNat (by omega)
  have hco : coefficients (List.replicate (2 ^ k) 0, 0, 0) = List.replicate (2 ^ k) 0 := by
    unfold coefficients
    simp
  refine ⟨[], e, _, d', bits, henc, he, hd', hr', b1, b2, b3, by rw [hco, List.length_replicate], ?_⟩
  intro b _ i _
  rw [hco, hz, sub_zero, abs_zero]
  exact add_nonneg (by positivity) (excess_nonneg _ _)

/-- **C43.** A block is encoded without fault, and the decoder gets its coefficients back with the precision
of their bands: there is a distribution of the budget over the bands, at most 15 bits for each one, such that
every coefficient is off by at most the maximum divided by two to the power of the bits of its band, and by what it
exceeds the maximum.  The states of encoder and decoder are ready for the next block. -/
theorem c43_block (k : Nat) (hk : 3 ≤ k) (lg : Rat → Rat) (dwt : List Rat) (hlen : dwt.length = 2 ^ k)
    (pm : Model) (budget : Int) (hfit : BudgetFits k dwt (maximumCoefficient dwt) pm budget)
    (e : Spiht.Encoder) (he : e.counters = resetCounters) (d : Spiht.Decoder) (hd : d.counters = resetCounters) :
    ∃ bytes e' r d', ∃ bits : List Nat, encodeBlock lg (2 ^ k) dwt pm budget e = .ok (bytes, e') ∧
      e'.counters = resetCounters ∧
      d.decodeEffect bytes (List.replicate (2 ^ k) 0) (2 ^ k) = .ok (r, d') ∧ d'.counters = resetCounters ∧
      bits.length = bands k ∧ (∀ n ∈ bits, n ≤ 15) ∧ bits.sum = (min budget (15 * bands k)).toNat ∧
      (coefficients r).length = 2 ^ k ∧
      ∀ b < bands k, ∀ i, InBand b i → |(coefficients r).getD i 0 - dwt.getD i 0| ≤
        maximumCoefficient dwt / 2 ^ bits.getD b 0 + excess (maximumCoefficient dwt) (dwt.getD i 0) := by
  rcases hfit with hfit | hfit | ⟨hB, h0⟩
  · exact spend_block k hk lg dwt hlen pm budget (.inl hfit) e he d hd
  · exact spend_block k hk lg dwt hlen pm budget (.inr hfit) e he d hd
  · exact silent_block k hk lg dwt hlen pm budget hB h0 e he d hd

theorem third_inexact (n : Int) : 1 / 2 ^ 500 ≤ |(1 / 3 : Rat) - 43 / 128 * n / 2 ^ 15| := by
  have h1 : (1 : Rat) ≤ |4194304 - 129 * (n : Rat)| := by
    have : 1 ≤ |4194304 - 129 * n| := Int.one_le_abs (by omega)
    exact_mod_cast this
  have h2 : (1 / 3 : Rat) - 43 / 128 * n / 2 ^ 15 = (4194304 - 129 * n) / 12582912 := by ring
  rw [h2, abs_div, abs_of_pos (by norm_num : (0 : Rat) < 12582912), le_div_iff₀ (by norm_num)]
  refine le_trans ?_ h1
  rw [one_div, inv_mul_le_iff₀ (by positivity), mul_one]
  exact le_trans (by norm_num : (12582912 : Rat) ≤ 2 ^ 24) (pow_le_pow_right₀ (by norm_num) (by norm_num))

/-- A block with all coefficients 1/3, for which 30 bits can be spent. -/
example : BudgetFits 3 (List.replicate 8 (1 / 3)) (maximumCoefficient (List.replicate 8 (1 / 3)))
    ⟨[1, 2], [.fin 0, .fin 3]⟩ 30 := by
  have hmax : maximumCoefficient (List.replicate 8 (1 / 3)) = 43 / 128 := by decide +kernel
  have hn := third_inexact
  right
  left
  refine ⟨?_, {0, 1}, ?_, by decide⟩
  · intro b hb
    have : b = 0 ∨ b = 1 := by unfold bands at hb; omega
    rcases this with rfl | rfl
    · exact ⟨by norm_num, 0, rfl⟩
    · exact ⟨by norm_num, 3, rfl⟩
  · intro b hb
    rw [hmax]
    have : b = 0 ∨ b = 1 := by simpa using hb
    rcases this with rfl | rfl
    · exact ⟨by decide, 0, by simp [InBand], hn⟩
    · exact ⟨by decide, 4, by simp [InBand], hn⟩

/-- A silent block, with the default budget of 16 bits. -/
example : BudgetFits 5 (List.replicate 32 0) 0 ⟨[], []⟩ 16 := .inr (.inr ⟨by norm_num, by simp⟩)

/-- **C43, exactly reproduced bands.** If the other bands have no noise left, the first one gets the
sixteenth bit of the default budget; the header has four bits for their number, and all coefficients
are lost. -/
theorem c43_negation : ∃ (dwt : List Rat) (pm : Model), dwt.length = 2 ^ 4 ∧
    (∀ b < bands 4, 0 < pm.bandenergy.getD b 0 ∧ ∃ q, pm.smr.getD b .nan = .fin q) ∧
    ∃ bytes e' r d', encodeBlock (fun q => q) (2 ^ 4) dwt pm 16 {} = .ok (bytes, e') ∧
      ({} : Spiht.Decoder).decodeEffect bytes (List.replicate (2 ^ 4) 0) (2 ^ 4) = .ok (r, d') ∧
      dwt.getD 0 0 = 1 / 3 ∧ (coefficients r).getD 0 0 = 0 := by
  refine ⟨(1 / 3) :: List.replicate 15 0, ⟨[1, 1, 1], [.fin 0, .fin 0, .fin 0]⟩, rfl, ?_, ?_⟩
  · intro b hb
    have : b = 0 ∨ b = 1 ∨ b = 2 := by unfold bands at hb; omega
    rcases this with rfl | rfl | rfl <;> exact ⟨by norm_num, 0, rfl⟩
  · have key : ((encodeBlock (fun q => q) (2 ^ 4) ((1 / 3) :: List.replicate 15 0)
        ⟨[1, 1, 1], [.fin 0, .fin 0, .fin 0]⟩ 16 {}).toOption.bind (fun r =>
          (({} : Spiht.Decoder).decodeEffect r.1 (List.replicate (2 ^ 4) 0) (2 ^ 4)).toOption)).map
            (fun r => (coefficients r.1).getD 0 0) = some 0 := by decide +kernel
    cases h1 : encodeBlock (fun q => q) (2 ^ 4) ((1 / 3) :: List.replicate 15 0)
        ⟨[1, 1, 1], [.fin 0, .fin 0, .fin 0]⟩ 16 {} with
    | error x => rw [h1] at key; simp [Except.toOption] at key
    | ok p =>
      rw [h1] at key
      cases h2 : ({} : Spiht.Decoder).decodeEffect p.1 (List.replicate (2 ^ 4) 0) (2 ^ 4) with
      | error x => simp only [Except.toOption, h2, Option.bind_some, Option.map_none, reduceCtorEq] at key
      | ok r =>
        simp only [Except.toOption, h2, Option.bind_some, Option.map_some, Option.some.injEq] at key
        exact ⟨p.1, p.2, r.1, r.2, rfl, h2, rfl, key⟩

/-! ### Silent blocks -/

theorem findMinLoop_nan (l : List Ext) (hl : ∀ v ∈ l, v = .nan) : ∀ (min : Ext) (index i : Nat),
    findMinLoop min index i l = index := by
  induction l with
  | nil => intros; rfl
  | cons v l ih =>
    intro min index i
    rw [findMinLoop, hl v (by simp), if_neg (by simp [Ext.lt])]
    exact ih (fun w hw => hl w (by simp [hw])) _ _ _

/-- The state of the allocation for a silent block, with `n` bits for the first band. -/
def silentAlloc (k n : Nat) : Alloc :=
  { bits := n :: List.replicate (k - 2) 0, quant := List.replicate (2 ^ k) 0, noise := List.replicate (bands k) 0 }

theorem mem_getD {l : List Rat} (h : ∀ v ∈ l, v = 0) (i : Nat) : l.getD i 0 = 0 := by
  rw [List.getD_eq_getElem?_getD]
  cases hi : l[i]? with
  | none => rfl
  | some v => exact h v (List.mem_of_getElem? hi)

theorem noiseOf_zeros (bl : Nat) (a b : List Rat) (ha : ∀ v ∈ a, v = 0) (hb : ∀ v ∈ b, v = 0) (i : Nat) :
    noiseOf bl a b i = 0 := by
  unfold noiseOf
  simp only [mem_getD ha, mem_getD hb, sub_self, fl64_zero]
  induction List.range' ((bookCumulative bl).getD i 0)
      ((bookCumulative bl).getD (i + 1) 0 - (bookCumulative bl).getD i 0) with
  | nil => rfl
  | cons a l ih =>
    rw [List.foldl_cons, show (0 : Rat) ^ 2 = 0 by norm_num, fl64_zero, add_zero, fl64_zero]
    simpa using ih

theorem silent_step (k : Nat) (hk : 5 ≤ k) (lg : Rat → Rat) (pm : Model)
    (hpm : ∀ b, pm.bandenergy.getD b 0 = 0) (budget : Int) (n : Nat) (hn : n ≤ 30) :
    allocStep lg (2 ^ k) (List.replicate (2 ^ k) 0) 0 pm budget (silentAlloc k n)
      = if n = 30 then .error .ub else .ok (silentAlloc k (n + 1)) := by
  have hmnr : findMinInd (mnr lg pm (silentAlloc k n)) = 0 := by
    have hz : ∀ b, (silentAlloc k n).noise.getD b 0 = 0 := fun b =>
      mem_getD (fun v hv => (List.mem_replicate.mp hv).2) b
    unfold mnr
    simp only [silentAlloc, List.length_cons, List.length_replicate, List.range_succ_eq_map, List.map_cons, findMinInd]
    apply findMinLoop_nan
    intro v hv
    rw [List.map_map, List.mem_map] at hv
    obtain ⟨i, -, rfl⟩ := hv
    have h0 : (List.replicate (k - 2) 0).getD i 0 = 0 := by
      rw [List.getD_eq_getElem?_getD, List.getElem?_replicate]; split <;> rfl
    have hz' := hz (i + 1)
    simp only [silentAlloc] at hz'
    simp only [Function.comp, Nat.succ_eq_add_one, List.getD_cons_succ, h0, hpm, hz']
    rw [if_neg (by decide)]
    unfold Ext.ratio
    rw [if_pos rfl, if_pos rfl]
    rfl
  have hb1 : ¬ ((((silentAlloc k n).bits.sum : Nat) : Int)
      - ((silentAlloc k n).bits.getD ((silentAlloc k n).bits.length - 1) 0 : Nat)
      ≥ ((MAXBITS : Nat) : Int) * ((dwtLevel (2 ^ k) : Nat) : Int)) := by
    rw [dwtLevel_pow k (by omega)]
    simp only [silentAlloc, List.sum_cons, List.sum_replicate, smul_eq_mul, mul_zero, add_zero]
    unfold MAXBITS
    push_cast
    omega
  unfold allocStep
  simp only [hmnr]
  rw [if_neg hb1]
  have hmod : (silentAlloc k n).bits.modify 0 (· + 1) = (n + 1) :: List.replicate (k - 2) 0 := rfl
  rw [hmod, start_zero, List.getD_cons_zero]
  unfold uniformQuant
  by_cases h30 : n = 30
  · rw [if_pos h30, if_pos (by omega)]; rfl
  · have hle := band_le k (by omega) 0 (by unfold bands; omega)
    rw [start_zero] at hle
    rw [if_neg h30, if_neg (by omega), if_neg (by rw [List.length_replicate]; omega)]
    have hquant : ∀ f : Nat → Prop, ∀ [DecidablePred f],
        (silentAlloc k n).quant.mapIdx (fun i v =>
          if f i then quantise 0 (n + 1) ((List.replicate (2 ^ k) (0 : Rat)).getD i 0) else v)
        = List.replicate (2 ^ k) 0 := by
      intro f _
      apply List.eq_replicate_iff.mpr
      refine ⟨by simp [silentAlloc], ?_⟩
      intro x hx
      obtain ⟨i, hi, rfl⟩ := List.mem_mapIdx.mp hx
      split
      · simp [quantise]
      · simp [silentAlloc]
    simp only [hquant, bind, Except.bind]
    rw [noiseOf_zeros _ _ _ (fun v hv => (List.mem_replicate.mp hv).2) (fun v hv => (List.mem_replicate.mp hv).2)]
    have hset : (silentAlloc k n).noise.set 0 0 = List.replicate (bands k) 0 := by
      simp only [silentAlloc]
      have : bands k = (k - 2) + 1 := by unfold bands; omega
      rw [this, List.replicate_succ]; rfl
    rw [hset]
    rfl

/-- **C43, silence.** The energy of every band of a silent block is zero, and so is its noise; their
ratio is not a number, and all bits go to the first band.  From a budget of 31 bits on (and blocks of 32
samples or more) the encoder shifts by more than an `int` has bits. -/
theorem c43_silent_unsafe (k : Nat) (hk : 5 ≤ k) (lg : Rat → Rat) (pm : Model)
    (hpm : ∀ b, pm.bandenergy.getD b 0 = 0) (budget : Int) (hb : 31 ≤ budget) (e : Spiht.Encoder) :
    encodeBlock lg (2 ^ k) (List.replicate (2 ^ k) 0) pm budget e = .error .ub := by
  have hmax : maximumCoefficient (List.replicate (2 ^ k) 0) = 0 := by
    have hf : findMax (List.replicate (2 ^ k) 0) = 0 := by
      unfold findMax
      generalize 2 ^ k = n
      induction n with
      | zero => rfl
      | succ n ih => rw [List.replicate_succ, List.foldl_cons]; simpa using ih
    unfold maximumCoefficient
    rw [hf]
    decide +kernel
  have hloop : ∀ (m n fuel : Nat) (B : Int), n + m = 30 → 31 ≤ B → m + 1 ≤ fuel →
      allocLoop lg (2 ^ k) (List.replicate (2 ^ k) 0) 0 pm B fuel (silentAlloc k n) = .error .ub := by
    intro m
    induction m with
    | zero =>
      intro n fuel B hn hB hf
      obtain ⟨fuel, rfl⟩ : ∃ f, fuel = f + 1 := ⟨fuel - 1, by omega⟩
      rw [allocLoop, if_pos (by simp [silentAlloc]; omega), silent_step k hk lg pm hpm B n (by omega),
        if_pos (by omega)]
      rfl
    | succ m ih =>
      intro n fuel B hn hB hf
      obtain ⟨fuel, rfl⟩ : ∃ f, fuel = f + 1 := ⟨fuel - 1, by omega⟩
      rw [allocLoop, if_pos (by simp [silentAlloc]; omega), silent_step k hk lg pm hpm B n (by omega),
        if_neg (by omega)]
      exact ih (n + 1) fuel B (by omega) hB (by omega)
  unfold encodeBlock allocate
  simp only [hmax, book_length k (by omega : 3 ≤ k)]
  have hbands : 31 ≤ bands k * 15 := by unfold bands; omega
  set B : Int := if budget > (bands k : Int) * (MAXBITS : Nat) then (bands k : Int) * (MAXBITS : Nat) else budget
    with hBdef
  have hB : 31 ≤ B := by
    rw [hBdef]; unfold MAXBITS; push_cast; split <;> omega
  have hstart : (⟨List.replicate (bands k) 0, List.replicate (2 ^ k) 0,
      (List.range (bands k)).map (noiseOf (2 ^ k) (List.replicate (2 ^ k) 0) (List.replicate (2 ^ k) 0))⟩ : Alloc)
      = silentAlloc k 0 := by
    unfold silentAlloc
    have h1 : bands k = (k - 2) + 1 := by unfold bands; omega
    congr 1
    · rw [h1, List.replicate_succ]
    · apply List.eq_replicate_iff.mpr
      refine ⟨by simp, fun x hx => ?_⟩
      obtain ⟨i, -, rfl⟩ := List.mem_map.mp hx
      exact noiseOf_zeros _ _ _ (fun v hv => (List.mem_replicate.mp hv).2)
        (fun v hv => (List.mem_replicate.mp hv).2) _
  rw [hstart, hloop 30 0 B.toNat B (by omega) hB (by omega)]
  rfl

end Haptics.Wavelet
