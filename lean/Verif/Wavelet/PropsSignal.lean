import Verif.Wavelet.PropsEncoder
import Verif.Wavelet.SpecSignal
import Verif.Bits.FloatScale
import Mathlib.NumberTheory.Divisors
import Mathlib.Data.Nat.GCD.BigOperators

/-! C42: splitting a signal into blocks.  C67: blocks are decoded with the length and at the time they were
encoded with.  C68: blocks are played at their positions. -/

namespace Haptics.Wavelet
open Haptics Haptics.Spiht

/-! ### Splitting -/

theorem split_spec (bl : Nat) (sig : List Rat) : ∀ (m start : Nat), sig.length ≤ start + m * bl →
    (m = 0 ∨ start + (m - 1) * bl ≤ sig.length) → start ≤ sig.length →
    (splitLoop bl sig m start).length = m ∧ (∀ block ∈ splitLoop bl sig m start, block.length = bl) ∧
    (splitLoop bl sig m start).flatten
      = sig.drop start ++ List.replicate (m * bl - (sig.length - start)) 0 := by
  intro m
  induction m with
  | zero =>
    intro start h1 _ h3
    have : start = sig.length := by omega
    subst this
    simp [splitLoop]
  | succ m ih =>
    intro start h1 h2 h3
    have h2' : start + m * bl ≤ sig.length := by simpa using h2
    rw [splitLoop]
    cases m with
    | zero =>
      have hstop : min (start + bl) sig.length = sig.length := by omega
      simp only [splitLoop, hstop]
      refine ⟨rfl, ?_, ?_⟩
      · intro block hb
        rw [List.mem_singleton] at hb
        subst hb
        rw [List.length_append, List.length_replicate, List.length_take, List.length_drop]
        omega
      · rw [List.flatten_cons, List.flatten_nil, List.append_nil, List.take_of_length_le (by simp)]
        simp
    | succ m =>
      rw [Nat.succ_mul] at h2'
      have hstop : min (start + bl) sig.length = start + bl := by omega
      rw [hstop, Nat.add_sub_cancel_left, Nat.sub_self, List.replicate_zero, List.append_nil]
      obtain ⟨i1, i2, i3⟩ := ih (start + bl) (by rw [Nat.succ_mul] at h1; omega)
        (.inr (by simp only [Nat.add_sub_cancel]; omega)) (by omega)
      refine ⟨by rw [List.length_cons, i1], ?_, ?_⟩
      · intro block hb
        rcases List.mem_cons.mp hb with rfl | hb
        · rw [List.length_take, List.length_drop]; omega
        · exact i2 block hb
      · rw [List.flatten_cons, i3, ← List.append_assoc]
        congr 1
        · conv_rhs => rw [← List.take_append_drop bl (sig.drop start)]
          rw [List.drop_drop]
        · congr 1
          rw [Nat.succ_mul (m + 1) bl]
          omega

theorem numBlocks_spec (bl n : Nat) (hbl : 0 < bl) :
    n ≤ numBlocks bl n * bl ∧ numBlocks bl n * bl < n + bl ∧
      (numBlocks bl n = 0 ∨ (numBlocks bl n - 1) * bl ≤ n) := by
  unfold numBlocks
  have h1 := Nat.div_add_mod (n + bl - 1) bl
  have h2 := Nat.mod_lt (n + bl - 1) hbl
  rw [Nat.mul_comm] at h1
  set q := (n + bl - 1) / bl with hq
  refine ⟨by omega, by omega, ?_⟩
  by_cases h : q = 0
  · exact .inl h
  · right
    rw [Nat.sub_mul]; omega

/-- **C42.** The blocks have the block length, their concatenation is the signal followed by fewer zeros
than a block has samples. -/
theorem c42_blocks (bl : Nat) (hbl : 0 < bl) (sig : List Rat) :
    let blocks := splitLoop bl sig (numBlocks bl sig.length) 0
    blocks.length = numBlocks bl sig.length ∧ (∀ block ∈ blocks, block.length = bl) ∧
      ∃ n < bl, blocks.flatten = sig ++ List.replicate n 0 := by
  obtain ⟨h1, h2, h3⟩ := numBlocks_spec bl sig.length hbl
  obtain ⟨s1, s2, s3⟩ := split_spec bl sig (numBlocks bl sig.length) 0 (by omega)
    (by simpa using h3) (by omega)
  refine ⟨s1, s2, _, ?_, s3⟩
  omega

example : splitLoop 4 [1, 2, 3, 4, 5, 6] (numBlocks 4 6) 0 = [[1, 2, 3, 4], [5, 6, 0, 0]] := by decide +kernel

theorem encodeLoop_positions (lg : Rat → Rat) (transform : List Rat → List Rat) (pm : List Rat → Model)
    (bl ticks : Nat) (budget : Int) : ∀ (l : List (List Rat)) (p : Nat) (e : Spiht.Encoder) out,
    encodeLoop lg transform pm bl ticks budget l p e = .ok out →
    out.map (·.1) = (List.range l.length).map (fun b => p + b * ticks) := by
  intro l
  induction l with
  | nil => intro p e out h; cases h; rfl
  | cons block l ih =>
    intro p e out h
    rw [encodeLoop] at h
    simp only [bind, Except.bind] at h
    split at h
    · cases h
    · split at h
      · cases h
      · next r hr more hmore =>
        cases h
        rw [List.map_cons, ih _ _ _ hmore, List.length_cons, List.range_succ_eq_map, List.map_cons, List.map_map]
        simp only [Nat.zero_mul, Nat.add_zero]
        congr 1
        apply List.map_congr_left
        intro b _
        simp only [Function.comp, Nat.succ_eq_add_one, Nat.succ_mul]
        omega

/-- **C42.** There is one effect for each block, and their positions are the multiples of the block length
of the band. -/
theorem c42_positions (lg : Rat → Rat) (transform : List Rat → List Rat) (pm : List Rat → Model)
    (bl fs timescale : Nat) (hbl : 0 < bl) (budget : Int) (sig : List Rat) (e : Spiht.Encoder) (band : WaveletBand)
    (h : encodeSignal lg transform pm bl fs timescale budget sig e = .ok band) :
    band.effects.map (·.1) = (List.range (numBlocks bl sig.length)).map (· * band.blockLength) ∧
      band.upper = fs ∧ band.blockLength = bl * timescale / fs := by
  unfold encodeSignal at h
  simp only [bind, Except.bind] at h
  split at h
  · cases h
  · split at h
    · cases h
    · next out hout =>
      cases h
      have := encodeLoop_positions lg transform pm bl _ budget _ 0 e out hout
      rw [(c42_blocks bl hbl sig).1] at this
      refine ⟨?_, rfl, rfl⟩
      simp only
      rw [this]
      apply List.map_congr_left
      intro b _
      simp [blockTicks]

/-! ### Block lengths -/

theorem dvd_cases (B n : Nat) (h : B ∣ 125 * 2 ^ n) : ∃ a m, B = 2 ^ a * m ∧ m ∣ 125 := by
  obtain ⟨y, z, hy, hz, rfl⟩ := (Nat.dvd_mul).mp h
  obtain ⟨a, -, rfl⟩ := (Nat.dvd_prime_pow Nat.prime_two).mp hz
  exact ⟨a, y, by ring, hy⟩

theorem milli_round : ∀ p ∈ [(1, 125), (5, 25), (25, 5), (125, 1)],
    fl64 (((p : Nat × Nat).2 : Rat) * fl64 ((p.1 : Rat) * fl64 (1 / 1000))) = 1 / 8 ∧
      (1 / 2048 : Rat) ≤ (p.1 : Rat) * fl64 (1 / 1000) ∧
      (1 / 2048 : Rat) ≤ (p.2 : Rat) * fl64 ((p.1 : Rat) * fl64 (1 / 1000)) := by decide +kernel

/-- **C67.** At a timescale of 1000, if a block of a power of two lasts a whole number of ticks, the
decoder computes its length from the block length of the band as it was. -/
theorem c67_length (k fs : Nat) (hfs : 0 < fs) (hd : fs ∣ 2 ^ k * 1000) :
    decodedLength (blockTicks (2 ^ k) 1000 fs) fs = 2 ^ k := by
  unfold blockTicks
  obtain ⟨B, hB⟩ := hd
  rw [hB, Nat.mul_div_cancel_left _ hfs]
  have hprod : B * fs = 125 * 2 ^ (k + 3) := by
    rw [Nat.mul_comm, ← hB, pow_add]; ring
  obtain ⟨a, m, rfl, hm⟩ := dvd_cases B (k + 3) ⟨fs, hprod.symm⟩
  obtain ⟨c, m', rfl, hm'⟩ := dvd_cases fs (k + 3) ⟨2 ^ a * m, by rw [← hprod]; ring⟩
  have hodd : ∀ x, x ∣ 125 → x = 1 ∨ x = 5 ∨ x = 25 ∨ x = 125 := by
    intro x hx
    have : x ∈ Nat.divisors 125 := Nat.mem_divisors.mpr ⟨hx, by norm_num⟩
    rw [show Nat.divisors 125 = {1, 5, 25, 125} by decide +kernel] at this
    simpa using this
  have heq : 2 ^ (a + c) * (m * m') = 2 ^ (k + 3) * 125 := by rw [pow_add]; rw [Nat.mul_comm (2 ^ (k + 3))]; rw [← hprod]; ring
  have hmm : m * m' = 125 ∧ a + c = k + 3 := by
    have hcop : ∀ x, x ∣ 125 → Nat.Coprime (2 ^ (k + 3)) x ∧ Nat.Coprime (2 ^ (a + c)) x := by
      intro x hx
      have : Nat.Coprime 2 x := by rcases hodd x hx with rfl | rfl | rfl | rfl <;> decide
      exact ⟨this.pow_left _, this.pow_left _⟩
    have h1 : Nat.Coprime (2 ^ (a + c)) 125 := (hcop 125 dvd_rfl).2
    have h2 : Nat.Coprime (2 ^ (k + 3)) (m * m') := Nat.Coprime.mul_right (hcop m hm).1 (hcop m' hm').1
    have d1 : 2 ^ (a + c) ∣ 2 ^ (k + 3) := h1.dvd_of_dvd_mul_right ⟨m * m', heq.symm⟩
    have d2 : 2 ^ (k + 3) ∣ 2 ^ (a + c) := h2.dvd_of_dvd_mul_right ⟨125, heq⟩
    have he := Nat.dvd_antisymm d1 d2
    refine ⟨?_, Nat.pow_right_injective le_rfl he⟩
    rw [he] at heq
    exact Nat.eq_of_mul_eq_mul_left (by positivity) heq
  have hpair : (m, m') ∈ [(1, 125), (5, 25), (25, 5), (125, 1)] := by
    obtain ⟨h1, -⟩ := hmm
    rcases hodd m hm with rfl | rfl | rfl | rfl <;> rcases hodd m' hm' with rfl | rfl | rfl | rfl <;>
      simp at h1 ⊢
  obtain ⟨r1, r2, r3⟩ := milli_round (m, m') hpair
  simp only at r1 r2 r3
  have hsmall : (2 : Rat) ^ (-1022 : Int) ≤ 1 / 2048 := by
    rw [show (1 / 2048 : Rat) = 2 ^ (-11 : Int) by norm_num]
    exact zpow_le_zpow_right₀ (by norm_num) (by norm_num)
  have hpos : (0 : Rat) < 1 / 2048 := by norm_num
  unfold decodedLength
  have e1 : fl64 (((2 ^ a * m : Nat) : Rat) * fl64 (1 / 1000)) = 2 ^ a * fl64 ((m : Rat) * fl64 (1 / 1000)) := by
    push_cast
    rw [mul_assoc]
    exact fl64_scale a (lt_of_lt_of_le hpos r2) (hsmall.trans r2)
  have e2 : fl64 (2 ^ a * fl64 ((m : Rat) * fl64 (1 / 1000)) * ((2 ^ c * m' : Nat) : Rat)) = 2 ^ k := by
    push_cast
    rw [show (2 : Rat) ^ a * fl64 ((m : Rat) * fl64 (1 / 1000)) * (2 ^ c * m')
        = 2 ^ (a + c) * (m' * fl64 ((m : Rat) * fl64 (1 / 1000))) by rw [pow_add]; ring,
      fl64_scale (a + c) (lt_of_lt_of_le hpos r3) (hsmall.trans r3), r1, hmm.2, pow_add]
    norm_num
    rw [mul_assoc]
    norm_num
  rw [e1, e2]
  have : (2 : Rat) ^ k = ((2 ^ k : Int) : Rat) := by push_cast; rfl
  rw [this, Int.floor_intCast]
  have : (2 ^ k : Int) = ((2 ^ k : Nat) : Int) := by push_cast; rfl
  rw [this, Int.toNat_natCast]

/-- **C67.** In the same case block `b` is played from the tick on at which it was encoded. -/
theorem c67_position (k fs timescale b : Nat) (hfs : 0 < fs) (hd : fs ∣ 2 ^ k * timescale)
    (hb : b * 2 ^ k * timescale < 2 ^ 53) :
    decodedPosition b (2 ^ k) timescale fs = b * blockTicks (2 ^ k) timescale fs := by
  unfold blockTicks
  obtain ⟨B, hB⟩ := hd
  rw [hB, Nat.mul_div_cancel_left _ hfs]
  unfold decodedPosition
  by_cases ht : timescale = 0
  · subst ht
    have : B = 0 := by
      rw [Nat.mul_zero] at hB
      rcases Nat.mul_eq_zero.mp hB.symm with h | h
      · omega
      · exact h
    subst this
    have h0 : fl64 0 = 0 := by simpa using fl64_int 0 (by norm_num)
    simp [h0]
  · have hfl : ∀ n : Nat, n < 2 ^ 53 → fl64 (n : Rat) = n := by
      intro n hn
      have := fl64_int (n : Int) (by rw [abs_of_nonneg (by positivity)]; exact_mod_cast hn)
      simpa using this
    have h1 : b * 2 ^ k < 2 ^ 53 := lt_of_le_of_lt (Nat.le_mul_of_pos_right _ (by omega)) hb
    have hbB : b * B * fs = b * 2 ^ k * timescale := by
      rw [Nat.mul_assoc, Nat.mul_assoc, Nat.mul_comm B fs, ← hB]
    have h2 : b * B < 2 ^ 53 := lt_of_le_of_lt (Nat.le_mul_of_pos_right _ hfs) (by rw [hbB]; exact hb)
    have e1 : fl64 ((b : Rat) * ((2 ^ k : Nat) : Rat)) = ((b * 2 ^ k : Nat) : Rat) := by
      rw [← Nat.cast_mul]; exact hfl _ h1
    have e2 : fl64 (((b * 2 ^ k : Nat) : Rat) * (timescale : Rat)) = ((b * 2 ^ k * timescale : Nat) : Rat) := by
      rw [← Nat.cast_mul]; exact hfl _ hb
    have e3 : ((b * 2 ^ k * timescale : Nat) : Rat) / (fs : Rat) = ((b * B : Nat) : Rat) := by
      rw [← hbB]; push_cast
      have : (fs : Rat) ≠ 0 := by exact_mod_cast hfs.ne'
      field_simp
    rw [e1, e2, e3, hfl _ h2, Int.floor_natCast, Int.toNat_natCast]

/-- **C67.** A block of 1024 samples at 44.1 kHz lasts 23 ticks and a bit; the decoder takes it for one of 1014
samples. -/
theorem c67_length_negation : decodedLength (blockTicks 1024 1000 44100) 44100 = 1014 := by decide +kernel

/-- **C67.** With any other timescale the length is wrong, too: the decoder takes the ticks for
milliseconds. -/
theorem c67_timescale_negation : decodedLength (blockTicks 1024 8000 8000) 8000 = 8192 := by decide +kernel

example : (8000 : Nat) ∣ 2 ^ 10 * 1000 := by decide

/-! ### Encoding and decoding a signal -/

theorem signal_loop (k : Nat) (hk : 3 ≤ k) (fs : Nat) (hfs : 0 < fs) (hd : fs ∣ 2 ^ k * 1000) (lg : Rat → Rat)
    (transform : List Rat → List Rat) (ht : ∀ block, block.length = 2 ^ k → (transform block).length = 2 ^ k)
    (pm : List Rat → Model) (budget : Int) (inverse : Nat → List Rat → List Rat) :
    ∀ (blocks : List (List Rat)), (∀ block ∈ blocks, block.length = 2 ^ k ∧
      BudgetFits k (transform block) (maximumCoefficient (transform block)) (pm block) budget) →
    ∀ (b : Nat), (b + blocks.length) * 2 ^ k * 1000 < 2 ^ 53 →
    ∀ (e : Spiht.Encoder) (d : Spiht.Decoder), e.counters = resetCounters → d.counters = resetCounters →
    ∃ effects out, encodeLoop lg transform pm (2 ^ k) (blockTicks (2 ^ k) 1000 fs) budget blocks
        (b * blockTicks (2 ^ k) 1000 fs) e = .ok effects ∧
      transformLoop inverse (2 ^ k) 1000 fs effects b d = .ok out ∧
      List.Forall₂ (fun block r => ∃ coeffs, Precise k budget (transform block) coeffs ∧ r = inverse (k - 2) coeffs)
        blocks (out.map (·.2)) ∧
      out.map (·.1) = effects.map (·.1) := by
  intro blocks
  induction blocks with
  | nil => intro _ b _ e d _ _; exact ⟨[], [], rfl, rfl, List.Forall₂.nil, rfl⟩
  | cons block blocks ih =>
    intro hbl b hb e d he hdc
    obtain ⟨h1, h2⟩ := hbl block (by simp)
    obtain ⟨bytes, e', r, d', bits, c1, c2, c3, c4, c5, c6, c7, c8, c9⟩ :=
      c43_block k hk lg (transform block) (ht block h1) (pm block) budget h2 e he d hdc
    rw [List.length_cons] at hb
    obtain ⟨effects, out, i1, i2, i3, i4⟩ := ih (fun x hx => hbl x (by simp [hx])) (b + 1)
      (by rw [show b + 1 + blocks.length = b + (blocks.length + 1) by omega]; exact hb) e' d' c2 c4
    rw [show (b + 1) * blockTicks (2 ^ k) 1000 fs = b * blockTicks (2 ^ k) 1000 fs + blockTicks (2 ^ k) 1000 fs by
      ring] at i1
    have hpos : decodedPosition b (2 ^ k) 1000 fs = b * blockTicks (2 ^ k) 1000 fs := by
      apply c67_position k fs 1000 b hfs hd
      refine lt_of_le_of_lt ?_ hb
      gcongr
      omega
    refine ⟨(b * blockTicks (2 ^ k) 1000 fs, bytes) :: effects,
      (b * blockTicks (2 ^ k) 1000 fs, inverse (k - 2) (coefficients r)) :: out, ?_, ?_, ?_, ?_⟩
    · rw [encodeLoop]
      simp only [c1, bind, Except.bind, i1]
    · rw [transformLoop]
      simp only [c3, bind, Except.bind, i2, hpos, dwtLevel_pow k hk]
    · refine List.Forall₂.cons ⟨coefficients r, ⟨bits, c5, c6, c7, c8, c9⟩, rfl⟩ i3
    · simp only [List.map_cons, i4]

/-- **C67, C68 (encoded signals).** A signal is encoded in blocks of `2 ^ k` samples at a timescale of 1000,
and the blocks last a whole number of ticks.  Then decoding gives for every block, in order, the inverse
transform of its coefficients, as precise as the budget allows, at the position of its effect. -/
theorem c67_signal (k : Nat) (hk : 3 ≤ k) (fs : Nat) (hfs : 0 < fs) (hd : fs ∣ 2 ^ k * 1000) (lg : Rat → Rat)
    (transform : List Rat → List Rat) (ht : ∀ block, block.length = 2 ^ k → (transform block).length = 2 ^ k)
    (pm : List Rat → Model) (budget : Int) (inverse : Nat → List Rat → List Rat) (sig : List Rat)
    (hfit : ∀ block ∈ splitLoop (2 ^ k) sig (numBlocks (2 ^ k) sig.length) 0,
      BudgetFits k (transform block) (maximumCoefficient (transform block)) (pm block) budget)
    (hlen : (sig.length + 2 ^ k) * 1000 < 2 ^ 53)
    (e : Spiht.Encoder) (he : e.counters = resetCounters) (d : Spiht.Decoder) (hdc : d.counters = resetCounters) :
    ∃ band out, encodeSignal lg transform pm (2 ^ k) fs 1000 budget sig e = .ok band ∧
      transformBand inverse band 1000 d = .ok out ∧
      List.Forall₂ (fun block r => ∃ coeffs, Precise k budget (transform block) coeffs ∧ r = inverse (k - 2) coeffs)
        (splitLoop (2 ^ k) sig (numBlocks (2 ^ k) sig.length) 0) (out.map (·.2)) ∧
      out.map (·.1) = band.effects.map (·.1) := by
  obtain ⟨s1, s2, -⟩ := c42_blocks (2 ^ k) (by positivity) sig
  have hn := (numBlocks_spec (2 ^ k) sig.length (by positivity)).2.1
  obtain ⟨effects, out, h1, h2, h3, h4⟩ := signal_loop k hk fs hfs hd lg transform ht pm budget inverse
    (splitLoop (2 ^ k) sig (numBlocks (2 ^ k) sig.length) 0) (fun block hb => ⟨s2 block hb, hfit block hb⟩) 0
    (by rw [Nat.zero_add, s1]; exact lt_of_le_of_lt (Nat.mul_le_mul_right 1000 hn.le) hlen) e d he hdc
  rw [Nat.zero_mul] at h1
  refine ⟨⟨fs, blockTicks (2 ^ k) 1000 fs, effects⟩, out, ?_, ?_, h3, h4⟩
  · unfold encodeSignal
    rw [if_neg (by omega)]
    simp only [h1, bind, Except.bind]
  · unfold transformBand
    simp only [c67_length k fs hfs hd]
    exact h2

/-- Twelve samples at 8 kHz in blocks of eight, with a budget of 12 bits. -/
example : ∃ band out, encodeSignal (fun x => x) (fun l => l) (fun _ => ⟨[1, 2], [.fin 0, .fin 3]⟩) (2 ^ 3) 8000 1000 12
      (List.replicate 12 (1 / 3)) {} = .ok band ∧ transformBand (fun _ l => l) band 1000 {} = .ok out ∧
      out.map (·.1) = band.effects.map (·.1) := by
  obtain ⟨band, out, h1, h2, -, h4⟩ := c67_signal 3 (by omega) 8000 (by omega) (by decide) (fun x => x) (fun l => l)
    (fun _ h => h) (fun _ => ⟨[1, 2], [.fin 0, .fin 3]⟩) 12 (fun _ l => l) (List.replicate 12 (1 / 3))
    (fun _ _ => .inl (by omega)) (by rw [List.length_replicate]; norm_num) {} rfl {} rfl
  exact ⟨band, out, h1, h2, h4⟩

theorem fl64_zero : fl64 0 = 0 := by
  have := fl64_int 0 (by norm_num)
  rwa [Int.cast_zero] at this

theorem decodedPosition_zero (bl timescale upper : Nat) : decodedPosition 0 bl timescale upper = 0 := by
  unfold decodedPosition
  rw [Nat.cast_zero, zero_mul, fl64_zero, zero_mul, fl64_zero, zero_div, fl64_zero, Int.floor_zero]
  rfl

theorem transformLoop_positions (inverse : Nat → List Rat → List Rat) (bl timescale upper : Nat) :
    ∀ (effects : List (Nat × List UInt8)) (b : Nat) (d : Spiht.Decoder) (out : List (Nat × List Rat)),
    transformLoop inverse bl timescale upper effects b d = .ok out →
    out.map (·.1) = (List.range effects.length).map (fun i => decodedPosition (b + i) bl timescale upper) := by
  intro effects
  induction effects with
  | nil => intro b d out h; cases h; rfl
  | cons p effects ih =>
    intro b d out h
    obtain ⟨position, stream⟩ := p
    simp only [transformLoop, bind, Except.bind] at h
    split at h
    · exact absurd h (by simp)
    · split at h
      · exact absurd h (by simp)
      · next r _ more hmore =>
        rw [← Except.ok.inj h, List.map_cons, ih _ _ _ hmore, List.length_cons, List.range_succ_eq_map, List.map_cons,
          List.map_map, Nat.add_zero]
        congr 1
        apply List.map_congr_left
        intro i _
        simp only [Function.comp, Nat.succ_eq_add_one]
        rw [Nat.add_right_comm, Nat.add_assoc]

/-- **C68.** The positions of the effects have no influence on where they are played. -/
theorem c68_negation (inverse : Nat → List Rat → List Rat) (upper blockLength timescale : Nat)
    (effects effects' : List (Nat × List UInt8)) (hl : effects.length = effects'.length) (d d' : Spiht.Decoder)
    (out out' : List (Nat × List Rat))
    (h : transformBand inverse ⟨upper, blockLength, effects⟩ timescale d = .ok out)
    (h' : transformBand inverse ⟨upper, blockLength, effects'⟩ timescale d' = .ok out') :
    out.map (·.1) = out'.map (·.1) := by
  rw [transformLoop_positions _ _ _ _ _ _ _ _ h, transformLoop_positions _ _ _ _ _ _ _ _ h', hl]

/-- **C68.** A band with a single effect is always played from the start, wherever that effect is. -/
theorem c68_single_negation (inverse : Nat → List Rat → List Rat) (upper blockLength position timescale : Nat)
    (stream : List UInt8) (d : Spiht.Decoder) (out : List (Nat × List Rat))
    (h : transformBand inverse ⟨upper, blockLength, [(position, stream)]⟩ timescale d = .ok out) :
    out.map (·.1) = [0] := by
  rw [transformLoop_positions _ _ _ _ _ _ _ _ h, List.length_singleton, List.range_one, List.map_singleton,
    Nat.add_zero, decodedPosition_zero]

/-- The band above can be one the encoder made, without its first effect. -/
example : ((transformBand (fun _ l => l) ⟨8000, 2, [(2, [34, 112, 147, 145, 170, 2])]⟩ 1000 {}).toOption.map
    (fun l => l.map (·.1))) = some [0] := by decide +kernel

end Haptics.Wavelet
