import Verif.Wavelet.Band
import Verif.Wavelet.SpecBand
import Verif.Wavelet.PropsSignal
import Verif.Wavelet.PropsCodec
import Verif.Bits.FloatScale

/-! ## C111: the signal of a wavelet band -/

namespace Haptics.Wavelet
open Haptics Haptics.Spiht

theorem getBits_length (context : Nat) : ∀ (n : Nat) (d d' : Spiht.Decoder) (l : List Bool),
    getBits context n d = .ok (l, d') → l.length = n
  | 0, d, d', l, h => by
    cases h
    rfl
  | n + 1, d, d', l, h => by
    simp only [getBits, bind, StateT.bind, Except.bind] at h
    split at h
    · cases h
    · rename_i v _
      split at h
      · cases h
      · rename_i w hw
        cases h
        rw [List.length_cons, getBits_length context n v.2 w.2 w.1 hw]

theorem bi2de_lt : ∀ l : List Bool, bi2de l < 2 ^ l.length
  | [] => by simp [bi2de]
  | b :: l => by
    have := bi2de_lt l
    simp only [bi2de, List.length_cons, pow_succ]
    cases b <;> simp only [Bool.toNat_false, Bool.toNat_true] <;> omega

/-- The header of a block, whatever it is. -/
theorem decodeEffect_header (d d' : Spiht.Decoder) (bytes : List UInt8) (out : List Int) (length : Nat) (r : List Int × Rat × Nat)
    (h : d.decodeEffect bytes out length = .ok (r, d')) : Representable r.2.1 ∧ r.2.2 ≤ 15 := by
  unfold Decoder.decodeEffect at h
  split at h
  · cases h
  · split at h
    · cases h
    · rename_i q d'' hq
      cases h
      simp only [decodeSymbols, getMaxAllocBits, getWavmax, bind, StateT.bind, Except.bind, pure, StateT.pure, Except.pure] at hq
      split at hq
      · cases hq
      · rename_i v hv
        split at hv
        · cases hv
        · rename_i w hw
          cases hv
          split at hq
          · cases hq
          · rename_i u hu
            split at hu
            · cases hu
            · rename_i mode _
              split at hu
              · cases hu
              · rename_i y hy
                cases hu
                split at hq
                · cases hq
                · cases hq
                  have hl := getBits_length 0 4 _ _ _ hw
                  have hl' := getBits_length 0 7 _ _ _ hy
                  have h1 := bi2de_lt w.1
                  have h2 := bi2de_lt y.1
                  rw [hl] at h1
                  rw [hl'] at h2
                  refine ⟨?_, by simp only; omega⟩
                  simp only
                  split
                  · exact .inl ⟨_, h2, by norm_num⟩
                  · exact .inr ⟨_, h2, by norm_num; ring⟩

theorem raw_scale (r : List Int × Rat × Nat) (h1 : Representable r.2.1) (h2 : r.2.2 ≤ 15) :
    rawCoefficients r = (coefficients r).map (2 ^ r.2.2 * ·) := by
  unfold rawCoefficients coefficients
  rw [List.map_map]
  refine List.map_congr_left fun n _ => ?_
  simp only [Function.comp_apply]
  have hm : fl64 (r.2.1 / 2 ^ r.2.2) = r.2.1 / 2 ^ r.2.2 := by
    have := fl64_grid h1 1 (by norm_num) r.2.2 (by omega)
    simpa using this
  rw [hm]
  obtain ⟨j, -, hj⟩ := representable_digits h1
  rw [hj]
  have key : ∀ m : ℕ, fl64 ((m : ℚ) * (j / 128)) = 2 ^ r.2.2 * fl64 ((m : ℚ) * (j / 128 / 2 ^ r.2.2)) := by
    intro m
    by_cases h0 : m * j = 0
    · have h0' : (m : ℚ) * j = 0 := by exact_mod_cast h0
      rw [show (m : ℚ) * (j / 128) = m * j / 128 by ring, show (m : ℚ) * (j / 128 / 2 ^ r.2.2) = m * j / (128 * 2 ^ r.2.2) by field_simp, h0']
      simp [Haptics.fl64_zero]
    · have h1' : (1 : ℚ) ≤ m * j := by exact_mod_cast Nat.one_le_iff_ne_zero.mpr h0
      have hp : (2 : ℚ) ^ r.2.2 ≤ 2 ^ 15 := pow_le_pow_right₀ (by norm_num) h2
      have hx : (2 : ℚ) ^ (-1022 : ℤ) ≤ (m : ℚ) * (j / 128 / 2 ^ r.2.2) := by
        rw [show (m : ℚ) * (j / 128 / 2 ^ r.2.2) = m * j / (128 * 2 ^ r.2.2) by field_simp, le_div_iff₀ (by positivity)]
        refine le_trans ?_ h1'
        calc (2 : ℚ) ^ (-1022 : ℤ) * (128 * 2 ^ r.2.2) ≤ 2 ^ (-1022 : ℤ) * (128 * 2 ^ 15) := by gcongr
          _ ≤ 1 := by
            rw [show (128 : ℚ) * 2 ^ 15 = 2 ^ (22 : ℤ) by norm_num, ← zpow_add₀ (by norm_num)]
            exact zpow_le_one_of_nonpos₀ (by norm_num) (by norm_num)
      rw [← fl64_scale r.2.2 (lt_of_lt_of_le (by positivity) hx) hx]
      congr 1
      field_simp
  rcases Int.eq_nat_or_neg n with ⟨m, rfl | rfl⟩
  · exact_mod_cast key m
  · have hn : ∀ x, fl64 (-x) = -fl64 x := flo_neg _ _
    push_cast
    rw [neg_mul, neg_mul, hn, hn, key m, mul_neg]

/-- Blocks written into a signal, `T` samples after each other. -/
def placeBlocks (T : Nat) : List (List ℚ) → (position : Nat) → List ℚ → Except Err (List ℚ)
  | [], _, sig => .ok sig
  | block :: l, position, sig =>
    match placeBlock sig block position with
    | .error e => .error e
    | .ok sig => placeBlocks T l (position + T) sig

theorem band_loop (k : Nat) (hk : 3 ≤ k) (T : Nat) (lg : Rat → Rat)
    (transform : List Rat → List Rat) (ht : ∀ block, block.length = 2 ^ k → (transform block).length = 2 ^ k)
    (pm : List Rat → Model) (budget : Int) (inverse : Nat → List Rat → List Rat) :
    ∀ (blocks : List (List Rat)), (∀ block ∈ blocks, block.length = 2 ^ k ∧
      BudgetFits k (transform block) (maximumCoefficient (transform block)) (pm block) budget) →
    ∀ (position : Nat) (e : Spiht.Encoder) (d : Spiht.Decoder), e.counters = resetCounters → d.counters = resetCounters →
    ∃ effects rs, encodeLoop lg transform pm (2 ^ k) T budget blocks position e = .ok effects ∧ effects.length = blocks.length ∧
      List.Forall₂ (Magnified inverse transform k budget) blocks rs ∧
      ∀ sig, decodeLoop inverse (2 ^ k) effects d sig = placeBlocks T rs position sig := by
  intro blocks
  induction blocks with
  | nil => intro _ position e d _ _; exact ⟨[], [], rfl, rfl, .nil, fun _ => rfl⟩
  | cons block blocks ih =>
    intro hbl position e d he hdc
    obtain ⟨h1, h2⟩ := hbl block (by simp)
    obtain ⟨bytes, e', r, d', bits, c1, c2, c3, c4, c5, c6, c7, c8, c9⟩ :=
      c43_block k hk lg (transform block) (ht block h1) (pm block) budget h2 e he d hdc
    obtain ⟨effects, rs, i1, i2, i3, i4⟩ := ih (fun x hx => hbl x (by simp [hx])) (position + T) e' d' c2 c4
    obtain ⟨g1, g2⟩ := decodeEffect_header _ _ _ _ _ _ c3
    refine ⟨(position, bytes) :: effects, inverse (k - 2) (rawCoefficients r) :: rs, ?_, by simp [i2], ?_, ?_⟩
    · rw [encodeLoop]
      simp only [c1, bind, Except.bind, i1]
    · exact .cons ⟨coefficients r, r.2.2, ⟨bits, c5, c6, c7, c8, c9⟩, g2, by rw [raw_scale r g1 g2]⟩ i3
    · intro sig
      rw [decodeLoop, placeBlocks]
      simp only [c3, bind, Except.bind, dwtLevel_pow k hk]
      cases placeBlock sig (inverse (k - 2) (rawCoefficients r)) position with
      | error x => rfl
      | ok s => exact i4 s

theorem encode_band (k : Nat) (hk : 3 ≤ k) (fs timescale : Nat) (hfs : 0 < fs) (hts : 0 < timescale) (hd : fs ∣ 2 ^ k * timescale)
    (hr : 2 ^ k * timescale < 2 ^ 31) (lg : Rat → Rat)
    (transform : List Rat → List Rat) (ht : ∀ block, block.length = 2 ^ k → (transform block).length = 2 ^ k)
    (pm : List Rat → Model) (budget : Int) (inverse : Nat → List Rat → List Rat) (sig : List Rat)
    (hfit : ∀ block ∈ splitLoop (2 ^ k) sig (numBlocks (2 ^ k) sig.length) 0,
      BudgetFits k (transform block) (maximumCoefficient (transform block)) (pm block) budget)
    (e : Spiht.Encoder) (he : e.counters = resetCounters) (d : Spiht.Decoder) (hdc : d.counters = resetCounters) :
    ∃ band rs, encodeSignal lg transform pm (2 ^ k) fs timescale budget sig e = .ok band ∧
      List.Forall₂ (Magnified inverse transform k budget) (splitLoop (2 ^ k) sig (numBlocks (2 ^ k) sig.length) 0) rs ∧
      decodeBand inverse band timescale d =
        placeBlocks (blockTicks (2 ^ k) timescale fs) rs 0 (List.replicate (numBlocks (2 ^ k) sig.length * 2 ^ k) 0) := by
  obtain ⟨s1, s2, -⟩ := c42_blocks (2 ^ k) (by positivity) sig
  obtain ⟨effects, rs, h1, h2, h3, h4⟩ := band_loop k hk (blockTicks (2 ^ k) timescale fs) lg transform ht pm budget inverse
    (splitLoop (2 ^ k) sig (numBlocks (2 ^ k) sig.length) 0) (fun block hb => ⟨s2 block hb, hfit block hb⟩) 0 e d he hdc
  refine ⟨⟨fs, blockTicks (2 ^ k) timescale fs, effects⟩, rs, ?_, h3, ?_⟩
  · unfold encodeSignal
    rw [if_neg (by omega)]
    simp only [h1, bind, Except.bind]
  · have hb : blockTicks (2 ^ k) timescale fs * fs = 2 ^ k * timescale := Nat.div_mul_cancel hd
    unfold decodeBand
    simp only [hb]
    rw [if_neg (by omega), Nat.mul_div_cancel _ hts, h4, h2, s1]

theorem magnified_length (k : Nat) (inverse : Nat → List ℚ → List ℚ) (hinv : ∀ c, c.length = 2 ^ k → (inverse (k - 2) c).length = 2 ^ k)
    {transform : List ℚ → List ℚ} {budget : Int} {blocks rs : List (List ℚ)} (h : List.Forall₂ (Magnified inverse transform k budget) blocks rs) :
    ∀ r ∈ rs, r.length = 2 ^ k := by
  intro r hr
  obtain ⟨block, -, coeffs, n, ⟨_, _, _, _, hl, _⟩, -, rfl⟩ : ∃ block, block ∈ blocks ∧ Magnified inverse transform k budget block r := by
    induction h with
    | nil => cases hr
    | cons h0 _ ih =>
      rcases List.mem_cons.mp hr with rfl | hr
      · exact ⟨_, List.mem_cons_self, h0⟩
      · obtain ⟨b, hb, h'⟩ := ih hr
        exact ⟨b, List.mem_cons_of_mem _ hb, h'⟩
  exact hinv _ (by rw [List.length_map, hl])

/-- Blocks that follow each other. -/
theorem placeBlocks_adjacent (n : Nat) : ∀ (rs : List (List ℚ)), (∀ r ∈ rs, r.length = n) → ∀ (pre rest : List ℚ),
    rest.length = rs.length * n → placeBlocks n rs pre.length (pre ++ rest) = .ok (pre ++ rs.flatten)
  | [], _, pre, rest, h => by
    have : rest = [] := by simpa using h
    simp [placeBlocks, this]
  | r :: rs, hl, pre, rest, h => by
    have hr := hl r List.mem_cons_self
    rw [List.length_cons, add_mul, one_mul] at h
    rw [placeBlocks, placeBlock, if_pos (by rw [List.length_append]; omega)]
    simp only
    rw [List.take_left, ← List.drop_drop, List.drop_left]
    have := placeBlocks_adjacent n rs (fun x hx => hl x (List.mem_cons_of_mem _ hx)) (pre ++ r) (rest.drop r.length)
      (by rw [List.length_drop]; omega)
    rw [List.length_append, hr] at this
    rw [← hr] at this ⊢
    rw [this, List.flatten_cons, List.append_assoc]

/-- Blocks that begin after the end of the signal. -/
theorem placeBlocks_outside (n T : Nat) : ∀ (rs : List (List ℚ)), (∀ r ∈ rs, r.length = n) → ∀ (position : Nat) (sig : List ℚ), rs ≠ [] →
    sig.length < position + (rs.length - 1) * T + n → placeBlocks T rs position sig = .error .ub
  | [], _, _, _, h, _ => absurd rfl h
  | r :: rs, hl, position, sig, _, h => by
    have hr := hl r List.mem_cons_self
    rw [placeBlocks]
    unfold placeBlock
    split
    · rename_i e he
      split at he
      · cases he
      · cases he; rfl
    · rename_i s hs
      split at hs
      · cases hs
        by_cases h0 : rs = []
        · subst h0
          simp at h
          omega
        · refine placeBlocks_outside n T rs (fun x hx => hl x (List.mem_cons_of_mem _ hx)) _ _ h0 ?_
          have hp := List.length_pos_iff.mpr h0
          obtain ⟨q, hq⟩ : ∃ q, rs.length = q + 1 := ⟨rs.length - 1, by omega⟩
          simp only [List.length_cons, Nat.add_sub_cancel, hq, add_mul, one_mul] at h ⊢
          simp only [List.length_append, List.length_take, List.length_drop]
          omega
      · cases hs

/-- Blocks that begin too early leave the end of the signal as it is. -/
theorem placeBlocks_early (n T : Nat) (hT : T ≤ n) : ∀ (rs : List (List ℚ)), (∀ r ∈ rs, r.length = n) → ∀ (position : Nat) (sig : List ℚ),
    position + rs.length * n ≤ sig.length → ∃ out, placeBlocks T rs position sig = .ok out ∧ out.length = sig.length ∧
      ∀ i, position + (rs.length - 1) * T + n ≤ i → out[i]? = sig[i]?
  | [], _, _, sig, _ => ⟨sig, rfl, rfl, fun _ _ => rfl⟩
  | r :: rs, hl, position, sig, h => by
    have hr := hl r List.mem_cons_self
    rw [List.length_cons, add_mul, one_mul] at h
    rw [placeBlocks, placeBlock, if_pos (by omega)]
    simp only
    have hlen : (sig.take position ++ r ++ sig.drop (position + r.length)).length = sig.length := by
      simp only [List.length_append, List.length_take, List.length_drop]
      omega
    obtain ⟨out, o1, o2, o3⟩ := placeBlocks_early n T hT rs (fun x hx => hl x (List.mem_cons_of_mem _ hx)) (position + T)
      (sig.take position ++ r ++ sig.drop (position + r.length)) (by rw [hlen]; omega)
    refine ⟨out, o1, by rw [o2, hlen], fun i hi => ?_⟩
    rw [List.length_cons, Nat.add_sub_cancel] at hi
    have hge : position + n ≤ i := by
      have : 0 ≤ rs.length * T := Nat.zero_le _
      omega
    have hs : (sig.take position ++ r ++ sig.drop (position + r.length))[i]? = sig[i]? := by
      have hl' : (sig.take position ++ r).length = position + n := by
        simp only [List.length_append, List.length_take]
        omega
      rw [List.getElem?_append_right (by omega), hl', List.getElem?_drop, hr]
      congr 1
      omega
    rw [← hs]
    cases rs with
    | nil => cases o1; rfl
    | cons x xs =>
      refine o3 i ?_
      rw [List.length_cons, Nat.add_sub_cancel]
      rw [List.length_cons, add_mul, one_mul] at hi
      omega

/-- **C111 (partial)** A band that the encoder has made, with as many ticks per second as samples, is decoded to the signal of its blocks, one
after the other; each block is the inverse transform of its coefficients, as precise as the budget allows, but multiplied by a power of two.
Missing: that power (`c111_scale_negation`), and other timescales (`c111_unsafe_negation`, `c111_early_negation`). -/
theorem c111_signal_partial (k : Nat) (hk : 3 ≤ k) (fs : Nat) (hfs : 0 < fs) (hr : 2 ^ k * fs < 2 ^ 31) (lg : Rat → Rat)
    (transform : List Rat → List Rat) (ht : ∀ block, block.length = 2 ^ k → (transform block).length = 2 ^ k)
    (pm : List Rat → Model) (budget : Int) (inverse : Nat → List Rat → List Rat)
    (hinv : ∀ c, c.length = 2 ^ k → (inverse (k - 2) c).length = 2 ^ k) (sig : List Rat)
    (hfit : ∀ block ∈ splitLoop (2 ^ k) sig (numBlocks (2 ^ k) sig.length) 0,
      BudgetFits k (transform block) (maximumCoefficient (transform block)) (pm block) budget)
    (e : Spiht.Encoder) (he : e.counters = resetCounters) (d : Spiht.Decoder) (hdc : d.counters = resetCounters) :
    ∃ band rs, encodeSignal lg transform pm (2 ^ k) fs fs budget sig e = .ok band ∧ decodeBand inverse band fs d = .ok rs.flatten ∧
      List.Forall₂ (Magnified inverse transform k budget) (splitLoop (2 ^ k) sig (numBlocks (2 ^ k) sig.length) 0) rs := by
  obtain ⟨band, rs, h1, h2, h3⟩ := encode_band k hk fs fs hfs hfs (Dvd.intro_left _ rfl) hr lg transform ht pm budget inverse sig hfit e he d hdc
  refine ⟨band, rs, h1, ?_, h2⟩
  have hl := magnified_length k inverse hinv h2
  obtain ⟨s1, -, -⟩ := c42_blocks (2 ^ k) (by positivity) sig
  have := placeBlocks_adjacent (2 ^ k) rs hl [] (List.replicate (numBlocks (2 ^ k) sig.length * 2 ^ k) 0)
    (by rw [List.length_replicate, ← h2.length_eq, s1])
  rw [h3, show blockTicks (2 ^ k) fs fs = 2 ^ k from Nat.mul_div_cancel _ hfs]
  simpa using this

/-- **C111** is false of the code: positions are in ticks, but they are used as samples.  With more ticks than samples per second,
decoding any signal of more than a block writes behind the end of the result. -/
theorem c111_unsafe_negation (k : Nat) (hk : 3 ≤ k) (fs timescale : Nat) (hfs : 0 < fs) (hlt : fs < timescale) (hd : fs ∣ 2 ^ k * timescale)
    (hr : 2 ^ k * timescale < 2 ^ 31) (lg : Rat → Rat)
    (transform : List Rat → List Rat) (ht : ∀ block, block.length = 2 ^ k → (transform block).length = 2 ^ k)
    (pm : List Rat → Model) (budget : Int) (inverse : Nat → List Rat → List Rat)
    (hinv : ∀ c, c.length = 2 ^ k → (inverse (k - 2) c).length = 2 ^ k) (sig : List Rat) (hsig : 2 ^ k < sig.length)
    (hfit : ∀ block ∈ splitLoop (2 ^ k) sig (numBlocks (2 ^ k) sig.length) 0,
      BudgetFits k (transform block) (maximumCoefficient (transform block)) (pm block) budget)
    (e : Spiht.Encoder) (he : e.counters = resetCounters) (d : Spiht.Decoder) (hdc : d.counters = resetCounters) :
    ∃ band, encodeSignal lg transform pm (2 ^ k) fs timescale budget sig e = .ok band ∧ decodeBand inverse band timescale d = .error .ub := by
  obtain ⟨band, rs, h1, h2, h3⟩ := encode_band k hk fs timescale hfs (by omega) hd hr lg transform ht pm budget inverse sig hfit e he d hdc
  refine ⟨band, h1, ?_⟩
  have hl := magnified_length k inverse hinv h2
  obtain ⟨s1, -, -⟩ := c42_blocks (2 ^ k) (by positivity) sig
  have hn : rs.length = numBlocks (2 ^ k) sig.length := by rw [← h2.length_eq, s1]
  have hspec := numBlocks_spec (2 ^ k) sig.length (by positivity)
  have hT : 2 ^ k < blockTicks (2 ^ k) timescale fs := by
    have hb : blockTicks (2 ^ k) timescale fs * fs = 2 ^ k * timescale := Nat.div_mul_cancel hd
    refine Nat.lt_of_mul_lt_mul_right (a := fs) ?_
    rw [hb]
    exact Nat.mul_lt_mul_of_pos_left hlt (by positivity)
  have hge : 2 ≤ rs.length := by
    by_contra hlt
    have h2k : 0 < 2 ^ k := by positivity
    have : rs.length * 2 ^ k ≤ 1 * 2 ^ k := Nat.mul_le_mul_right _ (by omega)
    rw [hn] at this
    omega
  rw [h3]
  refine placeBlocks_outside (2 ^ k) _ rs hl 0 _ (by intro h0; rw [h0] at hge; simp at hge) ?_
  rw [List.length_replicate, ← hn]
  obtain ⟨q, hq⟩ : ∃ q, rs.length = q + 2 := ⟨rs.length - 2, by omega⟩
  have : (q + 1) * 2 ^ k < (q + 1) * blockTicks (2 ^ k) timescale fs := Nat.mul_lt_mul_of_pos_left hT (by omega)
  rw [hq, show q + 2 - 1 = q + 1 by omega, show (q + 2) * 2 ^ k = (q + 1) * 2 ^ k + 2 ^ k by ring]
  omega

/-- **C111** is false of the code: with fewer ticks than samples per second every block but the last is overwritten by the next one, and the
end is silent. -/
theorem c111_early_negation (k : Nat) (hk : 3 ≤ k) (fs timescale : Nat) (hts : 0 < timescale) (hlt : timescale < fs) (hd : fs ∣ 2 ^ k * timescale)
    (hr : 2 ^ k * timescale < 2 ^ 31) (lg : Rat → Rat)
    (transform : List Rat → List Rat) (ht : ∀ block, block.length = 2 ^ k → (transform block).length = 2 ^ k)
    (pm : List Rat → Model) (budget : Int) (inverse : Nat → List Rat → List Rat)
    (hinv : ∀ c, c.length = 2 ^ k → (inverse (k - 2) c).length = 2 ^ k) (sig : List Rat)
    (hfit : ∀ block ∈ splitLoop (2 ^ k) sig (numBlocks (2 ^ k) sig.length) 0,
      BudgetFits k (transform block) (maximumCoefficient (transform block)) (pm block) budget)
    (e : Spiht.Encoder) (he : e.counters = resetCounters) (d : Spiht.Decoder) (hdc : d.counters = resetCounters) :
    ∃ band out, encodeSignal lg transform pm (2 ^ k) fs timescale budget sig e = .ok band ∧ decodeBand inverse band timescale d = .ok out ∧
      blockTicks (2 ^ k) timescale fs < 2 ^ k ∧ out.length = numBlocks (2 ^ k) sig.length * 2 ^ k ∧
      ∀ i < out.length, (numBlocks (2 ^ k) sig.length - 1) * blockTicks (2 ^ k) timescale fs + 2 ^ k ≤ i → out[i]? = some 0 := by
  obtain ⟨band, rs, h1, h2, h3⟩ := encode_band k hk fs timescale (by omega) hts hd hr lg transform ht pm budget inverse sig hfit e he d hdc
  have hl := magnified_length k inverse hinv h2
  obtain ⟨s1, -, -⟩ := c42_blocks (2 ^ k) (by positivity) sig
  have hn : rs.length = numBlocks (2 ^ k) sig.length := by rw [← h2.length_eq, s1]
  have hT : blockTicks (2 ^ k) timescale fs < 2 ^ k := by
    have hb : blockTicks (2 ^ k) timescale fs * fs = 2 ^ k * timescale := Nat.div_mul_cancel hd
    refine Nat.lt_of_mul_lt_mul_right (a := fs) ?_
    rw [hb]
    exact Nat.mul_lt_mul_of_pos_left hlt (by positivity)
  obtain ⟨out, o1, o2, o3⟩ := placeBlocks_early (2 ^ k) _ hT.le rs hl 0 (List.replicate (numBlocks (2 ^ k) sig.length * 2 ^ k) 0)
    (by rw [List.length_replicate, hn]; omega)
  rw [List.length_replicate] at o2
  refine ⟨band, out, h1, by rw [h3, o1], hT, o2, fun i hi hge => ?_⟩
  rw [o3 i (by rw [hn]; omega), List.getElem?_replicate_of_lt (by omega)]

/-- **C111** is false of the code: the samples are too large.  A block of eight samples of the encoder, as `transformBand` and `decodeBand`
decode it. -/
theorem c111_scale_negation :
    ((transformBand (fun _ l => l) ⟨8000, 1, [(0, [34, 112, 147, 145, 170, 2])]⟩ 1000 {}).toOption.map (fun l => l.map (·.2))) =
      some [[3 / 8, -1 / 8, 0, 0, 0, 1 / 4, 0, 0]] ∧
    (decodeBand (fun _ l => l) ⟨8000, 1, [(0, [34, 112, 147, 145, 170, 2])]⟩ 1000 {}).toOption =
      some [3 / 2, -1 / 2, 0, 0, 0, 1, 0, 0] := by
  constructor <;> decide +kernel

/-- Twelve samples at 8 kHz in blocks of eight, with a budget of 12 bits, and 8000, 16000 or 1000 ticks per second. -/
example : (∃ band rs, encodeSignal (fun x => x) (fun l => l) (fun _ => ⟨[1, 2], [.fin 0, .fin 3]⟩) (2 ^ 3) 8000 8000 12
      (List.replicate 12 (1 / 3)) {} = .ok band ∧ decodeBand (fun _ l => l) band 8000 {} = .ok (List.flatten rs) ∧ rs.length = 2) ∧
    (∃ band, encodeSignal (fun x => x) (fun l => l) (fun _ => ⟨[1, 2], [.fin 0, .fin 3]⟩) (2 ^ 3) 8000 16000 12
      (List.replicate 12 (1 / 3)) {} = .ok band ∧ decodeBand (fun _ l => l) band 16000 {} = .error .ub) ∧
    (∃ band out, encodeSignal (fun x => x) (fun l => l) (fun _ => ⟨[1, 2], [.fin 0, .fin 3]⟩) (2 ^ 3) 8000 1000 12
      (List.replicate 12 (1 / 3)) {} = .ok band ∧ decodeBand (fun _ l => l) band 1000 {} = .ok out ∧ out.length = 16 ∧
      ∀ i < 16, 9 ≤ i → out[i]? = some 0) := by
  refine ⟨?_, ?_, ?_⟩
  · obtain ⟨band, rs, h1, h2, h3⟩ := c111_signal_partial 3 (by omega) 8000 (by omega) (by norm_num) (fun x => x) (fun l => l)
      (fun _ h => h) (fun _ => ⟨[1, 2], [.fin 0, .fin 3]⟩) 12 (fun _ l => l) (fun _ h => h) (List.replicate 12 (1 / 3))
      (fun _ _ => .inl (by omega)) {} rfl {} rfl
    exact ⟨band, rs, h1, h2, by rw [← h3.length_eq, (c42_blocks (2 ^ 3) (by norm_num) _).1]; decide +kernel⟩
  · exact c111_unsafe_negation 3 (by omega) 8000 16000 (by omega) (by omega) (by decide) (by norm_num) (fun x => x) (fun l => l)
      (fun _ h => h) (fun _ => ⟨[1, 2], [.fin 0, .fin 3]⟩) 12 (fun _ l => l) (fun _ h => h) (List.replicate 12 (1 / 3)) (by simp)
      (fun _ _ => .inl (by omega)) {} rfl {} rfl
  · obtain ⟨band, out, h1, h2, -, h4, h5⟩ := c111_early_negation 3 (by omega) 8000 1000 (by omega) (by omega) (by decide) (by norm_num) (fun x => x)
      (fun l => l) (fun _ h => h) (fun _ => ⟨[1, 2], [.fin 0, .fin 3]⟩) 12 (fun _ l => l) (fun _ h => h) (List.replicate 12 (1 / 3))
      (fun _ _ => .inl (by omega)) {} rfl {} rfl
    have hn : numBlocks (2 ^ 3) (List.replicate 12 (1 / 3 : ℚ)).length = 2 := by rw [List.length_replicate]; decide +kernel
    rw [hn] at h4 h5
    exact ⟨band, out, h1, h2, h4, fun i hi h9 => h5 i (by omega) (by rw [show blockTicks (2 ^ 3) 1000 8000 = 1 from rfl]; omega)⟩


end Haptics.Wavelet
