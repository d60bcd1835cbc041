import Verif.Binary.PropsBands
import Verif.Bits.FloatScale

/-
C07 (band headers) and C10: the header of a band in the binary file format, and the code of a wavelet
band's block length.
-/
namespace Haptics.Binary

theorem readHeader_w (timescale : Nat) (b : Band) (h : b.FileHeaderFits) (param : Bits) (ct : Option Nat)
    (code : Nat) (bl : Int) (hw : writeBandParam timescale b = .ok param)
    (hr : ∀ r, readBandParam b.bandType (param ++ r) = .ok ((ct, code), r))
    (hbl : (if b.bandType = BandType.WaveletWave
      then blockLengthTicks timescale code b.upperFrequencyLimit.toNat else .ok 0) = .ok bl) :
    ∃ bits, writeBandHeader timescale b = .ok bits ∧
      ∀ rest, readBandHeader timescale (bits ++ rest) = .ok
        ({ bandType := b.bandType, curveType := ct, blockLength := some bl
           lowerFrequencyLimit := b.lowerFrequencyLimit, upperFrequencyLimit := b.upperFrequencyLimit
           effects := List.replicate b.effects.length {} }, rest) := by
  refine ⟨_, by rw [writeBandHeader, hw], fun rest => ?_⟩
  unfold readBandHeader
  have hlift : ∀ s, (if b.bandType = BandType.WaveletWave
      then lift (blockLengthTicks timescale code b.upperFrequencyLimit.toNat) else pure 0 : Rd Int) s
      = .ok (bl, s) := by
    intro s
    split at hbl
    · rename_i hb; rw [if_pos hb, lift, hbl]; rfl
    · rename_i hb; rw [if_neg hb]; cases hbl; rfl
  simp only [List.append_assoc, Rd.bind_apply,
    frdU_writeNBits MDBAND_BAND_TYPE b.bandType _ h.bandType, hr, frdU_w (n := MDBAND_LOW_FREQ) h.low,
    frdU_w (n := MDBAND_UP_FREQ) h.up, hlift,
    frdU_writeNBits MDBAND_EFFECT_COUNT b.effects.length _ h.effects, Rd.pure_apply, U.toNat h.low,
    U.toNat h.up]

/-- **C07** The header of a transient, curve or vectorial band that fits the format is read back. -/
theorem c07_header (timescale : Nat) (b : Band) (h : b.FileHeaderFits)
    (hb : b.bandType ≠ BandType.WaveletWave) :
    ∃ bits, writeBandHeader timescale b = .ok bits ∧
      ∀ rest, readBandHeader timescale (bits ++ rest) = .ok (b.storedHeader, rest) := by
  unfold Band.storedHeader
  by_cases hc : b.bandType = BandType.Curve
  · have hbl : (if b.bandType = BandType.WaveletWave then b.blockLength else some 0) = some 0 := if_neg hb
    rw [hbl, if_pos hc]
    refine readHeader_w timescale b h (writeNBits MDBAND_CURVE_TYPE b.curveTypeOrDefault) _ 0 0 ?_ ?_ ?_
    · rw [writeBandParam, if_pos hc]
    · intro r
      rw [readBandParam, if_pos hc]
      simp only [Rd.bind_apply, frdU_writeNBits MDBAND_CURVE_TYPE b.curveTypeOrDefault _ (h.curveType hc),
        Rd.pure_apply]
    · rw [if_neg hb]
  · rw [if_neg hb, if_neg hc]
    refine readHeader_w timescale b h [] _ 0 0 ?_ ?_ ?_
    · rw [writeBandParam, if_neg hc, if_neg hb]
    · intro r; rw [readBandParam, if_neg hc, if_neg hb]; rfl
    · rw [if_neg hb]

example : ({ bandType := BandType.Curve, curveType := some 3, lowerFrequencyLimit := 60
             upperFrequencyLimit := 500, effects := [{}, {}] } : Band).FileHeaderFits :=
  ⟨by decide, by decide, by decide, by decide, by decide⟩

/-! ## C10 – the block length of a wavelet band -/

theorem reciprocal_range {u : Int} (h0 : 0 < u) (h1 : u < 2 ^ 16) :
    (2 : ℚ) ^ (-1022 : ℤ) ≤ 1 / u := by
  have hu : (0 : ℚ) < u := by exact_mod_cast h0
  have hu1 : (u : ℚ) ≤ 2 ^ (16 : ℤ) := by
    have : (u : ℚ) ≤ ((2 ^ 16 : Int) : ℚ) := by exact_mod_cast h1.le
    refine this.trans (by norm_num)
  rw [le_div_iff₀ hu]
  calc (2 : ℚ) ^ (-1022 : ℤ) * u ≤ 2 ^ (-1022 : ℤ) * 2 ^ (16 : ℤ) := by
        exact mul_le_mul_of_nonneg_left hu1 (by positivity)
    _ = 2 ^ (-1006 : ℤ) := by rw [← zpow_add₀ (by norm_num : (2 : ℚ) ≠ 0)]; norm_num
    _ ≤ 1 := zpow_le_one_of_nonpos₀ (by norm_num) (by norm_num)

/-- The number of samples the writer computes scales with the block. -/
theorem samples_scale {u : Int} (h0 : 0 < u) (h1 : u < 2 ^ 16) (k : Nat) :
    fl64 (fl64 ((2 : ℚ) ^ k / u) * u) = 2 ^ k * fl64 (fl64 (1 / u) * u) := by
  have hu : (0 : ℚ) < u := by exact_mod_cast h0
  have hr := reciprocal_range h0 h1
  rw [show (2 : ℚ) ^ k / u = 2 ^ k * (1 / u) by ring, fl64_scale k (by positivity) hr, mul_assoc]
  have hf : (2 : ℚ) ^ (-1022 : ℤ) ≤ fl64 (1 / u) := by
    have := fl64_mono hr
    rwa [fl64_two_zpow _ (by norm_num)] at this
  have hp : (0 : ℚ) < fl64 (1 / u) := lt_of_lt_of_le (by positivity) hf
  have hu1 : (1 : ℚ) ≤ u := by exact_mod_cast h0
  exact fl64_scale k (by positivity) (le_trans hf (le_mul_of_one_le_right hp.le hu1))

/-- The block length, seen by the writer and by the reader. -/
theorem block_ratio {b : Band} {timescale k : Nat} (h : b.BlockIs timescale k) :
    ∃ ticks : Int, b.blockLength = some ticks ∧
      ((ticks : ℚ) / timescale) = 2 ^ k / b.upperFrequencyLimit ∧
      blockLengthTicks timescale (k - 4) b.upperFrequencyLimit.toNat = .ok ticks := by
  obtain ⟨ticks, h1, h2, h3⟩ := h.block
  have hup := h.up
  have hts := h.timescale
  refine ⟨ticks, h1, ?_, ?_⟩
  · have hu : (0 : ℚ) < b.upperFrequencyLimit := by exact_mod_cast hup
    have ht : (0 : ℚ) < timescale := by exact_mod_cast hts
    rw [div_eq_div_iff ht.ne' hu.ne']
    exact_mod_cast h3
  · obtain ⟨u, hu⟩ := Int.eq_ofNat_of_zero_le hup.le
    rw [hu] at h3 hup
    have hup' : 0 < u := by exact_mod_cast hup
    have ht0 : 0 ≤ ticks := by
      by_contra hneg
      have : ticks * (u : Int) < 0 := Int.mul_neg_of_neg_of_pos (by omega) (by omega)
      have : (0 : Int) ≤ 2 ^ k * timescale := by positivity
      omega
    obtain ⟨t, rfl⟩ := Int.eq_ofNat_of_zero_le ht0
    have h3' : t * u = 2 ^ k * timescale := by exact_mod_cast h3
    unfold blockLengthTicks
    have hle := h.le_thirty
    have h4 := h.four_le
    rw [hu, Int.toNat_natCast, if_neg (by omega), if_neg (by omega), show k - 4 + 4 = k by omega,
      Nat.mod_eq_of_lt h.range, ← h3', Nat.mul_div_cancel _ hup']
    congr 1
    unfold toSigned
    have h2' : t < 2 ^ 31 := by exact_mod_cast h2
    rw [if_pos (by omega)]

theorem blockLengthCode_of_samples {b : Band} {timescale k : Nat} (h : b.BlockIs timescale k)
    (hu : b.upperFrequencyLimit < 2 ^ 16) (n : Nat) (hn1 : 1 ≤ n) (hn2 : n < 2 ^ 31)
    (hs : ⌊(2 : ℚ) ^ k * fl64 (fl64 (1 / b.upperFrequencyLimit) * b.upperFrequencyLimit)⌋ = n) :
    blockLengthCode timescale b = .ok ((Nat.log2 n : Int) - 4) := by
  obtain ⟨ticks, h1, h2, -⟩ := block_ratio h
  have hts := h.timescale
  unfold blockLengthCode
  rw [h1]
  dsimp only
  rw [if_neg (by omega), h2, samples_scale h.up hu, hs, if_pos ⟨by exact_mod_cast hn1, by exact_mod_cast hn2⟩,
    Int.toNat_natCast]

/-- **C10 (partial)** A wavelet band whose block has `2^k` samples, `4 ≤ k`, is read back with the block
length it had (and the rest of its header), if in double precision `u * (1 / u) = 1` for its upper
frequency `u`.  Missing: the other frequencies, see `c10_negation`. -/
theorem c10_block_length_partial (timescale k : Nat) (b : Band) (hb : b.bandType = BandType.WaveletWave)
    (h : b.FileHeaderFits) (hk : b.BlockIs timescale k) (hu : ReciprocalExact b.upperFrequencyLimit) :
    ∃ bits, writeBandHeader timescale b = .ok bits ∧
      ∀ rest, readBandHeader timescale (bits ++ rest) = .ok (b.storedHeader, rest) := by
  obtain ⟨ticks, h1, -, h3⟩ := block_ratio hk
  have hle := hk.le_thirty
  have h4 := hk.four_le
  have hnc : b.bandType ≠ BandType.Curve := by rw [hb]; decide
  have hcode : blockLengthCode timescale b = .ok (((k - 4 : Nat) : Int)) := by
    rw [blockLengthCode_of_samples hk h.up.2 (2 ^ k) Nat.one_le_two_pow
      (Nat.pow_lt_pow_right (by norm_num) (by omega))]
    · rw [Nat.log2_two_pow]; congr 1; omega
    · rw [hu, mul_one]
      have : ((2 : ℚ) ^ k) = (((2 ^ k : Nat) : Int) : ℚ) := by push_cast; rfl
      rw [this, Int.floor_intCast]
  unfold Band.storedHeader
  rw [if_neg hnc, if_pos hb, h1]
  refine readHeader_w timescale b h (writeNBits MDBAND_BLK_LEN ((k - 4 : Nat) : Int)) _ (k - 4) ticks ?_ ?_ ?_
  · rw [writeBandParam, if_neg hnc, if_pos hb, hcode]
  · intro r
    rw [readBandParam, if_neg hnc, if_pos hb]
    have hlt : k - 4 < 2 ^ MDBAND_BLK_LEN := by
      have : (2 : Nat) ^ MDBAND_BLK_LEN = 256 := rfl
      omega
    simp only [Rd.bind_apply, frdU_writeNBits MDBAND_BLK_LEN (k - 4) _ hlt, Rd.pure_apply]
  · rw [if_pos hb, h3]

/-- The condition holds for powers of two. -/
theorem reciprocalExact_two_pow (n : Nat) (h : n ≤ 1022) : ReciprocalExact (2 ^ n) := by
  unfold ReciprocalExact
  have e : (1 : ℚ) / 2 ^ n = 2 ^ (-(n : ℤ)) := by rw [zpow_neg, zpow_natCast, one_div]
  rw [e, fl64_two_zpow _ (by omega), zpow_neg, zpow_natCast, inv_mul_cancel₀ (by positivity), fl64_one]

/-- **C10** For upper frequencies below 49 Hz the condition of `c10_block_length_partial` holds. -/
theorem c10_below_49 (timescale k : Nat) (b : Band) (hb : b.bandType = BandType.WaveletWave)
    (h : b.FileHeaderFits) (hk : b.BlockIs timescale k) (hu : b.upperFrequencyLimit < 49) :
    ∃ bits, writeBandHeader timescale b = .ok bits ∧
      ∀ rest, readBandHeader timescale (bits ++ rest) = .ok (b.storedHeader, rest) := by
  refine c10_block_length_partial timescale k b hb h hk ?_
  have hup := hk.up
  generalize b.upperFrequencyLimit = u at hup hu
  obtain ⟨v, rfl⟩ := Int.eq_ofNat_of_zero_le hup.le
  have key : ∀ v < 49, 0 < v → ReciprocalExact (v : Nat) := by decide +kernel
  exact_mod_cast key v (by omega) (by omega)

/-- Non-vacuity: blocks of 32 samples at 1000 Hz, in ticks of a millisecond. -/
example : ∃ b : Band, b.bandType = BandType.WaveletWave ∧ b.FileHeaderFits ∧ b.BlockIs 1000 5 ∧
    ReciprocalExact b.upperFrequencyLimit := by
  refine ⟨{ bandType := BandType.WaveletWave, blockLength := some 32, upperFrequencyLimit := 1000 }, rfl,
    ⟨by decide, by decide, by decide, by decide, by decide⟩,
    ⟨by decide, by decide, by decide, ⟨32, rfl, by decide, by decide⟩, by decide, by decide⟩, ?_⟩
  decide +kernel

/-- **C10, violated.**  At an upper frequency of 49 Hz every block length of `2^k` samples, `5 ≤ k`, is
read back as half of what it was, whatever the timescale (a multiple of 49). -/
theorem c10_negation (m k : Nat) (hm : 0 < m) (hk : 5 ≤ k) (hk' : k ≤ 30) (hr : 2 ^ k * (49 * m) < 2 ^ 32) :
    let b : Band := { bandType := BandType.WaveletWave, blockLength := some (2 ^ k * m : Nat)
                      upperFrequencyLimit := 49 }
    b.BlockIs (49 * m) k ∧ ∃ bits, writeBandHeader (49 * m) b = .ok bits ∧
      ∀ rest, readBandHeader (49 * m) (bits ++ rest)
        = .ok ({ b with blockLength := some (2 ^ (k - 1) * m : Nat) }, rest) := by
  intro b
  have hblock : b.BlockIs (49 * m) k := by
    refine ⟨by omega, hk', (by decide : (0 : Int) < 49), ⟨_, rfl, ?_, ?_⟩, hr, by omega⟩
    · have : 2 ^ k * m < 2 ^ 31 := by
        have : 2 ^ k * (49 * m) = 49 * (2 ^ k * m) := by ring
        omega
      exact_mod_cast this
    · show ((2 ^ k * m : Nat) : Int) * 49 = 2 ^ k * ((49 * m : Nat) : Int)
      push_cast; ring
  refine ⟨hblock, ?_⟩
  have hf : fl64 (fl64 (1 / ((49 : Int) : ℚ)) * ((49 : Int) : ℚ)) = 1 - (2 : ℚ) ^ (-53 : ℤ) := by
    decide +kernel
  have hpow : 2 ^ k = 2 * 2 ^ (k - 1) := by rw [← pow_succ', Nat.sub_add_cancel (by omega)]
  have h1 : 1 ≤ 2 ^ (k - 1) := Nat.one_le_two_pow
  have hk31 : 2 ^ k < 2 ^ 31 := Nat.pow_lt_pow_right (by norm_num) (by omega)
  have hcode : blockLengthCode (49 * m) b = .ok (((k - 5 : Nat) : Int)) := by
    rw [blockLengthCode_of_samples hblock (by decide : (49 : Int) < 2 ^ 16) (2 ^ k - 1) (by omega) (by omega)]
    · have : Nat.log2 (2 ^ k - 1) = k - 1 := by
        rw [Nat.log2_eq_iff (by omega), Nat.sub_add_cancel (by omega)]
        omega
      rw [this]; congr 1; omega
    · show ⌊(2 : ℚ) ^ k * fl64 (fl64 (1 / ((49 : Int) : ℚ)) * ((49 : Int) : ℚ))⌋ = _
      rw [hf, Int.floor_eq_iff]
      have hq : (2 : ℚ) ^ k ≤ 2 ^ 30 := pow_le_pow_right₀ (by norm_num) hk'
      have hq1 : (0 : ℚ) < 2 ^ k := by positivity
      have hc : (((2 ^ k - 1 : Nat) : Int) : ℚ) = 2 ^ k - 1 := by
        rw [Int.cast_natCast, Nat.cast_sub (by omega)]; push_cast; rfl
      rw [hc]
      norm_num
      nlinarith
  have hparam : writeBandParam (49 * m) b = .ok (writeNBits MDBAND_BLK_LEN ((k - 5 : Nat) : Int)) := by
    rw [writeBandParam, if_neg (by decide : ¬ BandType.WaveletWave = BandType.Curve), if_pos rfl, hcode]
  have := readHeader_w (49 * m) b ⟨(by decide : BandType.WaveletWave < 8),
    (fun h => absurd h (by decide : ¬ BandType.WaveletWave = BandType.Curve)), (by decide : U 16 0), (by decide : U 16 49), (by decide : 0 < 65536)⟩ _ none (k - 5)
    (2 ^ (k - 1) * m : Nat) hparam (by
      intro r
      rw [readBandParam, if_neg (by decide : ¬ BandType.WaveletWave = BandType.Curve), if_pos rfl]
      have hlt : k - 5 < 2 ^ MDBAND_BLK_LEN := by
        have : (2 : Nat) ^ MDBAND_BLK_LEN = 256 := rfl
        omega
      simp only [Rd.bind_apply, frdU_writeNBits MDBAND_BLK_LEN (k - 5) _ hlt, Rd.pure_apply]) (by
      rw [if_pos rfl]
      show blockLengthTicks (49 * m) (k - 5) 49 = _
      have e : 2 ^ (k - 1) * (49 * m) = 2 ^ (k - 1) * m * 49 := by ring
      have e2 : 2 ^ k * (49 * m) = 2 * (2 ^ (k - 1) * m * 49) := by rw [hpow]; ring
      unfold blockLengthTicks
      rw [if_neg (by omega), if_neg (by omega), show k - 5 + 4 = k - 1 by omega, e,
        Nat.mod_eq_of_lt (by omega), Nat.mul_div_cancel _ (by norm_num)]
      congr 1
      unfold toSigned
      rw [if_pos (by omega)])
  exact this

end Haptics.Binary
