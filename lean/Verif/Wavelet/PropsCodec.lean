import Verif.Wavelet.PropsTransform
import Verif.Wavelet.PropsSignal
import Verif.Wavelet.Codec

/-! C85: what the wavelet codec makes of a signal. -/

namespace Haptics.Wavelet
open Haptics Finset Transform

theorem transformBlock_length (k : ℕ) (hk : 3 ≤ k) (block : List ℚ) (h : block.length = 2 ^ k) :
    (transformBlock block).length = 2 ^ k := by
  have e : 4 * 2 ^ (k - 2) = 2 ^ k := by
    obtain ⟨d, rfl⟩ : ∃ d, k = d + 2 := ⟨k - 2, by omega⟩
    rw [Nat.add_sub_cancel, pow_add]; ring
  unfold transformBlock
  rw [h, dwtLevel_pow k hk, dwt_rec fl64 4 (k - 2) (by omega) (by omega) block (by omega)]
  simp only
  rw [dwtRec_length fl64 4 (k - 2) block (by omega), e]

theorem block_close (k : ℕ) (hk : 3 ≤ k) (block : List ℚ) (hb : block.length = 2 ^ k) (M : ℚ) (hM : 1 ≤ M)
    (hx : ∀ v ∈ block, |v| ≤ M) (budget : ℤ) (coeffs : List ℚ)
    (hp : Precise k budget (transformBlock block) coeffs) :
    ∃ bits : List ℕ, bits.length = bands k ∧ (∀ n ∈ bits, n ≤ 15) ∧ bits.sum = (min budget (15 * bands k)).toNat ∧
      Close (precisionOf k M block bits) (inverseBlock (k - 2) coeffs) block := by
  unfold precisionOf
  have e : 4 * 2 ^ (k - 2) = 2 ^ k := by
    obtain ⟨d, rfl⟩ : ∃ d, k = d + 2 := ⟨k - 2, by omega⟩
    rw [Nat.add_sub_cancel, pow_add]; ring
  obtain ⟨bits, h1, h2, h3, h4, h5⟩ := hp
  refine ⟨bits, h1, h2, h3, ?_⟩
  obtain ⟨c, c1, c2, c3⟩ := transform_err rounding_fl64 4 (k - 2) (by omega) (by omega) block (by omega) M hM hx
  have ec : transformBlock block = c := by
    unfold transformBlock
    rw [hb, dwtLevel_pow k hk, c1]
  rw [ec] at h5 ⊢
  have hle := (findMax_ge c).2
  have hm : 0 ≤ maximumCoefficient c := (maximum_spec c).2.1
  obtain ⟨y, y1, y2⟩ := c3 coeffs (fun b => maximumCoefficient c / 2 ^ bits.getD b 0 +
      excess (maximumCoefficient c) (findMax c)) (by rw [h4, c2, hb])
    (fun b => add_nonneg (by positivity) (excess_nonneg _ _)) (by
      intro b hb' i hi
      refine (h5 b (by unfold bands; omega) i (by cases b <;> exact hi)).trans (add_le_add le_rfl (excess_mono _ _ _ ?_))
      rw [abs_of_nonneg (findMax_ge c).1]
      have hil : i < c.length := by
        rw [c2, hb, ← e]
        match b, hb', hi with
        | 0, _, hi => exact lt_of_lt_of_le hi (Nat.le_mul_of_pos_right _ (by positivity))
        | b + 1, hb', hi =>
          exact lt_of_lt_of_le hi.2 (Nat.mul_le_mul_left _ (Nat.pow_le_pow_right (by norm_num) hb'))
      rw [List.getD_eq_getElem?_getD, List.getElem?_eq_getElem hil, Option.getD_some]
      exact hle _ (List.getElem_mem _))
  unfold inverseBlock
  rw [y1]
  exact y2

/-- **C85.** A signal is encoded by the wavelet encoder in blocks of `2 ^ k` samples that last a whole number of ticks,
and decoded.  Every block has its position and its length, and none of its samples is off by more than what its bands
allow: the maximum of the block divided by two to the power of the bits of band 0, and 6/5 of that of each other band; and,
for each band, by what the largest coefficient exceeds the maximum, which is at most 1/128 if it is not above 1 + 127/8
(C43). -/
theorem c85_signal (k : ℕ) (hk : 3 ≤ k) (fs : ℕ) (hfs : 0 < fs) (hd : fs ∣ 2 ^ k * 1000) (lg : ℚ → ℚ)
    (pm : List ℚ → Model) (budget : ℤ) (sig : List ℚ) (M : ℚ) (hM : 1 ≤ M) (hsig : ∀ v ∈ sig, |v| ≤ M)
    (hfit : ∀ block ∈ splitLoop (2 ^ k) sig (numBlocks (2 ^ k) sig.length) 0,
      BudgetFits k (transformBlock block) (maximumCoefficient (transformBlock block)) (pm block) budget)
    (hlen : (sig.length + 2 ^ k) * 1000 < 2 ^ 53)
    (e : Spiht.Encoder) (he : e.counters = Spiht.resetCounters) (d : Spiht.Decoder) (hdc : d.counters = Spiht.resetCounters) :
    ∃ band out, encodeSignal lg transformBlock pm (2 ^ k) fs 1000 budget sig e = .ok band ∧
      transformBand inverseBlock band 1000 d = .ok out ∧
      List.Forall₂ (fun block r => ∃ bits : List ℕ, bits.length = bands k ∧ (∀ n ∈ bits, n ≤ 15) ∧
          bits.sum = (min budget (15 * bands k)).toNat ∧
          Close (precisionOf k M block bits) r block)
        (splitLoop (2 ^ k) sig (numBlocks (2 ^ k) sig.length) 0) (out.map (·.2)) ∧
      out.map (·.1) = band.effects.map (·.1) := by
  obtain ⟨band, out, h1, h2, h3, h4⟩ := c67_signal k hk fs hfs hd lg transformBlock
    (transformBlock_length k hk) pm budget inverseBlock sig hfit hlen e he d hdc
  refine ⟨band, out, h1, h2, ?_, h4⟩
  obtain ⟨-, s2, s3⟩ := c42_blocks (2 ^ k) (by positivity) sig
  have hblock : ∀ block ∈ splitLoop (2 ^ k) sig (numBlocks (2 ^ k) sig.length) 0, ∀ v ∈ block, |v| ≤ M := by
    intro block hb v hv
    have : v ∈ (splitLoop (2 ^ k) sig (numBlocks (2 ^ k) sig.length) 0).flatten := List.mem_flatten.2 ⟨block, hb, hv⟩
    obtain ⟨n, -, hn⟩ := s3
    rw [hn, List.mem_append] at this
    rcases this with h | h
    · exact hsig v h
    · rw [(List.mem_replicate.1 h).2, abs_zero]; linarith
  refine List.Forall₂.imp ?_ ((List.forall₂_and_left _ _).2 ⟨fun b hb => hb, h3⟩)
  rintro block r ⟨hb, coeffs, hp, rfl⟩
  exact block_close k hk block (s2 block hb) M hM (hblock block hb) budget coeffs hp

/-- A block of eight samples at 8 kHz, with a budget of 12 bits. -/
example : ∃ band out, encodeSignal (fun x => x) transformBlock (fun _ => ⟨[1, 2], [.fin 0, .fin 3]⟩) (2 ^ 3) 8000 1000 12
      [0, 1 / 8, 1 / 4, 1 / 8, 0, -1 / 8, -1 / 4, -1 / 8] {} = .ok band ∧
    transformBand inverseBlock band 1000 {} = .ok out ∧ out.map (·.1) = band.effects.map (·.1) := by
  have hs : splitLoop (2 ^ 3) [0, 1 / 8, 1 / 4, 1 / 8, 0, -1 / 8, -1 / 4, -1 / 8] (numBlocks (2 ^ 3) 8) 0 =
      [[0, 1 / 8, 1 / 4, 1 / 8, 0, -1 / 8, -1 / 4, -1 / 8]] := by decide +kernel
  obtain ⟨band, out, h1, h2, -, h4⟩ := c85_signal 3 (by omega) 8000 (by omega) (by decide) (fun x => x)
    (fun _ => ⟨[1, 2], [.fin 0, .fin 3]⟩) 12 [0, 1 / 8, 1 / 4, 1 / 8, 0, -1 / 8, -1 / 4, -1 / 8] 1 le_rfl
    (by decide +kernel) (by
      intro block hb
      have hb : block ∈ splitLoop (2 ^ 3) [0, 1 / 8, 1 / 4, 1 / 8, 0, -1 / 8, -1 / 4, -1 / 8] (numBlocks (2 ^ 3) 8) 0 :=
        hb
      rw [hs, List.mem_singleton] at hb
      subst hb
      exact .inl (by omega))
    (by simp) {} rfl {} rfl
  exact ⟨band, out, h1, h2, h4⟩

end Haptics.Wavelet
