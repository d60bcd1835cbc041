import Verif.Psycho.PropsSmr
import Verif.Wavelet.PropsCodec

/-! C85 with the psychohaptic model of the encoder. -/

namespace Haptics.Psycho
open Haptics Haptics.Wavelet

/-- The bits can be spent on the block: there are at most 15 of them, or its spectrum has a bin that is not zero in each
band and there are at most 15 bits for each band that is not reproduced exactly, or it is silent and there are at most 30. -/
def Spends (lib : Lib) (k : ℕ) (budget : ℤ) (block : List ℚ) : Prop :=
  budget ≤ 15 ∨
  (∀ b < bands k, ∃ i ∈ bins b, power lib (2 ^ k) block i ≠ 0) ∧
    (∃ G : Finset ℕ, (∀ b ∈ G, b < bands k ∧
        Inexact (transformBlock block) (maximumCoefficient (transformBlock block)) b) ∧
      min budget (15 * bands k) ≤ 15 * G.card) ∨
  budget ≤ 30 ∧ ∀ v ∈ block, v = 0

/-- **C85.** The whole wavelet codec, with the psychohaptic model: a signal is encoded in blocks of `2 ^ k` samples that
last a whole number of ticks, and decoded.  Every block has its position and its length, and none of its samples is off by
more than what the bits of its bands allow. -/
theorem c85_codec (lib : Lib) (hl : lib.Sane) (bottom : ℚ) (k : ℕ) (hk : 3 ≤ k) (fs : ℕ) (hfs : 0 < fs)
    (hd : fs ∣ 2 ^ k * 1000) (lg : ℚ → ℚ) (budget : ℤ) (sig : List ℚ) (M : ℚ) (hM : 1 ≤ M) (hsig : ∀ v ∈ sig, |v| ≤ M)
    (hfit : ∀ block ∈ splitLoop (2 ^ k) sig (numBlocks (2 ^ k) sig.length) 0, Spends lib k budget block)
    (hlen : (sig.length + 2 ^ k) * 1000 < 2 ^ 53)
    (e : Spiht.Encoder) (he : e.counters = Spiht.resetCounters) (d : Spiht.Decoder) (hdc : d.counters = Spiht.resetCounters) :
    ∃ band out, encodeSignal lg transformBlock (ratios lib bottom (2 ^ k) fs) (2 ^ k) fs 1000 budget sig e = .ok band ∧
      transformBand inverseBlock band 1000 d = .ok out ∧
      List.Forall₂ (fun block r => ∃ bits : List ℕ, bits.length = bands k ∧ (∀ n ∈ bits, n ≤ 15) ∧
          bits.sum = (min budget (15 * bands k)).toNat ∧
          Transform.Close (precisionOf k M block bits) r block)
        (splitLoop (2 ^ k) sig (numBlocks (2 ^ k) sig.length) 0) (out.map (·.2)) ∧
      out.map (·.1) = band.effects.map (·.1) := by
  refine c85_signal k hk fs hfs hd lg _ budget sig M hM hsig (fun block hb => ?_) hlen e he d hdc
  obtain ⟨-, s2, -⟩ := c42_blocks (2 ^ k) (by positivity) sig
  have hbl := s2 block hb
  refine c93_fits lib hl bottom k fs hk hfs block _ hbl _ budget ?_
  rcases hfit block hb with h | h | ⟨h, hz⟩
  · exact .inl h
  · exact .inr (.inl h)
  · refine .inr (.inr ⟨h, ?_⟩)
    have e0 : block = List.replicate (2 ^ k) 0 := List.eq_replicate_iff.2 ⟨hbl, hz⟩
    rw [e0, transform_silent k hk]
    exact fun v hv => (List.mem_replicate.1 hv).2

theorem between_steps (x m : ℚ) (hm : 0 < m) (q : ℤ) (h1 : m * q / 2 ^ 15 + 1 / 2 ^ 500 ≤ x)
    (h2 : x + 1 / 2 ^ 500 ≤ m * (q + 1) / 2 ^ 15) (n : ℤ) : 1 / 2 ^ 500 ≤ |x - m * n / 2 ^ 15| := by
  rcases le_or_gt n q with h | h
  · have hc : (n : ℚ) ≤ q := by exact_mod_cast h
    have : m * n / 2 ^ 15 ≤ m * q / 2 ^ 15 := by gcongr
    exact le_trans (by linarith) (le_abs_self _)
  · have hc : (q : ℚ) + 1 ≤ n := by exact_mod_cast h
    have : m * (q + 1) / 2 ^ 15 ≤ m * n / 2 ^ 15 := by gcongr
    exact le_trans (by linarith) (neg_le_abs _)

/-- A block of eight samples and 30 bits, 15 for each band. -/
example : ∃ lib : Lib, lib.Sane ∧ Spends lib 3 30 [1 / 3, 1 / 8, 1 / 4, 1 / 8, 1 / 16, -1 / 8, -1 / 4, -1 / 8] := by
  obtain ⟨lib, h1, -, h3⟩ := lib_exists
  have ht : transformBlock [1 / 3, 1 / 8, 1 / 4, 1 / 8, 1 / 16, -1 / 8, -1 / 4, -1 / 8] =
      [5801313578221731 / 18014398509481984, 4751055437633361 / 18014398509481984,
        8134731487759609 / 144115188075855872, -1238318380101869 / 4503599627370496,
        4875791905160807 / 36028797018963968, 7700043690569197 / 288230376151711744,
        1453286438792985 / 72057594037927936, -1159453068763965 / 9007199254740992] := by decide +kernel
  refine ⟨lib, h1, .inr (.inl ⟨?_, {0, 1}, ?_, by decide⟩)⟩
  · unfold power
    rw [h3]
    intro b hb
    have : b = 0 ∨ b = 1 := by unfold bands at hb; omega
    rcases this with rfl | rfl
    · exact ⟨0, by decide, by decide +kernel⟩
    · exact ⟨4, by decide, by decide +kernel⟩
  · have hm : maximumCoefficient [5801313578221731 / 18014398509481984, 4751055437633361 / 18014398509481984,
        8134731487759609 / 144115188075855872, -1238318380101869 / 4503599627370496,
        4875791905160807 / 36028797018963968, 7700043690569197 / 288230376151711744,
        1453286438792985 / 72057594037927936, -1159453068763965 / 9007199254740992] = 21 / 64 := by decide +kernel
    rw [ht, hm]
    intro b hb
    have : b = 0 ∨ b = 1 := by simpa using hb
    rcases this with rfl | rfl
    · exact ⟨by decide, 0, by simp [InBand], between_steps _ _ (by norm_num) 32160 (by decide +kernel) (by decide +kernel)⟩
    · exact ⟨by decide, 4, by simp [InBand], between_steps _ _ (by norm_num) 13514 (by decide +kernel) (by decide +kernel)⟩

end Haptics.Psycho
