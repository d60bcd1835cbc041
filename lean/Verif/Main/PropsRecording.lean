import Verif.Main.Recording
import Verif.Main.SpecRecording
import Verif.Eval.PropsPlayback
import Verif.Wavelet.PropsCodec
import Verif.Tools.PropsWav

/-! C89: a recording that is encoded and synthesized. -/

namespace Haptics.Recording
open Haptics Haptics.Wavelet Haptics.Playback

/-- The bands of a block can use up the bits that are given to them. -/
def Fits (k : ℕ) (budget : ℤ) (pm : List ℚ → Model) (block : List ℚ) : Prop :=
  BudgetFits k (transformBlock block) (maximumCoefficient (transformBlock block)) (pm block) budget

/-- The bits that are given to the bands of a block. -/
def Budgeted (k : ℕ) (budget : ℤ) (bits : List ℕ) : Prop :=
  bits.length = bands k ∧ (∀ n ∈ bits, n ≤ 15) ∧ bits.sum = (min budget (15 * bands k)).toNat

/-- The precision of sample `i` of a signal of amplitude at most `M`, with the given bits for its block. -/
def precision (k : ℕ) (M : ℚ) (sig : List ℚ) (i : ℕ) (bits : List ℕ) : ℚ :=
  precisionOf k M (blockOf k sig i) bits

/-! ### Mixing -/

theorem limited_of_le {x : ℚ} (h1 : -1 ≤ x) (h2 : x ≤ 1) : limited x = x := by
  unfold limited
  rw [min_eq_right h2, max_eq_right h1]

theorem limited_dist (x y : ℚ) : |limited x - limited y| ≤ |x - y| := by
  unfold limited
  have key : ∀ a b : ℚ, a ≤ b → max (-1) (min 1 a) ≤ max (-1) (min 1 b) ∧
      max (-1) (min 1 b) - max (-1) (min 1 a) ≤ b - a := by
    intro a b hab
    rcases max_cases (-1) (min 1 a) with ⟨p, p'⟩ | ⟨p, p'⟩ <;> rcases max_cases (-1) (min 1 b) with ⟨q, q'⟩ | ⟨q, q'⟩ <;>
      rcases min_cases 1 a with ⟨u, u'⟩ | ⟨u, u'⟩ <;> rcases min_cases 1 b with ⟨w, w'⟩ | ⟨w, w'⟩ <;>
      constructor <;> linarith
  rcases le_total x y with h | h
  · have := key x y h
    rw [abs_sub_comm, abs_sub_comm x y, abs_of_nonneg (by linarith), abs_of_nonneg (by linarith)]
    exact this.2
  · have := key y x h
    rw [abs_of_nonneg (by linarith), abs_of_nonneg (by linarith)]
    exact this.2

theorem limited_mem (x : ℚ) : -1 ≤ limited x ∧ limited x ≤ 1 := by
  unfold limited
  exact ⟨le_max_left _ _, max_le (by norm_num) (min_le_left _ _)⟩

theorem mix_eq (a v : ℚ) : mix a v = limited (fl64 (a + v)) := by
  unfold mix limited
  simp only
  split
  · next h => rw [min_eq_right (by linarith), max_eq_left h.le]
  · next h =>
    split
    · next h' => rw [min_eq_left (by linarith), max_eq_right (by norm_num)]
    · next h' => rw [min_eq_right (by linarith), max_eq_right (by linarith)]

theorem fl64_near (x : ℚ) : |fl64 x - x| ≤ |x| / 2 ^ 53 + 1 / 2 ^ 100 := Transform.rounding_fl64 x

/-- Rounding a sum that is then limited costs at most 2⁻⁵². -/
theorem limited_fl64 (s : ℚ) : |limited (fl64 s) - limited s| ≤ 1 / 2 ^ 52 := by
  have one : fl64 1 = 1 := fl64_one
  rcases le_or_gt 1 s with h | h
  · have := fl64_mono h
    rw [one] at this
    unfold limited
    rw [min_eq_left this, min_eq_left h, sub_self, abs_zero]
    norm_num
  · rcases le_or_gt s (-1) with h' | h'
    · have := fl64_mono h'
      rw [show fl64 (-1) = -1 by rw [show fl64 (-1) = -fl64 1 from flo_neg 53 (-1022) 1, one]] at this
      unfold limited
      rw [min_eq_right (by linarith), min_eq_right (by linarith), max_eq_left this, max_eq_left h', sub_self, abs_zero]
      norm_num
    · refine (limited_dist _ _).trans ((fl64_near s).trans ?_)
      have : |s| ≤ 1 := abs_le.2 ⟨h'.le, h.le⟩
      have : |s| / 2 ^ 53 ≤ 1 / 2 ^ 53 := by gcongr
      refine (add_le_add_left this _).trans ?_
      norm_num

/-! ### The decoded samples -/

theorem inverseBlock_double (k : ℕ) (hk : 3 ≤ k) (coeffs : List ℚ) (h : coeffs.length = 2 ^ k) :
    (inverseBlock (k - 2) coeffs).length = 2 ^ k ∧ ∀ s ∈ inverseBlock (k - 2) coeffs, fl64 s = s := by
  obtain ⟨d, rfl⟩ : ∃ d, k = d + 1 + 2 := ⟨k - 3, by omega⟩
  have e : 4 * 2 ^ (d + 1) = 2 ^ (d + 1 + 2) := by rw [pow_add _ (d + 1)]; ring
  unfold inverseBlock
  rw [Nat.add_sub_cancel, Transform.invDwt_rec fl64 4 (d + 1) (by omega) coeffs (by omega)]
  simp only
  refine ⟨by rw [Transform.invRec_length fl64 4 _ _ (by omega), e], ?_⟩
  intro s hs
  rw [Transform.invRec, Transform.synth] at hs
  obtain ⟨j, -, rfl⟩ := List.mem_map.1 hs
  exact fl64_fl64 _

/-- The blocks of a signal, as the encoder makes them. -/
def blocksOf (k : ℕ) (sig : List ℚ) : List (List ℚ) := splitLoop (2 ^ k) sig (numBlocks (2 ^ k) sig.length) 0

theorem blocksOf_spec (k : ℕ) (sig : List ℚ) : (∀ b ∈ blocksOf k sig, b.length = 2 ^ k) ∧
    (∃ n < 2 ^ k, (blocksOf k sig).flatten = sig ++ List.replicate n 0) ∧
    ∀ (c : ℕ) (hc : c < (blocksOf k sig).length), c * 2 ^ k < sig.length ∧ (blocksOf k sig)[c] = blockOf k sig (c * 2 ^ k) := by
  have hpk : 0 < 2 ^ k := by positivity
  obtain ⟨s1, s2, n, hn, s3⟩ := c42_blocks (2 ^ k) hpk sig
  refine ⟨s2, ⟨n, hn, s3⟩, ?_⟩
  intro c hc
  have hfl := flatten_length (blocksOf k sig) s2
  rw [show (blocksOf k sig).flatten = _ from s3, List.length_append, List.length_replicate] at hfl
  constructor
  · have := Nat.mul_le_mul_right (2 ^ k) hc
    rw [Nat.succ_mul] at this
    omega
  · have hl : ((blocksOf k sig)[c]).length = 2 ^ k := s2 _ (List.getElem_mem _)
    apply List.ext_getElem
    · unfold blockOf
      rw [hl, List.length_map, List.length_range]
    · intro r h1 h2
      have := flatten_getD (blocksOf k sig) s2 c r hc (by omega)
      simp only [blockOf, List.getElem_map, List.getElem_range]
      rw [Nat.mul_div_cancel _ hpk]
      rw [List.getD_eq_getElem?_getD (l := (blocksOf k sig)[c]), List.getElem?_eq_getElem h1, Option.getD_some] at this
      rw [← this, show (blocksOf k sig).flatten = _ from s3]
      rw [List.getD_eq_getElem?_getD, List.getD_eq_getElem?_getD]
      rcases lt_or_ge (c * 2 ^ k + r) sig.length with h | h
      · rw [List.getElem?_append_left h]
      · rw [List.getElem?_append_right h, List.getElem?_replicate, List.getElem?_eq_none h]
        split <;> rfl

theorem blockOf_div (k : ℕ) (sig : List ℚ) (i : ℕ) : blockOf k sig (i / 2 ^ k * 2 ^ k) = blockOf k sig i := by
  unfold blockOf
  rw [Nat.mul_div_cancel _ (by positivity)]

theorem wave_close (k : ℕ) (hk : 3 ≤ k) (fs : ℕ) (hfs : 0 < fs) (hfs' : fs < 2 ^ 31) (hd : fs ∣ 2 ^ k * 1000)
    (lg : ℚ → ℚ) (pm : List ℚ → Model) (budget : ℤ) (sig : List ℚ) (M : ℚ) (hM : 1 ≤ M) (hsig : ∀ v ∈ sig, |v| ≤ M)
    (hfit : ∀ i < sig.length, Fits k budget pm (blockOf k sig i))
    (hlen : sig.length + 2 ^ k ≤ 2 ^ 31)
    (e : Spiht.Encoder) (he : e.counters = Spiht.resetCounters) (d : Spiht.Decoder) (hdc : d.counters = Spiht.resetCounters) :
    ∃ band out, encodeSignal lg transformBlock pm (2 ^ k) fs 1000 budget sig e = .ok band ∧
      transformBand inverseBlock band 1000 d = .ok out ∧
      ∀ ti < sig.length, ∃ i v bits, SamePlace fs ti i ∧ sample out 1000 fs fs 0 ti = .ok v ∧ Budgeted k budget bits ∧
        |v - sig.getD i 0| ≤ precision k M sig i bits := by
  have hpk : 0 < 2 ^ k := by positivity
  obtain ⟨s2, ⟨n, hn, s3⟩, s4⟩ := blocksOf_spec k sig
  have hfit : ∀ block ∈ blocksOf k sig, Fits k budget pm block := by
    intro block hb
    obtain ⟨c, hc, rfl⟩ := List.mem_iff_getElem.1 hb
    rw [(s4 c hc).2]
    exact hfit _ (s4 c hc).1
  have hblock : ∀ block ∈ blocksOf k sig, ∀ v ∈ block, |v| ≤ M := by
    intro block hb v hv
    have : v ∈ (blocksOf k sig).flatten := List.mem_flatten.2 ⟨block, hb, hv⟩
    rw [s3, List.mem_append] at this
    rcases this with h | h
    · exact hsig v h
    · rw [(List.mem_replicate.1 h).2, abs_zero]; linarith
  obtain ⟨band, out, h1, h2, h3, -⟩ := c67_signal k hk fs hfs hd lg transformBlock
    (transformBlock_length k hk) pm budget inverseBlock sig hfit
    (by omega) e he d hdc
  refine ⟨band, out, h1, h2, ?_⟩
  have h3' : List.Forall₂ (fun block r => r.length = 2 ^ k ∧ (∀ s ∈ r, fl64 s = s) ∧ ∃ bits, Budgeted k budget bits ∧
      Transform.Close (precisionOf k M block bits) r block)
      (blocksOf k sig) (out.map (·.2)) := by
    refine List.Forall₂.imp ?_ ((List.forall₂_and_left _ _).2 ⟨fun b hb => hb, h3⟩)
    rintro block r ⟨hb, coeffs, hp, rfl⟩
    have hc : coeffs.length = 2 ^ k := hp.choose_spec.2.2.2.1
    obtain ⟨g1, g2⟩ := inverseBlock_double k hk coeffs hc
    refine ⟨g1, g2, ?_⟩
    obtain ⟨bits, b1, b2, b3, b4⟩ := block_close k hk block (s2 block hb) M hM (hblock block hb) budget coeffs hp
    exact ⟨bits, ⟨b1, b2, b3⟩, b4⟩
  have hband : band.upper = fs ∧ band.blockLength = blockTicks (2 ^ k) 1000 fs := by
    unfold encodeSignal at h1
    rw [if_neg (by omega)] at h1
    simp only [bind, Except.bind] at h1
    split at h1
    · exact absurd h1 (by simp)
    · rw [← Except.ok.inj h1]
      exact ⟨rfl, rfl⟩
  have hol : ∀ b ∈ out.map (·.2), b.length = 2 ^ k ∧ ∀ s ∈ b, fl64 s = s := by
    intro b hb
    obtain ⟨i, hi, rfl⟩ := List.mem_iff_getElem.1 hb
    have hl := h3'.length_eq
    have := (List.forall₂_iff_get.1 h3').2 i (by omega) hi
    exact ⟨this.1, this.2.1⟩
  have hlo : (out.map (·.2)).flatten.length = (blocksOf k sig).flatten.length := by
    rw [flatten_length _ (fun b hb => (hol b hb).1), flatten_length _ s2, h3'.length_eq]
  have hfll : (blocksOf k sig).flatten.length = sig.length + n := by
    rw [s3, List.length_append, List.length_replicate]
  have hplay := c88_transformed_partial inverseBlock band k 1000 d out (by omega) (by norm_num) (by rw [hband.1]; exact hfs)
    (by rw [hband.1]; exact hfs') (by rw [hband.1, hband.2]; exact c67_length k fs hfs hd) (by rw [hband.1]; exact hd) h2
    (fun x hx => (hol _ (List.mem_map.2 ⟨x, hx, rfl⟩)).1) (fun x hx => (hol _ (List.mem_map.2 ⟨x, hx, rfl⟩)).2)
    (by omega)
  rw [hband.1] at hplay
  intro ti hti
  have hti' : ti < (out.map (·.2)).flatten.length := by omega
  obtain ⟨i, hi1, hi2, hi3, hi4⟩ : ∃ i, i ≤ ti ∧ ti ≤ i + 1 ∧ ((∃ f, fs = 2 ^ f) → i = ti) ∧
      sample out 1000 fs fs 0 ti = .ok ((out.map (·.2)).flatten.getD i 0) := by
    by_cases hf : ∃ f, fs = 2 ^ f
    · obtain ⟨f, hf'⟩ := hf
      obtain ⟨i, a1, a2, a3⟩ := hplay.2 f hf' ti hti'
      exact ⟨i, a1, by omega, fun _ => by omega, a3⟩
    · obtain ⟨i, a1, a2, a3⟩ := hplay.1 ti hti'
      exact ⟨i, a1, a2, fun h => absurd h hf, a3⟩
  have hc : i / 2 ^ k < (blocksOf k sig).length := by
    rw [flatten_length _ s2] at hfll
    rw [Nat.div_lt_iff_lt_mul hpk]
    omega
  have hco : i / 2 ^ k < (out.map (·.2)).length := by rw [← h3'.length_eq]; exact hc
  have hr : i % 2 ^ k < 2 ^ k := Nat.mod_lt _ hpk
  have hcr : i / 2 ^ k * 2 ^ k + i % 2 ^ k = i := by rw [Nat.mul_comm]; exact Nat.div_add_mod _ _
  obtain ⟨-, -, bits, hb, hcl⟩ := (List.forall₂_iff_get.1 h3').2 (i / 2 ^ k) hc hco
  refine ⟨i, _, bits, ⟨hi1, hi2, hi3⟩, hi4, hb, ?_⟩
  have e1 := flatten_getD _ (fun b hb => (hol b hb).1) (i / 2 ^ k) (i % 2 ^ k) hco hr
  have e2 := flatten_getD (blocksOf k sig) s2 (i / 2 ^ k) (i % 2 ^ k) hc hr
  rw [hcr] at e1 e2
  have e3 : sig.getD i 0 = (blocksOf k sig).flatten.getD i 0 := by
    rw [s3, List.getD_eq_getElem?_getD, List.getD_eq_getElem?_getD,
      List.getElem?_append_left (by omega)]
  unfold precision
  rw [e1, e3, e2]
  have e4 : blockOf k sig i = (blocksOf k sig)[i / 2 ^ k] := by
    rw [(s4 _ hc).2, blockOf_div]
  rw [e4]
  exact hcl.2 _ (by rw [show (List.get (blocksOf k sig) ⟨i / 2 ^ k, hc⟩).length = 2 ^ k from s2 _ (List.getElem_mem _)]; exact hr)

/-- Rounding to 16 bits costs at most one step. -/
theorem nearest_close {x : ℚ} (h1 : -1 ≤ x) (h2 : x ≤ 1) {q : ℤ} (h : Wav.Nearest x q) :
    |(q / 32768 : ℚ) - x| ≤ 1 / 32768 := by
  rcases le_or_gt x (32767 / 32768) with h' | h'
  · exact (Wav.c39_error x q h1 h' h).trans (by norm_num)
  · have := h.2.2 32767 (by norm_num) (by norm_num)
    have h3 : |((32767 : ℤ) : ℚ) - 32768 * x| ≤ 1 := by
      push_cast
      rw [abs_le]
      constructor <;> linarith
    have := abs_le.1 (this.trans h3)
    rw [abs_le]
    constructor <;> linarith

/-- **C89 (partial).** A recording is encoded in wavelets only, in blocks that last a whole number of ticks, and
synthesized at its own rate: every 16 bit sample of the result differs from the sample of the recording at the same
place (or, at rates that are not powers of two, possibly the one before it) by no more than the precision the bits
of its block allow, and a step of 16 bits.  Missing: that it is always the same place, which is false
(`c88_negation`), and blocks that do not last a whole number of ticks, for which it is false, too
(`c67_length_negation`). -/
theorem c89_wavelet_partial (k : ℕ) (hk : 3 ≤ k) (fs : ℕ) (hfs : 0 < fs) (hfs' : fs < 2 ^ 31) (hd : fs ∣ 2 ^ k * 1000)
    (lg : ℚ → ℚ) (pm : List ℚ → Model) (budget : ℤ) (sig : List ℚ) (hsig : ∀ v ∈ sig, |v| ≤ 1)
    (hfit : ∀ i < sig.length, Fits k budget pm (blockOf k sig i))
    (hlen : sig.length + 2 ^ k ≤ 2 ^ 31)
    (e : Spiht.Encoder) (he : e.counters = Spiht.resetCounters) (d : Spiht.Decoder) (hdc : d.counters = Spiht.resetCounters) :
    ∃ band out, encodeSignal lg transformBlock pm (2 ^ k) fs 1000 budget sig e = .ok band ∧
      transformBand inverseBlock band 1000 d = .ok out ∧
      ∀ ti < sig.length, ∃ i v bits, SamePlace fs ti i ∧ sample out 1000 fs fs 0 ti = .ok v ∧ Budgeted k budget bits ∧
        ∀ q, Wav.Nearest (channelSample [v]) q → |(q / 32768 : ℚ) - sig.getD i 0| ≤
          precision k 1 sig i bits + 1 / 2 ^ 14 := by
  obtain ⟨band, out, h1, h2, h3⟩ := wave_close k hk fs hfs hfs' hd lg pm budget sig 1 le_rfl hsig hfit hlen e he d hdc
  refine ⟨band, out, h1, h2, fun ti hti => ?_⟩
  obtain ⟨i, v, bits, a1, a2, a3, a4⟩ := h3 ti hti
  refine ⟨i, v, bits, a1, a2, a3, fun q hq => ?_⟩
  have hx : |sig.getD i 0| ≤ 1 := by
    rw [List.getD_eq_getElem?_getD, List.getElem?_eq_getElem (show i < sig.length by have := a1.1; omega), Option.getD_some]
    exact hsig _ (List.getElem_mem _)
  have hch : channelSample [v] = limited (fl64 v) := by
    unfold channelSample
    rw [List.foldl_cons, List.foldl_nil, mix_eq, zero_add]
  rw [hch] at hq
  have b1 := nearest_close (limited_mem _).1 (limited_mem _).2 hq
  have b2 := limited_fl64 v
  have b3 := limited_dist v (sig.getD i 0)
  rw [limited_of_le (abs_le.1 hx).1 (abs_le.1 hx).2] at b3
  have e1 : (q / 32768 : ℚ) - sig.getD i 0 = (q / 32768 - limited (fl64 v)) + (limited (fl64 v) - limited v)
      + (limited v - sig.getD i 0) := by ring
  rw [e1]
  refine (abs_add_three _ _ _).trans ?_
  have : (1 : ℚ) / 32768 + 1 / 2 ^ 52 ≤ 1 / 2 ^ 14 := by norm_num
  linarith

theorem subtract_spec : ∀ (a b : List ℚ), a.length ≤ b.length → ∃ r, Pcm.subtract a b = .ok r ∧ r.length = a.length ∧
    ∀ i < a.length, r.getD i 0 = fl64 (a.getD i 0 - b.getD i 0)
  | [], _, _ => ⟨[], rfl, rfl, by simp⟩
  | _ :: _, [], h => by simp at h
  | x :: l, y :: m, h => by
    obtain ⟨r, h1, h2, h3⟩ := subtract_spec l m (by simpa using h)
    refine ⟨fl64 (x - y) :: r, ?_, by simp [h2], ?_⟩
    · rw [Pcm.subtract, h1]; rfl
    · intro i hi
      cases i with
      | zero => rfl
      | succ i => simpa using h3 i (by simpa using hi)

/-- **C89 (partial).** A recording is encoded as a curve and wavelets for what the curve leaves, as the encoder does by
default: whatever the filter and the curve are, as long as the curve stays within the range, every 16 bit sample of
the result differs from the sample of the recording by no more than the precision the bits of its block allow, and a
step of 16 bits.  Where the wavelets lag by a sample, the curve does not, and the difference between two samples
of the curve is added.  Missing: as for `c89_wavelet_partial`. -/
theorem c89_curve_partial (k : ℕ) (hk : 3 ≤ k) (fs : ℕ) (hfs : 0 < fs) (hfs' : fs < 2 ^ 31) (hd : fs ∣ 2 ^ k * 1000)
    (lg : ℚ → ℚ) (pm : List ℚ → Model) (budget : ℤ) (sig curve : List ℚ) (hsig : ∀ v ∈ sig, |v| ≤ 1)
    (hcurve : ∀ v ∈ curve, |v| ≤ 1 ∧ fl64 v = v) (hcl : curve.length = sig.length) (hlen : sig.length + 2 ^ k ≤ 2 ^ 31)
    (e : Spiht.Encoder) (he : e.counters = Spiht.resetCounters) (d : Spiht.Decoder) (hdc : d.counters = Spiht.resetCounters) :
    ∃ rest, Pcm.subtract sig curve = .ok rest ∧ ((∀ i < sig.length, Fits k budget pm (blockOf k rest i)) →
    ∃ band out, encodeSignal lg transformBlock pm (2 ^ k) fs 1000 budget rest e = .ok band ∧
      transformBand inverseBlock band 1000 d = .ok out ∧
      ∀ ti < sig.length, ∃ i v bits, SamePlace fs ti i ∧ sample out 1000 fs fs 0 ti = .ok v ∧ Budgeted k budget bits ∧
        ∀ q, Wav.Nearest (channelSample [curve.getD ti 0, v]) q →
          |(q / 32768 : ℚ) - limited (sig.getD i 0 + (curve.getD ti 0 - curve.getD i 0))| ≤
            precision k 2 rest i bits + 1 / 2 ^ 14) := by
  obtain ⟨rest, r1, r2, r3⟩ := subtract_spec sig curve (by omega)
  refine ⟨rest, r1, fun hfit => ?_⟩
  have hs : ∀ i < sig.length, |sig.getD i 0| ≤ 1 := by
    intro i hi
    rw [List.getD_eq_getElem?_getD, List.getElem?_eq_getElem hi, Option.getD_some]
    exact hsig _ (List.getElem_mem _)
  have hc : ∀ i < sig.length, |curve.getD i 0| ≤ 1 ∧ fl64 (curve.getD i 0) = curve.getD i 0 := by
    intro i hi
    rw [List.getD_eq_getElem?_getD, List.getElem?_eq_getElem (by omega), Option.getD_some]
    exact hcurve _ (List.getElem_mem _)
  have two : fl64 2 = 2 := by simpa using fl64_nat (n := 2) (by norm_num)
  have hrest : ∀ v ∈ rest, |v| ≤ 2 := by
    intro v hv
    obtain ⟨i, hi, rfl⟩ := List.mem_iff_getElem.1 hv
    have h := r3 i (by omega)
    rw [List.getD_eq_getElem?_getD (l := rest), List.getElem?_eq_getElem hi, Option.getD_some] at h
    rw [h]
    have a1 := abs_le.1 (hs i (by omega))
    have a2 := abs_le.1 (hc i (by omega)).1
    have b1 := fl64_mono (show sig.getD i 0 - curve.getD i 0 ≤ 2 by linarith)
    have b2 := fl64_mono (show -2 ≤ sig.getD i 0 - curve.getD i 0 by linarith)
    rw [show fl64 (-2) = -fl64 2 from flo_neg 53 (-1022) 2] at b2
    rw [two] at b1 b2
    exact abs_le.2 ⟨b2, b1⟩
  obtain ⟨band, out, h1, h2, h3⟩ := wave_close k hk fs hfs hfs' hd lg pm budget rest 2 (by norm_num) hrest
    (by rw [r2]; exact hfit) (by omega) e he d hdc
  refine ⟨band, out, h1, h2, fun ti hti => ?_⟩
  obtain ⟨i, v, bits, a1, a2, a3, a4⟩ := h3 ti (by omega)
  refine ⟨i, v, bits, a1, a2, a3, fun q hq => ?_⟩
  have hi : i < sig.length := by have := a1.1; omega
  obtain ⟨c1, c2⟩ := hc ti hti
  have hch : channelSample [curve.getD ti 0, v] = limited (fl64 (curve.getD ti 0 + v)) := by
    unfold channelSample
    rw [List.foldl_cons, List.foldl_cons, List.foldl_nil, mix_eq, mix_eq, zero_add, c2,
      limited_of_le (abs_le.1 c1).1 (abs_le.1 c1).2]
  rw [hch] at hq
  rw [r3 i hi] at a4
  have b1 := nearest_close (limited_mem _).1 (limited_mem _).2 hq
  have b2 := limited_fl64 (curve.getD ti 0 + v)
  have b3 := limited_dist (curve.getD ti 0 + v) (sig.getD i 0 + (curve.getD ti 0 - curve.getD i 0))
  have b4 := fl64_near (sig.getD i 0 - curve.getD i 0)
  have b5 : |sig.getD i 0 - curve.getD i 0| / 2 ^ 53 ≤ 2 / 2 ^ 53 := by
    have a1 := abs_le.1 (hs i hi)
    have a2 := abs_le.1 (hc i hi).1
    gcongr
    rw [abs_le]
    constructor <;> linarith
  have e2 : curve.getD ti 0 + v - (sig.getD i 0 + (curve.getD ti 0 - curve.getD i 0)) =
      (v - fl64 (sig.getD i 0 - curve.getD i 0)) + (fl64 (sig.getD i 0 - curve.getD i 0) - (sig.getD i 0 - curve.getD i 0)) := by
    ring
  rw [e2] at b3
  have b6 := b3.trans (abs_add_le _ _)
  set t := limited (sig.getD i 0 + (curve.getD ti 0 - curve.getD i 0))
  set s := curve.getD ti 0 + v
  have e1 : (q / 32768 : ℚ) - t = (q / 32768 - limited (fl64 s)) + (limited (fl64 s) - limited s) + (limited s - t) := by
    ring
  rw [e1]
  refine (abs_add_three _ _ _).trans ?_
  have : (1 : ℚ) / 32768 + 1 / 2 ^ 52 + 2 / 2 ^ 53 + 1 / 2 ^ 100 ≤ 1 / 2 ^ 14 := by norm_num
  linarith

/-- A recording of eight samples at 8 kHz and a budget of 12 bits, for both theorems; the curve is a constant. -/
example : (∀ i < 8, Fits 3 12 (fun _ => ⟨[1, 2], [.fin 0, .fin 3]⟩)
      (blockOf 3 [0, 1 / 8, 1 / 4, 1 / 8, 0, -1 / 8, -1 / 4, -1 / 8] i)) ∧
    Pcm.subtract [0, 1 / 8, 1 / 4, 1 / 8, 0, -1 / 8, -1 / 4, -1 / 8] (List.replicate 8 (1 / 4)) =
      .ok [-1 / 4, -1 / 8, 0, -1 / 8, -1 / 4, -3 / 8, -1 / 2, -3 / 8] ∧
    (∀ i < 8, Fits 3 12 (fun _ => ⟨[1, 2], [.fin 0, .fin 3]⟩)
      (blockOf 3 [-1 / 4, -1 / 8, 0, -1 / 8, -1 / 4, -3 / 8, -1 / 2, -3 / 8] i)) := by
  exact ⟨fun i hi => .inl (by omega), by decide +kernel, fun i hi => .inl (by omega)⟩

end Haptics.Recording
