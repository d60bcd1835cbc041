import Verif.Main.SpecAccepted
import Verif.Encoder.SpecPcmEncode
import Verif.Encoder.AhapTyped
import Verif.Main.AhapBands

/-! The values in the bands that are made of a recording. -/

namespace Haptics.Accepted
open Haptics Haptics.Json

theorem extremaLoop_mem (i : Int) (last value : ℚ) (l : List ℚ) :
    (∀ p ∈ (Pcm.extremaLoop i last value l).1, p.2 ∈ value :: l) ∧
      (Pcm.extremaLoop i last value l).2.2 ∈ value :: l := by
  induction l generalizing i last value with
  | nil => exact ⟨fun p hp => (by cases hp), List.mem_cons_self⟩
  | cons next rest ih =>
    obtain ⟨h1, h2⟩ := ih (i + 1) value next
    rw [Pcm.extremaLoop]
    split
    · refine ⟨fun p hp => ?_, List.mem_cons_of_mem _ h2⟩
      rcases List.mem_cons.mp hp with rfl | hp
      · exact List.mem_cons_self
      · exact List.mem_cons_of_mem _ (h1 p hp)
    · exact ⟨fun p hp => List.mem_cons_of_mem _ (h1 p hp), List.mem_cons_of_mem _ h2⟩

/-- The values of the points are samples. -/
theorem localExtrema_mem (s : List ℚ) : ∀ p ∈ Pcm.localExtrema s true, p.2 ∈ s := by
  intro p hp
  match s, hp with
  | [], hp => cases hp
  | [a], hp => simp [Pcm.localExtrema] at hp; simp [hp]
  | [a, b], hp => simp [Pcm.localExtrema] at hp; rcases hp with rfl | rfl <;> simp
  | a :: b :: c :: rest, hp =>
    simp only [Pcm.localExtrema, if_true] at hp
    obtain ⟨h1, h2⟩ := extremaLoop_mem 1 a b (c :: rest)
    rcases List.mem_append.mp hp with hp | hp
    · rcases List.mem_cons.mp hp with rfl | hp
      · exact List.mem_cons_self
      · exact List.mem_cons_of_mem _ (h1 p hp)
    · rw [List.mem_singleton.mp hp]
      exact List.mem_cons_of_mem _ h2

theorem tick_range {ts : Nat} {rate : ℚ} {i r : Int} (h : Pcm.tick ts rate i = .ok r) : Json.Int32 r := by
  unfold Pcm.tick at h
  split at h
  · cases h
  · unfold castInt at h
    split at h
    · obtain rfl := Except.ok.inj h; assumption
    · cases h

theorem keyframesLoop_typed {ts : Nat} {rate : ℚ} (points : List Pcm.Point) (hp : ∀ p ∈ points, |p.2| ≤ 2) (last : Int)
    (kfs : List Keyframe) (hk : ∀ k ∈ kfs, KeyframeTyped k) {r : List Keyframe}
    (h : Pcm.keyframesLoop ts rate points last kfs = .ok r) : ∀ k ∈ r, KeyframeTyped k := by
  induction points generalizing last kfs with
  | nil => obtain rfl := Except.ok.inj h; exact hk
  | cons p rest ih =>
    rw [Pcm.keyframesLoop] at h
    cases ht : Pcm.tick ts rate p.1 with
    | error x => rw [ht] at h; cases h
    | ok t =>
      rw [ht] at h
      refine ih (fun q hq => hp q (List.mem_cons_of_mem _ hq)) t _ ?_ h
      have hnew : KeyframeTyped (Pcm.curveKeyframe t p.2) := by
        refine ⟨fun i hi => ?_, fun q hq => ?_, fun i hi => by cases hi⟩
        · obtain rfl := Option.some.inj hi; exact tick_range ht
        · obtain rfl := Option.some.inj hq
          exact Ahap.isFloat_fl32 (hp p List.mem_cons_self)
      unfold Pcm.addPoint
      intro k hk'
      split at hk'
      · rcases List.mem_append.mp hk' with h' | h'
        · exact hk k h'
        · rw [List.mem_singleton.mp h']; exact hnew
      · split at hk'
        · split at hk'
          · exact hk k hk'
          · rcases List.mem_append.mp hk' with h' | h'
            · exact hk k (List.dropLast_subset _ h')
            · rw [List.mem_singleton.mp h']; exact hnew
        · exact hk k hk'

theorem curve_typed {cfg : Pcm.Config} {ts modality rate : Nat} {s : List ℚ} {b : Band} (hs : ∀ x ∈ s, |x| ≤ 2)
    (h : Pcm.CurveOf cfg ts modality rate s b) : BandTyped b := by
  obtain ⟨b0, h1, rfl⟩ := h
  generalize (if 0 < cfg.curveFrequencyLimit then cfg.curveFrequencyLimit else (rate : ℚ)) = limit at h1
  unfold Pcm.convertToCurveBand at h1
  split at h1
  · cases h1
  · simp only [bind, Except.bind, pure, Except.pure] at h1
    split at h1
    · cases h1
    · rename_i upper hup
      split at h1
      · cases h1
      · rename_i kfs hk
        obtain rfl := Option.some.inj (Except.ok.inj h1)
        have hu : Json.Int32 upper := by
          unfold castInt at hup
          split at hup
          · rw [← Except.ok.inj hup]; assumption
          · cases hup
        have hkt := keyframesLoop_typed _ (fun p hp => hs _ (localExtrema_mem _ p hp)) _ _ (fun k hk => by cases hk) hk
        refine ⟨by show BandType.Curve < 4; decide, fun n hn => ?_, fun n hn => ?_, int32_small (i := 0) (by decide), hu,
          fun n hn => (by cases hn), fun e he => ?_, List.pairwise_singleton _ _⟩
        · obtain rfl := Option.some.inj hn
          unfold Pcm.connection
          split <;> decide
        · obtain rfl := Option.some.inj hn
          decide
        · rw [List.mem_singleton.mp (show e ∈ (Pcm.curveBand upper kfs).effects from he)]
          refine ⟨int32_small (i := -1) (by decide), int32_small (i := 0) (by decide), fun q hq => ?_, fun q hq => ?_,
            fun q hq => (by cases hq), (by show EffectType.Basis < 3; decide), hkt, Or.inl rfl⟩
          · obtain rfl := Option.some.inj hq
            exact ⟨0, 0, by decide, by decide, by decide, by norm_num⟩
          · obtain rfl := Option.some.inj hq
            decide

theorem splitLoop_length (bl : Nat) (sig : List ℚ) (n start : Nat) : (Wavelet.splitLoop bl sig n start).length = n := by
  induction n generalizing start with
  | zero => rfl
  | succ n ih => simp [Wavelet.splitLoop, ih]

theorem encodeLoop_positions {lg : ℚ → ℚ} {transform : List ℚ → List ℚ} {pm : List ℚ → Wavelet.Model} {bl ticks : Nat}
    {budget : Int} (blocks : List (List ℚ)) (position : Nat) (e : Spiht.Encoder) (es : List (Nat × List UInt8))
    (h : Wavelet.encodeLoop lg transform pm bl ticks budget blocks position e = .ok es) :
    es.length = blocks.length ∧ ∀ (i : Nat) (x : Nat × List UInt8), es[i]? = some x → x.1 = position + i * ticks := by
  induction blocks generalizing position e es with
  | nil => obtain rfl := Except.ok.inj h; exact ⟨rfl, fun i x hx => by simp at hx⟩
  | cons b l ih =>
    rw [Wavelet.encodeLoop] at h
    cases h1 : Wavelet.encodeBlock lg bl (transform b) (pm b) budget e with
    | error x => rw [h1] at h; cases h
    | ok r =>
      rw [h1] at h
      change Except.bind (Wavelet.encodeLoop lg transform pm bl ticks budget l (position + ticks) r.2) _ = _ at h
      cases h2 : Wavelet.encodeLoop lg transform pm bl ticks budget l (position + ticks) r.2 with
      | error x => rw [h2] at h; cases h
      | ok more =>
        rw [h2] at h
        obtain rfl := Except.ok.inj h
        obtain ⟨k1, k2⟩ := ih _ _ _ h2
        refine ⟨by simp [k1], fun i x hx => ?_⟩
        cases i with
        | zero => simp at hx; simp [← hx]
        | succ i =>
          rw [k2 i x (by simpa using hx)]
          ring

/-- The band of a wavelet encoder, with times below 2^31. -/
theorem wavelet_typed {lg : ℚ → ℚ} {transform : List ℚ → List ℚ} {pm : List ℚ → Wavelet.Model} {bl fs ts : Nat}
    {budget : Int} {s : List ℚ} {e : Spiht.Encoder} {band : Wavelet.WaveletBand} {cutoff : ℚ}
    (h : Wavelet.encodeSignal lg transform pm bl fs ts budget s e = .ok band) (hfs : fs < 2 ^ 31)
    (hl : 0 ≤ cutoff ∧ cutoff < 2 ^ 31) (htime : s.length * ts < 2 ^ 31 * fs) (hbl : bl * ts < 2 ^ 31 * fs)
    (hz : ∀ f ∈ (waveletBand cutoff band).effects, f.waveletBitstream = [] ∨ ∃ v ∈ f.waveletBitstream, v ≠ 0) :
    BandTyped (waveletBand cutoff band) := by
  unfold Wavelet.encodeSignal at h
  simp only [bind, Except.bind] at h
  split at h
  · cases h
  · split at h
    · cases h
    · rename_i h0 es he
      obtain rfl := Except.ok.inj h
      have h0 : 0 < fs := by
        by_contra hc
        have : fs = 0 := by omega
        subst this
        omega
      obtain ⟨p1, p2⟩ := encodeLoop_positions _ _ _ _ he
      rw [splitLoop_length] at p1
      have hticks : Wavelet.blockTicks bl ts fs * fs ≤ bl * ts := Nat.div_mul_le_self _ _
      have hpos : ∀ x ∈ es, x.1 < 2 ^ 31 := by
        intro x hx
        obtain ⟨i, hi⟩ := List.getElem?_of_mem hx
        have hil := (List.getElem?_eq_some_iff.mp hi).1
        rw [p2 i x hi, Nat.zero_add]
        rw [p1] at hil
        have h1 : i * bl ≤ s.length := by
          unfold Wavelet.numBlocks at hil
          rcases Nat.eq_zero_or_pos bl with rfl | hb
          · simp
          · have := (Nat.le_div_iff_mul_le hb).mp hil
            rw [Nat.succ_mul] at this
            omega
        have h2 : i * Wavelet.blockTicks bl ts fs * fs ≤ s.length * ts := by
          calc i * Wavelet.blockTicks bl ts fs * fs = i * (Wavelet.blockTicks bl ts fs * fs) := by ring
            _ ≤ i * (bl * ts) := Nat.mul_le_mul_left _ hticks
            _ = i * bl * ts := by ring
            _ ≤ s.length * ts := Nat.mul_le_mul_right _ h1
        exact Nat.lt_of_mul_lt_mul_right (a := fs) (lt_of_le_of_lt h2 htime)
      refine ⟨by show BandType.WaveletWave < 4; decide, fun n hn => (by cases hn), fun n hn => ?_, ?_, ?_,
        fun n hn => (by cases hn), fun f hf => ?_, ?_⟩
      · obtain rfl := Option.some.inj hn
        have : Wavelet.blockTicks bl ts fs < 2 ^ 31 :=
          Nat.lt_of_mul_lt_mul_right (a := fs) (lt_of_le_of_lt hticks hbl)
        show -2 ^ 31 < ((Wavelet.blockTicks bl ts fs : Nat) : Int) ∧ ((Wavelet.blockTicks bl ts fs : Nat) : Int) < 2 ^ 31
        omega
      · show Json.Int32 (truncQ cutoff)
        unfold truncQ
        rw [if_pos hl.1]
        have h1 := Int.floor_nonneg.mpr hl.1
        have h2 : ⌊cutoff⌋ < 2 ^ 31 := Int.floor_lt.mpr (by push_cast; exact hl.2)
        unfold Json.Int32
        omega
      · show Json.Int32 ((fs : Nat) : Int)
        unfold Json.Int32
        omega
      · have hzf := hz f hf
        obtain ⟨x, hx, rfl⟩ := List.mem_map.mp hf
        have := hpos x hx
        refine ⟨int32_small (i := -1) (by decide), ?_, fun q hq => (by cases hq), fun q hq => (by cases hq),
          fun q hq => (by cases hq), (by show EffectType.Basis < 3; decide), fun k hk => (by cases hk), hzf⟩
        show Json.Int32 ((x.1 : Nat) : Int)
        unfold Json.Int32
        omega
      · show (es.map _).Pairwise _
        rw [List.pairwise_map, List.pairwise_iff_getElem]
        intro i j hi hj hij
        rw [p2 i _ (List.getElem?_eq_getElem hi), p2 j _ (List.getElem?_eq_getElem hj)]
        have := Nat.mul_le_mul_right (Wavelet.blockTicks bl ts fs) hij.le
        show ((0 + i * Wavelet.blockTicks bl ts fs : Nat) : Int) ≤ ((0 + j * Wavelet.blockTicks bl ts fs : Nat) : Int)
        omega

end Haptics.Accepted
