import Verif.Main.WavStream
import Verif.Stream.PropsWavelet

/-! C96: a WAV file that is encoded to a stream. -/

namespace Haptics.Imported
open Haptics Haptics.Accepted
open Haptics.EncoderMain (blank)

theorem sum_flatMap_le {α β : Type} (f : α → List β) (n : Nat) (l : List α) (h : ∀ a ∈ l, (f a).length ≤ n) :
    (l.flatMap f).length ≤ l.length * n := by
  induction l with
  | nil => simp
  | cons a l ih =>
    rw [List.flatMap_cons, List.length_append, List.length_cons, Nat.succ_mul]
    have := h a List.mem_cons_self
    have := ih (fun x hx => h x (List.mem_cons_of_mem _ hx))
    omega

theorem forall₂_flatMap_le {α β γ : Type} (g : α → Nat) (f : β → List γ) {l : List α} {m : List β}
    (h : List.Forall₂ (fun a b => (f b).length ≤ g a) l m) : (m.flatMap f).length ≤ (l.map g).sum := by
  induction h with
  | nil => simp
  | cons h _ ih =>
    rw [List.flatMap_cons, List.length_append, List.map_cons, List.sum_cons]
    omega

/-- A channel of a recording. -/
def wavChannel (i : Nat) (bands : List Band) (rate count : Nat) : Channel :=
  { Pcm.placeholder i with bands := bands, frequencySampling := some rate, sampleCount := some count }

/-- **C96.** A recording that is encoded to a stream is received with all its channels, each with the bands that the
encoder made: the curve with its keyframes where they were, the wavelet blocks with all their bytes, in their order and at
their times.  This holds for recordings that are not too long or too many, when the settings fit (`Streamable`). -/
theorem c96_wav_partial (parts : Pcm.Parts) (cfg : Pcm.Config) (ts bl d : Nat) (w : Wav.Parser) (q : Perception)
    (hst : Wav.Streamable parts cfg ts bl d w) (hb : w.buffer.length = w.numChannels)
    (hq : Pcm.encode parts cfg ts (some w) blank = .ok (0, q))
    (hw : WaveletParts parts bl w.sampleRate.toNat ts cfg.curveFrequencyLimit) (hc : Wav.Compact q) :
    ∃ file r, writeStream (imported ts q) d = .ok file ∧ readStream file = .ok (true, some r) ∧ Wav.Received ts q r := by
  have hr := hst.rate
  obtain ⟨⟨cs, rfl⟩, k2, k3⟩ := Pcm.c80_channels parts cfg ts w blank q hst.limit.1 hr.1 (by omega) hb hq
  replace k2 : cs.length = w.numChannels := k2
  have k4 : ∀ (i : Nat) (s : List ℚ) (c : Channel), w.buffer[i]? = some s → cs[i]? = some c →
      Prepared ts d (if cfg.waveletEnabled = true then s.length / d + 2 else 1) c.bands ∧
      c = wavChannel i c.bands w.sampleRate.toNat (w.numSamples / w.numChannels % 2 ^ 32) := by
    intro i s c hs hci
    obtain ⟨new, n1, n2⟩ := k3 i s hs
    have n3 : c = wavChannel i new w.sampleRate.toNat (w.numSamples / w.numChannels % 2 ^ 32) := by
      have := Option.some.inj (hci.symm.trans n2)
      rw [this]
      rfl
    have n4 : c.bands = new := by rw [n3]; rfl
    refine ⟨?_, by rw [n4]; exact n3⟩
    rw [n4]
    exact bands_prepared hst hw (List.mem_of_getElem? hs) (fun b hb' =>
      hc.each c (List.mem_of_getElem? hci) b (by rw [n4]; exact hb')) n1
  have k5 : ∀ c ∈ cs, ∃ i s, w.buffer[i]? = some s ∧ cs[i]? = some c ∧ i < 60 := by
    intro c hc'
    obtain ⟨i, hi⟩ := List.getElem?_of_mem hc'
    have h1 := (List.getElem?_eq_some_iff.mp hi).1
    have h2 : i < w.buffer.length := by omega
    exact ⟨i, _, List.getElem?_eq_getElem h2, hi, by have := hst.channels.2; omega⟩
  have k6 : ∀ c ∈ cs, ∃ n, Prepared ts d n c.bands := fun c hc' => by
    obtain ⟨i, s, h1, h2, -⟩ := k5 c hc'
    exact ⟨_, (k4 i s c h1 h2).1⟩
  have hne : cs ≠ [] := by
    intro h0
    rw [h0] at k2
    have := hst.channels.1
    simp at k2
    omega
  obtain ⟨g1, g2⟩ := channels_full (ts := ts) hne (fun c hc' => by
    obtain ⟨n, hp⟩ := k6 c hc'
    exact ⟨hp.some, hp.full⟩)
  have hall : List.Forall₂ (fun s c => Prepared ts d (if cfg.waveletEnabled = true then s.length / d + 2 else 1) c.bands)
      w.buffer cs := by
    rw [List.forall₂_iff_get]
    refine ⟨by omega, fun i h1 h2 => ?_⟩
    exact (k4 i _ _ (List.getElem?_eq_getElem h1) (List.getElem?_eq_getElem h2)).1
  have htotal : ((cs.flatMap (·.bands)).flatMap (·.effects)).length < 65536 := by
    rw [List.flatMap_assoc]
    refine lt_of_le_of_lt (forall₂_flatMap_le (fun s : List ℚ => if cfg.waveletEnabled = true then s.length / d + 2 else 1) _
      (hall.imp (fun s c hp => hp.effects))) ?_
    by_cases he : cfg.waveletEnabled = true
    · simp only [if_pos he]
      exact hst.blocks he
    · simp only [if_neg he, List.map_const', List.sum_replicate, smul_eq_mul, mul_one]
      have := hst.channels.2
      omega
  have hfc : FreshChannels ts d cs := by
    refine ⟨fun c hc' => ?_, ?_, fun c hc' => ?_, fun c hc' => ?_, htotal.le, fun c hc' b hb' => ?_, ?_, fun c hc' b hb' t => ?_,
      ?_, hc.total⟩
    · obtain ⟨i, s, h1, h2, hi⟩ := k5 c hc'
      rw [(k4 i s c h1 h2).2]
      refine ⟨⟨by show (0 : Int) ≤ (i : Int); omega, by show (i : Int) < 2 ^ 16; omega⟩, fun v hv => (by cases hv),
        by show (Json.lit "I'm a placeholder").length < 256; decide +kernel,
        fun v hv => (by cases hv), by show 2 ^ 32 - 1 < 2 ^ 32; decide, fun v hv => (by cases hv), by show 0 < 256; decide,
        fun v hv => (by cases hv), by show 0 < 256; decide, fun v hv => (by cases hv), fun v hv => ?_,
        fun v hv => ?_, fun v hv => (by cases hv), by show 0 < 65536; decide, fun v hv => (by cases hv)⟩
      · rw [← Option.some.inj (show some w.sampleRate.toNat = some v from hv)]
        omega
      · rw [← Option.some.inj (show some (w.numSamples / w.numChannels % 2 ^ 32) = some v from hv)]
        exact Nat.mod_lt _ (by norm_num)
    · rw [List.nodup_iff_injective_get]
      intro i j hij
      have hi := i.2
      have hj := j.2
      simp only [List.length_map] at hi hj
      simp only [List.get_eq_getElem, List.getElem_map] at hij
      have hi2 : i.1 < w.buffer.length := by omega
      have hj2 : j.1 < w.buffer.length := by omega
      have e1 := congrArg Channel.id (k4 i.1 _ _ (List.getElem?_eq_getElem hi2) (List.getElem?_eq_getElem hi)).2
      have e2 := congrArg Channel.id (k4 j.1 _ _ (List.getElem?_eq_getElem hj2) (List.getElem?_eq_getElem hj)).2
      have e1 : (cs[i.1]).id = (i.1 : Int) := e1
      have e2 : (cs[j.1]).id = (j.1 : Int) := e2
      have : (i.1 : Int) = j.1 := by rw [← e1, ← e2]; exact hij
      exact Fin.ext (by omega)
    · obtain ⟨i, s, h1, h2, hi⟩ := k5 c hc'
      rw [(k4 i s c h1 h2).2]
      exact Nat.zero_le _
    · obtain ⟨n, hp⟩ := k6 c hc'
      exact hp.ready
    · refine lt_of_le_of_lt ?_ htotal
      rw [List.length_flatMap]
      exact List.single_le_sum (fun _ _ => Nat.zero_le _) _ (List.mem_map_of_mem (f := fun b : Band => b.effects.length)
        (List.mem_flatMap.mpr ⟨c, hc', hb'⟩))
    · have := sum_flatMap_le (fun c : Channel => c.bands) 2 cs (fun c hc' => by
        obtain ⟨n, hp⟩ := k6 c hc'
        exact hp.few)
      have := hst.channels.2
      omega
    · obtain ⟨n, hp⟩ := k6 c hc'
      exact (hp.dense b hb' t).trans hst.packet.2
    · have := sum_flatMap_le (fun c : Channel => (c.bands.flatMap (·.effects)).flatMap Effect.eventTimes) 65535 cs
        (fun c hc' => by
          obtain ⟨n, hp⟩ := k6 c hc'
          exact hp.events)
      have e : ((cs.flatMap (·.bands)).flatMap (·.effects)).flatMap Effect.eventTimes =
          cs.flatMap (fun c => (c.bands.flatMap (·.effects)).flatMap Effect.eventTimes) := by
        simp only [List.flatMap_assoc]
      rw [e]
      have := hst.channels.2
      omega
  obtain ⟨file, r, f1, f2, f3, p, f4, f5⟩ := streamed_channels ts d (channelsOf ts cs) cs hst.timescale hst.packet.1
    (by have := hst.packet.2; omega) g2 g1 hfc
  refine ⟨file, r, f1, f2, f3, p, f4, ?_⟩
  show List.Forall₂ Wav.SameChannel cs p.channels
  rw [List.forall₂_iff_get] at f5 ⊢
  refine ⟨f5.1, fun i h1 h2 => ?_⟩
  obtain ⟨e1, e2⟩ := f5.2 i h1 h2
  have h3 : i < w.buffer.length := by omega
  have e3 := (k4 i _ _ (List.getElem?_eq_getElem h3) (List.getElem?_eq_getElem h1)).2
  generalize p.channels.get ⟨i, h2⟩ = c' at e1 e2 ⊢
  have e4 : cs.get ⟨i, h1⟩ = cs[i] := rfl
  rw [e4] at e1 e2 ⊢
  have e5 : ∀ b ∈ cs[i].bands, Fresh b ∨ FreshBlocks ts d b := by
    obtain ⟨n, hp⟩ := k6 _ (List.getElem_mem h1)
    exact hp.ready
  generalize cs[i] = c at e1 e2 e3 e5 ⊢
  have hfs : c.frequencySampling = some w.sampleRate.toNat := congrArg Channel.frequencySampling e3
  have hsc : c.sampleCount = some (w.numSamples / w.numChannels % 2 ^ 32) := congrArg Channel.sampleCount e3
  refine ⟨(congrArg Channel.id e1).trans rfl, ?_, ?_, ?_⟩
  · refine (congrArg Channel.frequencySampling e1).trans ?_
    show c.frequencySampling.filter (· ≠ 0) = c.frequencySampling
    rw [hfs, Option.filter_some, if_pos (by simp; omega)]
  · refine (congrArg Channel.sampleCount e1).trans ?_
    show (if 0 < c.frequencySampling.getD 0 then some (c.sampleCount.getD 0) else none) = c.sampleCount
    rw [hfs, hsc, if_pos (by simp; omega)]
    rfl
  · rw [List.forall₂_iff_get] at e2 ⊢
    refine ⟨e2.1, fun j j1 j2 => ?_⟩
    obtain ⟨b1, m, b2⟩ := e2.2 j j1 j2
    have e6 := e5 _ (List.get_mem _ ⟨j, j1⟩)
    generalize c.bands.get ⟨j, j1⟩ = b at b1 b2 e6 ⊢
    generalize c'.bands.get ⟨j, j2⟩ = b' at b1 b2 ⊢
    refine ⟨(congrArg Band.bandType b1).trans rfl, (congrArg Band.lowerFrequencyLimit b1).trans rfl,
      (congrArg Band.upperFrequencyLimit b1).trans rfl, fun ht => ?_, ?_⟩
    · refine (congrArg Band.blockLength b1).trans ?_
      show (if b.bandType = BandType.WaveletWave then some b.blockLengthOrDefault else some 0) = b.blockLength
      rw [if_pos ht]
      rcases e6 with hf | hf
      · exact absurd ht (keyframeBand_ne hf.bandType)
      · unfold Band.blockLengthOrDefault
        rw [hf.blockLength]
        rfl
    · rw [b2, List.map_map]
      exact withIds_map (Effect.anonymous ∘ Effect.receivedBy b.bandType) (fun e i => by
        simp only [Function.comp, Effect.receivedBy, Effect.receivedIn, Effect.receivedWavelet]
        split
        · rfl
        · split <;> rfl) b.effects m

/-- Two numbers of ticks: the length of a block in the encoder, and where a receiver puts the second block. -/
theorem second_block {bl fs ts : Nat} (hfs : 0 < fs) (h : 256 ≤ bl ∨ ts < fs) (hB : 0 < bl * ts / fs) :
    ts * (bl * ts / fs % 256) / fs ≠ bl * ts / fs := by
  by_cases hlt : ts < fs
  · refine ne_of_lt ((Nat.div_lt_iff_lt_mul hfs).mpr ?_)
    generalize bl * ts / fs = B at hB
    calc ts * (B % 256) ≤ ts * B := Nat.mul_le_mul_left _ (Nat.mod_le _ _)
      _ < B * fs := by rw [mul_comm B]; exact Nat.mul_lt_mul_of_pos_right hlt hB
  · have hbl : 256 ≤ bl := by omega
    refine ne_of_lt ?_
    have h1 : ts * (bl * ts / fs % 256) / fs ≤ ts * 255 / fs :=
      Nat.div_le_div_right (Nat.mul_le_mul_left _ (by have := Nat.mod_lt (bl * ts / fs) (show 0 < 256 by decide); omega))
    have h2 : (ts * 255 + fs) / fs ≤ bl * ts / fs := Nat.div_le_div_right (by nlinarith)
    rw [Nat.add_div_right _ hfs] at h2
    omega

theorem encodeSignal_blockLength {lg : ℚ → ℚ} {transform : List ℚ → List ℚ} {pm : List ℚ → Wavelet.Model} {bl fs ts : Nat}
    {budget : Int} {s : List ℚ} {e : Spiht.Encoder} {w : Wavelet.WaveletBand}
    (h : Wavelet.encodeSignal lg transform pm bl fs ts budget s e = .ok w) : w.blockLength = bl * ts / fs := by
  unfold Wavelet.encodeSignal at h
  split at h
  · cases h
  change Except.bind (Wavelet.encodeLoop lg transform pm bl (Wavelet.blockTicks bl ts fs) budget
    (Wavelet.splitLoop bl s (Wavelet.numBlocks bl s.length) 0) 0 e) _ = _ at h
  cases he : Wavelet.encodeLoop lg transform pm bl (Wavelet.blockTicks bl ts fs) budget
    (Wavelet.splitLoop bl s (Wavelet.numBlocks bl s.length) 0) 0 e with
  | error x => rw [he] at h; cases h
  | ok es =>
    rw [he] at h
    obtain rfl := Except.ok.inj h
    rfl

/-- **C96.** Exactly when a recording is received as the encoder made it, of two blocks or more: a receiver that knows the band as it is transmitted (the block
length modulo 256, `c17_blockLength_wraps`) has all blocks where the encoder has them if and only if the packets are shorter than two blocks and the
receiver's arithmetic, which takes the block length in ticks for one in samples, gives the right times.  If the packets are shorter than two blocks, all
blocks arrive with their bytes. -/
theorem c96_blocks_exact {lg : ℚ → ℚ} {transform : List ℚ → List ℚ} {pm : List ℚ → Wavelet.Model} {bl fs ts : Nat}
    {budget : Int} {s : List ℚ} {e : Spiht.Encoder} {w : Wavelet.WaveletBand} {cutoff : ℚ}
    (h : Wavelet.encodeSignal lg transform pm bl fs ts budget s e = .ok w) (h2 : 2 ≤ w.effects.length) (hsize : ∀ f ∈ w.effects, f.2.length < 65536)
    (pd : Nat) (addr : Address) (hap : U 8 addr.perceId) (hac : U 16 addr.channelId) (hab : U 8 addr.bandId)
    (ids : List Int) (hids : ∀ i ∈ ids, -1 ≤ i) (hmax : nextEffectId ids + w.effects.length ≤ 65536)
    (bs : List Bits) (ids' : List Int) (hsent : packetizeBand pd addr (waveletBand cutoff w) ids = .ok (bs, ids'))
    (ps : List (Int × Bits))
    (hps : List.Forall₂ (fun x y => x.1 = timestampOf y ∧ ∃ rest, x.2 = y.drop 32 ++ rest) ps bs)
    (r : Reader) (p c k : Nat) (band : Band) (hband : HasBand r addr p c k band)
    (k1 : band.bandType = BandType.WaveletWave) (k2 : band.blockLength = some (((w.blockLength : Nat) : Int) % 256))
    (k3 : band.upperFrequencyLimit = w.upper) (k4 : band.effects = []) (k5 : r.timescale = ts) (k6 : r.waitSync = false) :
    ∃ r' band', receiveAll ps r = .ok r' ∧ HasBand r' addr p c k band' ∧
      (band'.effects.map (·.position) = (waveletBand cutoff w).effects.map (·.position) ↔
        pd < 2 * w.blockLength ∧ ∀ k < w.effects.length, ts * (w.blockLength % 256) * k / fs = w.blockLength * k) ∧
      (pd < 2 * w.blockLength → band'.effects.map (·.waveletBitstream) = (waveletBand cutoff w).effects.map (·.waveletBitstream)) := by
  have hfs : 0 < fs := by
    rcases Nat.eq_zero_or_pos fs with h0 | h0
    · unfold Wavelet.encodeSignal at h
      rw [if_pos h0] at h
      cases h
    · exact h0
  unfold Wavelet.encodeSignal at h
  rw [if_neg (show ¬ fs = 0 by omega)] at h
  change Except.bind (Wavelet.encodeLoop lg transform pm bl (Wavelet.blockTicks bl ts fs) budget
    (Wavelet.splitLoop bl s (Wavelet.numBlocks bl s.length) 0) 0 e) _ = _ at h
  cases he : Wavelet.encodeLoop lg transform pm bl (Wavelet.blockTicks bl ts fs) budget
    (Wavelet.splitLoop bl s (Wavelet.numBlocks bl s.length) 0) 0 e with
  | error x => rw [he] at h; cases h
  | ok es =>
    rw [he] at h
    obtain rfl := Except.ok.inj h
    obtain ⟨-, hpos⟩ := encodeLoop_positions _ _ _ _ he
    simp only at h2 hsize hmax k2 k3
    generalize hB : Wavelet.blockTicks bl ts fs = B at he hpos hsent k2
    generalize hwb : waveletBand cutoff ⟨fs, B, es⟩ = b at hsent ⊢
    have hbt : b.bandType = BandType.WaveletWave := by rw [← hwb]; rfl
    have hbl : b.blockLength = some (B : Int) := by rw [← hwb]; rfl
    have hbe : b.effects = es.map (fun e => { position := e.1, waveletBitstream := e.2 }) := by rw [← hwb]; rfl
    have hlen : b.effects.length = es.length := by rw [hbe]; exact List.length_map _
    have hne : b.effects ≠ [] := List.ne_nil_of_length_pos (by omega)
    have hcr : ∀ x, createWaveletPayload pd b ≠ .error x := by
      intro x hx
      unfold packetizeBand at hsent
      rw [if_pos hbt, hx] at hsent
      cases hsent
    have hB0 : 0 < B := by
      rcases Nat.eq_zero_or_pos B with h0 | h0
      · exact absurd (c58_zero_unsafe pd b (by rw [hbl, h0]; rfl)) (hcr _)
      · exact h0
    have hpd : B ≤ pd := by
      by_contra hc
      exact hcr _ (c58_diverge_negation b B pd hbl (by omega) hne).1
    obtain ⟨sent, hk, bs', ids'', hb1, -, -, hb3⟩ := c58_received b hbt B pd hbl hB0 hpd addr hap hac hab none
      (fun s hs => by cases hs)
      (fun f hf => by
        rw [hbe] at hf
        obtain ⟨x, -, rfl⟩ := List.mem_map.mp hf
        rfl)
      (fun f hf => by
        rw [hbe] at hf
        obtain ⟨x, hx, rfl⟩ := List.mem_map.mp hf
        exact hsize x hx) ids hids (by rw [hlen]; exact hmax)
    obtain ⟨rfl, rfl⟩ := Prod.mk.inj (Except.ok.inj (hb1.symm.trans hsent))
    obtain ⟨t, ht⟩ := hb3 ps hps r p c k band _ hband k1 k2 (Int.emod_nonneg _ (by decide)) (by rw [k3]; exact_mod_cast hfs) k4 k6
    refine ⟨_, _, ht, hband.modify _ _ rfl rfl, ?_⟩
    show ((placedFrom _ _ _ _ 0 sent).map (·.position) = _ ↔ _) ∧ (_ → (placedFrom _ _ _ _ 0 sent).map (·.waveletBitstream) = _)
    simp only
    have hesk : ∀ k < es.length, (b.effects.map (·.position))[k]? = some ((B * k : Nat) : Int) := by
      intro k hk'
      have := hpos k _ (List.getElem?_eq_getElem hk')
      rw [hbe, List.map_map, List.getElem?_map, List.getElem?_eq_getElem hk']
      simp only [Option.map_some, Function.comp, this, Nat.zero_add]
      rw [Nat.mul_comm]
    have hone : pd < 2 * B → sent = b.effects := by
      intro hlt
      have h1 : pd / B = 1 := Nat.div_eq_of_lt_le (by omega) (by omega)
      refine List.ext_getElem? fun k => ?_
      rw [hk, h1, Nat.one_mul]
    have hplaced : ∀ (l : List Effect) (n : Int) (j k : Nat), k < l.length →
        ((placedFrom (r.timescale : Int) ((B : Int) % 256) band.upperFrequencyLimit n j l).map (·.position))[k]? =
          some (((ts * (B % 256) * (j + k) / fs : Nat)) : Int) := by
      intro l
      induction l with
      | nil => intro n j k hk'; cases hk'
      | cons e l ih =>
        intro n j k hk'
        rw [placedFrom, List.map_cons]
        cases k with
        | zero =>
          rw [List.getElem?_cons_zero, k3, k5]
          unfold blockStart
          push_cast
          rfl
        | succ k =>
          rw [List.getElem?_cons_succ, ih _ _ k (by simpa using hk'), show j + 1 + k = j + (k + 1) by omega]
    have hbits : ∀ (l : List Effect) (a b c n : Int) (j : Nat), (placedFrom a b c n j l).map (·.waveletBitstream) = l.map (·.waveletBitstream) := by
      intro l
      induction l with
      | nil => intros; rfl
      | cons e l ih => intro a b c n j; rw [placedFrom, List.map_cons, List.map_cons, ih]; rfl
    have hlenp : ∀ (l : List Effect) (a b c n : Int) (j : Nat), (placedFrom a b c n j l).length = l.length := by
      intro l
      induction l with
      | nil => intros; rfl
      | cons e l ih => intro a b c n j; rw [placedFrom, List.length_cons, List.length_cons, ih]
    refine ⟨⟨fun heq => ?_, fun ⟨hlt, hall⟩ => ?_⟩, fun hlt => by rw [hbits, hone hlt]⟩
    · have hls : sent.length = es.length := by
        have := congrArg List.length heq
        rwa [List.length_map, List.length_map, hlenp, hlen] at this
      refine ⟨?_, fun k hk' => ?_⟩
      · by_contra hge
        have hn : 2 ≤ pd / B := (Nat.le_div_iff_mul_le hB0).mpr (by omega)
        have : sent[es.length - 1]? = none := by
          rw [hk, List.getElem?_eq_none]
          have : 2 * (es.length - 1) ≤ pd / B * (es.length - 1) := Nat.mul_le_mul_right _ hn
          omega
        have := List.getElem?_eq_none_iff.mp this
        omega
      · have h1 := congrArg (fun l => l[k]?) heq
        rw [hplaced sent _ 0 k (by omega), hesk k hk', Nat.zero_add] at h1
        exact_mod_cast Option.some.inj h1
    · rw [hone hlt]
      refine List.ext_getElem? fun k => ?_
      by_cases hk' : k < es.length
      · rw [hplaced _ _ 0 k (by omega), hesk k hk', Nat.zero_add, hall k hk']
      · rw [List.getElem?_eq_none (by rw [List.length_map, hlenp]; omega), List.getElem?_eq_none (by rw [List.length_map]; omega)]

/-- **C96, what does not hold.** When the blocks have 256 samples or more – the encoder makes blocks of 1024 samples unless
told otherwise – or when there are fewer ticks than samples in a second, no packet duration helps: a recording of two
blocks or more is not sent at all, or a receiver that knows the band as it is transmitted (`c17_blockLength_wraps`) does
not have the blocks where the encoder has them. -/
theorem c96_blocks_negation {lg : ℚ → ℚ} {transform : List ℚ → List ℚ} {pm : List ℚ → Wavelet.Model} {bl fs ts : Nat}
    {budget : Int} {s : List ℚ} {e : Spiht.Encoder} {w : Wavelet.WaveletBand} {cutoff : ℚ}
    (h : Wavelet.encodeSignal lg transform pm bl fs ts budget s e = .ok w) (hset : 256 ≤ bl ∨ ts < fs)
    (h2 : 2 ≤ w.effects.length) (hsize : ∀ f ∈ w.effects, f.2.length < 65536)
    (pd : Nat) (addr : Address) (hap : U 8 addr.perceId) (hac : U 16 addr.channelId) (hab : U 8 addr.bandId)
    (ids : List Int) (hids : ∀ i ∈ ids, -1 ≤ i) (hmax : nextEffectId ids + w.effects.length ≤ 65536)
    (bs : List Bits) (ids' : List Int) (hsent : packetizeBand pd addr (waveletBand cutoff w) ids = .ok (bs, ids'))
    (ps : List (Int × Bits))
    (hps : List.Forall₂ (fun x y => x.1 = timestampOf y ∧ ∃ rest, x.2 = y.drop 32 ++ rest) ps bs)
    (r : Reader) (p c k : Nat) (band : Band) (hband : HasBand r addr p c k band)
    (k1 : band.bandType = BandType.WaveletWave) (k2 : band.blockLength = some (((w.blockLength : Nat) : Int) % 256))
    (k3 : band.upperFrequencyLimit = w.upper) (k4 : band.effects = []) (k5 : r.timescale = ts) (k6 : r.waitSync = false) :
    ∃ r' band', receiveAll ps r = .ok r' ∧ HasBand r' addr p c k band' ∧
      band'.effects.map (·.position) ≠ (waveletBand cutoff w).effects.map (·.position) := by
  have hfs : 0 < fs := by
    rcases Nat.eq_zero_or_pos fs with h0 | h0
    · unfold Wavelet.encodeSignal at h
      rw [if_pos h0] at h
      cases h
    · exact h0
  have hwb : w.blockLength = bl * ts / fs := encodeSignal_blockLength h
  obtain ⟨r', band', e1, e2, e3, -⟩ := c96_blocks_exact (cutoff := cutoff) h h2 hsize pd addr hap hac hab ids hids hmax bs ids' hsent ps hps r p c k band
    hband k1 k2 k3 k4 k5 k6
  refine ⟨r', band', e1, e2, fun heq => ?_⟩
  obtain ⟨hlt, hall⟩ := e3.mp heq
  have := hall 1 (by omega)
  rw [Nat.mul_one, Nat.mul_one, hwb] at this
  exact second_block hfs hset (by omega) this

/-- The condition of `c96_blocks_exact` is met when there are as many ticks as samples in a second and blocks have less than 256 samples; -/
theorem right_times {bl fs ts : Nat} (hfs : 0 < fs) (h : ts = fs) (hbl : bl < 256) (k : Nat) :
    ts * (bl * ts / fs % 256) * k / fs = bl * ts / fs * k := by
  subst h
  rw [Nat.mul_div_cancel _ hfs, Nat.mod_eq_of_lt hbl, Nat.mul_assoc, Nat.mul_div_cancel_left _ hfs]

/-- and, by coincidence, with blocks of 128 samples and three times as many ticks as samples: 384 modulo 256 is 128.  With twice or four times as many
it is not. -/
example : (∀ k : Nat, 24000 * (128 * 24000 / 8000 % 256) * k / 8000 = 128 * 24000 / 8000 * k) ∧
    16000 * (128 * 16000 / 8000 % 256) * 1 / 8000 ≠ 128 * 16000 / 8000 * 1 ∧ 32000 * (128 * 32000 / 8000 % 256) * 1 / 8000 ≠ 128 * 32000 / 8000 * 1 := by
  refine ⟨fun k => by omega, by decide, by decide⟩

/-- Non-vacuity: twelve samples at 8 kHz in blocks of eight, with 1000 ticks a second, are two blocks, which are sent when
the packets have one tick; a receiver knows the band. -/
example : ∃ (w : Wavelet.WaveletBand) (r : Reader) (band : Band),
    Wavelet.encodeSignal (fun x => x) (fun l => l) (fun _ => ⟨[1, 2], [.fin 0, .fin 3]⟩) 8 8000 1000 12
      (List.replicate 12 (1 / 3)) {} = .ok w ∧ 2 ≤ w.effects.length ∧ (∀ f ∈ w.effects, f.2.length < 65536) ∧
    ((packetizeBand 1 ⟨4, 2, 9⟩ (waveletBand 0 w) []).toOption.isSome) ∧ HasBand r ⟨4, 2, 9⟩ 0 0 0 band ∧
    band.bandType = BandType.WaveletWave ∧ band.blockLength = some (((w.blockLength : Nat) : Int) % 256) ∧
    band.upperFrequencyLimit = w.upper ∧ band.effects = [] ∧ r.timescale = 1000 ∧ r.waitSync = false := by
  obtain ⟨w, h1, h2⟩ := of_summary (show (Wavelet.encodeSignal (fun x => x) (fun l => l)
    (fun _ => ⟨[1, 2], [.fin 0, .fin 3]⟩) 8 8000 1000 12 (List.replicate 12 (1 / 3)) {}).toOption.map
      (fun w => (w.upper, w.blockLength, w.effects.length, w.effects.all (fun f => decide (f.2.length < 65536)),
        (packetizeBand 1 ⟨4, 2, 9⟩ (waveletBand 0 w) []).toOption.isSome)) = some (8000, 1, 2, true, true) by decide +kernel)
  simp only [Prod.mk.injEq] at h2
  obtain ⟨h3, h4, h5, h6, h7⟩ := h2
  let band : Band := { bandType := BandType.WaveletWave, blockLength := some 1, upperFrequencyLimit := 8000 }
  let haptic : Experience := { perceptions := [{ id := 4, channels := [{ id := 2, bands := [band] }] }] }
  refine ⟨w, { haptic := haptic, bandStreams := [(9, 0)], timescale := 1000 }, band, h1, h5.ge, fun f hf => by simpa using List.all_eq_true.mp h6 f hf, h7,
    ⟨rfl, rfl, rfl, _, rfl, rfl⟩, rfl, by rw [h4]; rfl, by rw [h3]; rfl, rfl, rfl, rfl⟩

/-- A wavelet encoder with the identity for the transform, for recordings whose low frequencies are in a curve. -/
def curveParts (bl fs ts : Nat) (limit : ℚ) : Pcm.Parts where
  lowPass := fun s _ => s
  evaluate := fun _ m => .ok (List.replicate m 0)
  wavelet := fun s => (Wavelet.encodeSignal (fun x => x) (fun l => l) (fun _ => ⟨[1, 2], [.fin 0, .fin 3]⟩) bl fs ts 12 s
    {}).map (fun w => some (waveletBand limit w))

theorem curveParts_ok (bl fs ts : Nat) (limit : ℚ) : WaveletParts (curveParts bl fs ts limit) bl fs ts limit := by
  intro s w h
  unfold curveParts at h
  simp only at h
  generalize hb : Wavelet.encodeSignal (fun x => x) (fun l => l) (fun _ => ⟨[1, 2], [.fin 0, .fin 3]⟩) bl fs ts 12 s {} = r
    at h
  cases r with
  | error e => cases h
  | ok band => exact ⟨_, _, _, _, _, band, hb, (Except.ok.inj h).symm⟩

/-- `Wav.Compact`, as a test. -/
def compact (q : Perception) : Bool :=
  q.channels.all (fun c => c.bands.all (fun b => b.effects.all (fun e => decide (e.waveletBitstream.length < 65536)))) &&
  decide (((((q.channels.flatMap (·.bands)).filter (fun b => b.bandType = BandType.WaveletWave)).flatMap (·.effects)).map
    (fun e => e.waveletBitstream.length + 24)).sum ≤ 9000000)

theorem compact_sound {q : Perception} (h : compact q = true) : Wav.Compact q := by
  unfold compact at h
  rw [Bool.and_eq_true] at h
  refine ⟨fun c hc b hb e he => ?_, of_decide_eq_true h.2⟩
  simpa using List.all_eq_true.mp (List.all_eq_true.mp (List.all_eq_true.mp h.1 c hc) b hb) e he

/-- A recording of two channels. -/
def stereo : Wav.Parser := ⟨8000, 2, 24, [[1 / 3, 1 / 2, 1 / 4, 0, -1 / 3, -1 / 2, 1 / 8, 1 / 3, 1 / 2, 1 / 4, 0, -1 / 3],
  [1 / 2, 1 / 4, 0, 1 / 3, 1 / 2, 1 / 4, 0, -1 / 3, -1 / 2, 1 / 8, 1 / 3, 1 / 2]]⟩

/-- Non-vacuity: it is encoded with curves up to 50 Hz and wavelet blocks of eight samples, and meets the hypotheses. -/
example : ∃ q, Pcm.encode (curveParts 8 8000 8000 50) { curveFrequencyLimit := 50 } 8000 (some stereo) blank = .ok (0, q) ∧
    Wav.Streamable (curveParts 8 8000 8000 50) { curveFrequencyLimit := 50 } 8000 8 8 stereo ∧ Wav.Compact q ∧
    q.channels.map (fun c => c.bands.map (fun b => (b.bandType, b.effects.length))) = [[(1, 1), (3, 2)], [(1, 1), (3, 2)]] := by
  obtain ⟨⟨n, q⟩, q1, q2⟩ := of_summary (show (Pcm.encode (curveParts 8 8000 8000 50) { curveFrequencyLimit := 50 } 8000
    (some stereo) blank).toOption.map (fun r => (r.1, compact r.2, r.2.channels.map (fun c => c.bands.map (fun b =>
      (b.bandType, b.effects.length))))) = some (0, true, [[(1, 1), (3, 2)], [(1, 1), (3, 2)]]) by decide +kernel)
  simp only [Prod.mk.injEq] at q2
  obtain ⟨rfl, q3, q4⟩ := q2
  have hs : ∀ s ∈ stereo.buffer, s.length = 12 := by decide
  refine ⟨q, q1, ⟨by decide, by norm_num, by norm_num, by decide, by decide, .inl rfl, fun s h => ⟨?_, ?_⟩, fun s _ => rfl,
    fun _ _ s h => ?_, fun _ => by decide, fun _ => by decide⟩, compact_sound q3, q4⟩
  · exact List.ne_nil_of_length_pos (by rw [hs s h]; decide)
  · rw [hs s h]; decide
  · rw [hs s h]; decide

/-- The times of the keyframes of a recording, as the encoder has them and as they are received, when the file is written as
units. -/
def heardWav (parts : Pcm.Parts) (cfg : Pcm.Config) (ts d : Nat) (w : Wav.Parser) :
    Option (List (Option Int) × List (Option Int)) :=
  match Pcm.encode parts cfg ts (some w) blank with
  | .ok (_, q) => match writeUnits (imported ts q) d with
    | .ok units => match readUnits dispatch units units {} with
      | .ok (true, r) => some (times q, r.haptic.perceptions.flatMap times)
      | _ => none
    | .error _ => none
  | _ => none
where
  times (p : Perception) : List (Option Int) := p.channels.flatMap (fun c => c.bands.flatMap (fun b =>
    b.effects.flatMap (fun e => e.keyframes.map (·.relativePosition))))

/-- **C96, what does not hold.** Times in curves have 16 bits: of a curve with keyframes at 0, 40000 and 80000 ticks the last
one is received at 14464. -/
theorem c96_curve_negation : ∃ (parts : Pcm.Parts) (cfg : Pcm.Config) (w : Wav.Parser), cfg.waveletEnabled = false ∧
    heardWav parts cfg 40000 7000 w = some ([some 0, some 40000, some 80000], [some 0, some 40000, some 14464]) :=
  ⟨curveParts 8 1 40000 50, { waveletEnabled := false, curveFrequencyLimit := 50 }, ⟨1, 1, 3, [[0, 1 / 2, 0]]⟩, rfl,
    by decide +kernel⟩

end Haptics.Imported
