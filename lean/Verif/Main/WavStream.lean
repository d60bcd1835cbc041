import Verif.Main.SpecWavStream
import Verif.Main.Streamed
import Verif.Main.WavTyped
import Verif.Encoder.PropsPcmCurve
import Verif.Encoder.PropsPcmEncode

/-! The bands that are made of a recording are ready to be streamed. -/

namespace Haptics.Imported
open Haptics Haptics.Accepted
open Haptics.EncoderMain (blank)

/-! ### Curves -/

theorem extrema_bounds {s : List ℚ} (hs : s ≠ []) :
    (Pcm.localExtrema s true).Pairwise (fun p q => p.1 ≤ q.1) ∧
    (∀ p ∈ Pcm.localExtrema s true, 0 ≤ p.1 ∧ p.1 < s.length) ∧ Pcm.localExtrema s true ≠ [] := by
  match s, hs with
  | [a], _ =>
    refine ⟨?_, fun p hp => ?_, ?_⟩
    · simp [Pcm.localExtrema]
    · simp [Pcm.localExtrema] at hp; simp [hp]
    · simp [Pcm.localExtrema]
  | a :: b :: l, _ =>
    obtain ⟨h1, h2, ⟨v, h3, h4⟩, -⟩ := Pcm.c41_points (a :: b :: l) (by simp)
    refine ⟨h1.imp (fun h => h.le), fun p hp => ?_, fun h => ?_⟩
    · obtain ⟨k, hk, hk2⟩ := h2 p hp
      have := (List.getElem?_eq_some_iff.mp hk2).1
      rw [hk]
      omega
    · rw [h] at h4
      cases h4

/-- The curve of a signal that is not empty and not longer than 65534 ticks. -/
theorem curve_fresh {cfg : Pcm.Config} {ts modality rate : Nat} {s : List ℚ} {b : Band} (hs : s ≠ [])
    (hr : 0 < rate ∧ rate < 2 ^ 16) (hl : 0 ≤ cfg.curveFrequencyLimit ∧ cfg.curveFrequencyLimit < 2 ^ 16)
    (hlen : s.length * ts ≤ 65534 * rate)
    (h : Pcm.CurveOf cfg ts modality rate s b) :
    Fresh b ∧ ∃ e, b.effects = [e] ∧ e.keyframes ≠ [] ∧ e.eventTimes.Pairwise (· < ·) ∧
      ∀ t ∈ e.eventTimes, 0 ≤ t ∧ t ≤ 65534 := by
  obtain ⟨b0, h1, rfl⟩ := h
  have hlim : ∃ limit : ℚ, (if 0 < cfg.curveFrequencyLimit then cfg.curveFrequencyLimit else (rate : ℚ)) = limit ∧
      0 < limit ∧ limit < 2 ^ 16 := by
    refine ⟨_, rfl, ?_⟩
    split
    · rename_i h0; exact ⟨h0, hl.2⟩
    · exact ⟨by exact_mod_cast hr.1, by exact_mod_cast hr.2⟩
  obtain ⟨limit, he, l1, l2⟩ := hlim
  rw [he] at h1
  obtain ⟨p1, p2, p3⟩ := extrema_bounds hs
  have hrq : (0 : ℚ) < rate := by exact_mod_cast hr.1
  have hq : ∀ p ∈ Pcm.localExtrema s true, (ts : ℚ) * p.1 / rate ≤ 65534 := by
    intro p hp
    obtain ⟨g1, g2⟩ := p2 p hp
    rw [div_le_iff₀ hrq]
    have : (p.1 : Int) * ts ≤ 65534 * rate := by
      have := Int.mul_le_mul_of_nonneg_right g2.le (Int.natCast_nonneg ts)
      have h3 : ((s.length * ts : Nat) : Int) ≤ ((65534 * rate : Nat) : Int) := by exact_mod_cast hlen
      push_cast at h3
      omega
    have h4 : ((p.1 * ts : Int) : ℚ) ≤ ((65534 * rate : Int) : ℚ) := by exact_mod_cast this
    push_cast at h4
    linarith
  have hbig : ∀ p ∈ Pcm.localExtrema s true, (ts : Int) * p.1 < 2 ^ 53 := by
    intro p hp
    obtain ⟨g1, g2⟩ := p2 p hp
    have h3 : ((s.length * ts : Nat) : Int) ≤ ((65534 * rate : Nat) : Int) := by exact_mod_cast hlen
    push_cast at h3
    have := Int.mul_le_mul_of_nonneg_left g2.le (Int.natCast_nonneg ts)
    have h5 : ((rate : Nat) : Int) < 2 ^ 16 := by exact_mod_cast hr.2
    nlinarith
  have hok : ∀ p ∈ Pcm.localExtrema s true, ∃ t, Pcm.tick ts rate p.1 = .ok t ∧ 0 ≤ t ∧ t ≤ 65534 := by
    intro p hp
    obtain ⟨k1, k2⟩ := Pcm.tick_ok ts hrq (p2 p hp).1 (hbig p hp) ((hq p hp).trans (by norm_num))
    refine ⟨_, k1, Pcm.tickOf_nonneg ts hrq (p2 p hp).1, ?_⟩
    have h5 := (abs_le.mp k2).2
    have h6 := hq p hp
    have h7 : ((Pcm.tickOf ts rate p.1 : Int) : ℚ) < 65535 := by linarith
    have h8 : Pcm.tickOf ts rate p.1 < 65535 := by exact_mod_cast h7
    omega
  obtain ⟨b1, e, c1, ⟨c2, -⟩, c3, ⟨c4, -⟩, c5, c6⟩ := Pcm.c41_keyframes ts rate limit hrq l1 (l2.le.trans (by norm_num)) _
    (fun p hp => ⟨(p2 p hp).1, hbig p hp, (hq p hp).trans (by norm_num)⟩) p1
  obtain rfl : b0 = b1 := Option.some.inj (Except.ok.inj (h1.symm.trans c1))
  -- the shape of the band
  have hshape : ∃ kfs, b0 = Pcm.curveBand (truncQ limit) kfs := by
    unfold Pcm.convertToCurveBand at h1
    rw [if_neg (not_le.mpr l1), Ahap.castInt_ok (by linarith) (l2.le.trans (by norm_num))] at h1
    change Except.bind (Pcm.keyframesLoop ts rate (Pcm.localExtrema s true) (-1) []) _ = _ at h1
    cases hk : Pcm.keyframesLoop ts rate (Pcm.localExtrema s true) (-1) [] with
    | error x => rw [hk] at h1; cases h1
    | ok kfs =>
      rw [hk] at h1
      exact ⟨kfs, (Option.some.inj (Except.ok.inj h1)).symm⟩
  obtain ⟨kfs, rfl⟩ := hshape
  obtain rfl : { position := 0, phase := some 0, baseSignal := some 0, keyframes := kfs } = e :=
    (List.cons.inj (show [_] = [e] from c3)).1
  replace c5 : kfs.Pairwise (fun k m => ∃ x y, k.relativePosition = some x ∧ m.relativePosition = some y ∧ x < y) := c5
  replace c6 : ∀ k, k ∈ kfs ↔ _ := c6
  have hpos : ∀ k ∈ kfs, ∃ t v, k = ⟨some t, some v, none⟩ ∧ 0 ≤ t ∧ t ≤ 65534 := by
    intro k hk
    obtain ⟨l1', p, l2', hl', -, t, ht, rfl⟩ := (c6 k).mp hk
    obtain ⟨t', ht', ht0, ht1⟩ := hok p (by rw [hl']; simp)
    rw [ht] at ht'
    obtain rfl := Except.ok.inj ht'
    exact ⟨t, _, rfl, ht0, ht1⟩
  have hne : kfs ≠ [] := by
    obtain ⟨l0, p, hl0⟩ := (List.eq_nil_or_concat (Pcm.localExtrema s true)).resolve_left p3
    obtain ⟨t, ht, -⟩ := hok p (by rw [hl0]; simp)
    exact List.ne_nil_of_mem ((c6 ⟨some t, some (fl32 p.2), none⟩).mpr
      ⟨l0, p, [], by rw [hl0, List.concat_eq_append], fun q hq => (by cases hq), t, ht, rfl⟩)
  generalize hee : ({ position := 0, phase := some 0, baseSignal := some 0, keyframes := kfs } : Effect) = e
  have htimes : e.eventTimes = kfs.map (fun k => 0 + k.relativePosition.getD 0) := by
    rw [← hee]
    rfl
  have hmono : e.eventTimes.Pairwise (· < ·) := by
    rw [htimes, List.pairwise_map]
    refine c5.imp (fun {a c} hac => ?_)
    obtain ⟨x, y, hx, hy, hxy⟩ := hac
    rw [hx, hy]
    show 0 + x < 0 + y
    omega
  have hbound : ∀ t ∈ e.eventTimes, 0 ≤ t ∧ t ≤ 65534 := by
    intro t ht
    rw [htimes] at ht
    obtain ⟨k, hk, rfl⟩ := List.mem_map.mp ht
    obtain ⟨t, v, rfl, h0, h1⟩ := hpos k hk
    show 0 ≤ 0 + t ∧ 0 + t ≤ 65534
    omega
  have hcount : (kfs.length : Int) ≤ 65535 := by
    have := rising_length (xs := e.eventTimes) hmono (a := 0) (L := 65534) hbound (by norm_num)
    rw [htimes, List.length_map] at this
    omega
  have hlast : ∀ k ∈ kfs, k.relativePosition.getD 0 ≤ e.length := by
    intro k hk
    obtain ⟨l0, z, hz⟩ := (List.eq_nil_or_concat kfs).resolve_left hne
    have hel : e.length = z.relativePosition.getD 0 := by
      rw [← hee]
      show (kfs.getLast?.bind (·.relativePosition)).getD 0 = _
      rw [hz, List.concat_eq_append, List.getLast?_concat]
      rfl
    rw [hel]
    rw [hz, List.concat_eq_append] at hk c5
    rcases List.mem_append.mp hk with hk | hk
    · obtain ⟨x, y, hx, hy, hxy⟩ := (List.pairwise_append.mp c5).2.2 k hk z (by simp)
      rw [hx, hy]
      exact hxy.le
    · rw [List.mem_singleton.mp hk]
  have hfe : FreshEffect BandType.Curve e := by
    rw [← hee] at hlast hmono hbound ⊢
    refine ⟨rfl, rfl, ⟨⟨by show (0 : Int) ≤ 0; decide, by show (0 : Int) < 2 ^ 16; decide⟩, .inl rfl,
      fun s hs => (by cases hs), fun v hv => ?_, ?_, fun k hk => ?_⟩, hmono.imp (fun h => h.le), hne, fun k hk => ?_,
      fun t ht => ?_⟩
    · obtain rfl := Option.some.inj (show some 0 = some v from hv)
      decide
    · show kfs.length < 65536
      omega
    · obtain ⟨t, v, rfl, t0, t1⟩ := hpos k hk
      exact ⟨⟨t, rfl, t0, by show t < 2 ^ 16; omega⟩, fun v hv => (by cases hv), fun ht => (by cases ht), fun _ => rfl⟩
    · obtain ⟨t, v, rfl, -⟩ := hpos k hk
      rfl
    · have hb := hbound t ht
      obtain ⟨k, hk, rfl⟩ := List.mem_map.mp (show t ∈ kfs.map (fun k => 0 + k.relativePosition.getD 0) from ht)
      have := hlast k hk
      refine ⟨hb.1, ?_, hb.1, by omega⟩
      show _ ≤ 0 + _
      omega
  have hlen0 : 0 ≤ e.length := by
    obtain ⟨k, l', hk⟩ := List.exists_cons_of_ne_nil hne
    have hk' : k ∈ kfs := by rw [hk]; simp
    have := hlast k hk'
    obtain ⟨t, v, rfl, t0, -⟩ := hpos k hk'
    exact le_trans t0 this
  have heff : (Pcm.curveBand (truncQ limit) kfs).effects = [e] := by rw [← hee]; rfl
  have hup : 0 ≤ truncQ limit ∧ truncQ limit < 2 ^ 16 := by
    unfold truncQ
    rw [if_pos l1.le]
    exact ⟨Int.floor_nonneg.mpr l1.le, Int.floor_lt.mpr (by push_cast; exact l2)⟩
  refine ⟨fresh_band ⟨by show BandType.Curve < 8; decide, fun _ => ?_, fun hc => (by cases hc), fun v hv => (by cases hv),
    ⟨by show (0 : Int) ≤ 0; decide, by show (0 : Int) < 2 ^ 16; decide⟩, hup⟩ (.inr (.inl rfl)) ?_ (fun e' he' => ?_) ?_
    (fun e' he' => ?_), e, heff, by rw [← hee]; exact hne, hmono, hbound⟩
  · show Pcm.connection modality < 16
    unfold Pcm.connection
    split <;> decide
  · show List.Pairwise _ (Pcm.curveBand (truncQ limit) kfs).effects
    rw [heff]
    exact List.pairwise_singleton _ _
  · rw [show e' = e from List.mem_singleton.mp (by rw [← heff]; exact he')]
    exact hfe
  · rw [show ({ Pcm.curveBand (truncQ limit) kfs with curveType := some (Pcm.connection modality) } : Band).effects = [e]
      from heff]
    exact List.cons_ne_nil _ _
  · rw [show e' = e from List.mem_singleton.mp (by rw [← heff]; exact he')]
    exact hlen0

/-! ### Wavelet blocks -/

/-- The band of the wavelet encoder, when a tick is a sample. -/
theorem wavelet_fresh {lg : ℚ → ℚ} {transform : List ℚ → List ℚ} {pm : List ℚ → Wavelet.Model} {d fs : Nat}
    {budget : Int} {s : List ℚ} {e : Spiht.Encoder} {band : Wavelet.WaveletBand} {cutoff : ℚ}
    (h : Wavelet.encodeSignal lg transform pm d fs fs budget s e = .ok band) (hfs : 0 < fs ∧ fs < 2 ^ 16)
    (hd : 0 < d ∧ d < 256) (hl : 0 ≤ cutoff ∧ cutoff < 2 ^ 16) (hs : s ≠ []) (hlen : s.length ≤ 2 ^ 24)
    (hsize : ∀ f ∈ (waveletBand cutoff band).effects, f.waveletBitstream.length < 65536) :
    FreshBlocks fs d (waveletBand cutoff band) ∧ (waveletBand cutoff band).effects ≠ [] ∧
      (waveletBand cutoff band).effects.length ≤ s.length / d + 1 := by
  unfold Wavelet.encodeSignal at h
  rw [if_neg (show ¬ fs = 0 by omega)] at h
  have hticks : Wavelet.blockTicks d fs fs = d := Nat.mul_div_cancel _ hfs.1
  rw [hticks] at h
  change Except.bind (Wavelet.encodeLoop lg transform pm d d budget
    (Wavelet.splitLoop d s (Wavelet.numBlocks d s.length) 0) 0 e) _ = _ at h
  cases he : Wavelet.encodeLoop lg transform pm d d budget
    (Wavelet.splitLoop d s (Wavelet.numBlocks d s.length) 0) 0 e with
  | error x => rw [he] at h; cases h
  | ok es =>
    rw [he] at h
    obtain rfl := Except.ok.inj h
    obtain ⟨p1, p2⟩ := encodeLoop_positions _ _ _ _ he
    rw [splitLoop_length] at p1
    have hs0 : 0 < s.length := List.length_pos_iff.mpr hs
    have hn : Wavelet.numBlocks d s.length = (s.length - 1) / d + 1 := by
      unfold Wavelet.numBlocks
      rw [show s.length + d - 1 = (s.length - 1) + d by omega, Nat.add_div_right _ hd.1]
    have hle : (s.length - 1) / d ≤ s.length / d := Nat.div_le_div_right (by omega)
    have hposn : ∀ (i : Nat) (x : Nat × List UInt8), es[i]? = some x → x.1 = i * d ∧ x.1 < 2 ^ 24 := by
      intro i x hx
      have h1 := p2 i x hx
      have h2 := (List.getElem?_eq_some_iff.mp hx).1
      rw [p1, hn] at h2
      have h3 : i * d ≤ s.length - 1 := (Nat.le_div_iff_mul_le hd.1).mp (by omega)
      omega
    have hlen' : (waveletBand cutoff ⟨fs, d, es⟩).effects.length = es.length := List.length_map _
    refine ⟨⟨⟨by show BandType.WaveletWave < 8; decide, fun hc => (by cases hc), fun _ => ?_, fun v hv => (by cases hv),
      ?_, ?_⟩, rfl, rfl, rfl, hfs.1, fun f hf => ?_, ⟨fun j f hj => ?_, fun f hf => ?_, hsize⟩, fun f hf => ?_⟩, ?_, ?_⟩
    · exact ⟨by show (0 : Int) ≤ (d : Int); omega, by show (d : Int) < 2 ^ 8; omega⟩
    · show 0 ≤ truncQ cutoff ∧ truncQ cutoff < 2 ^ 16
      unfold truncQ
      rw [if_pos hl.1]
      exact ⟨Int.floor_nonneg.mpr hl.1, Int.floor_lt.mpr (by push_cast; exact hl.2)⟩
    · exact ⟨by show (0 : Int) ≤ (fs : Int); omega, by show (fs : Int) < 2 ^ 16; omega⟩
    · obtain ⟨x, -, rfl⟩ := List.mem_map.mp hf
      exact ⟨rfl, rfl, rfl⟩
    · have hj : (es.map _)[j]? = some f := hj
      rw [List.getElem?_map] at hj
      obtain ⟨x, hx, rfl⟩ := Option.map_eq_some_iff.mp hj
      show ((x.1 : Nat) : Int) = _
      rw [(hposn j x hx).1]
      push_cast
      rfl
    · obtain ⟨x, -, rfl⟩ := List.mem_map.mp hf
      rfl
    · obtain ⟨x, hx, rfl⟩ := List.mem_map.mp hf
      obtain ⟨i, hi⟩ := List.getElem?_of_mem hx
      have := (hposn i x hi).2
      show ((x.1 : Nat) : Int) < 2 ^ 24
      omega
    · intro hc
      rw [hc, List.length_nil, p1, hn] at hlen'
      exact absurd hlen' (Nat.succ_ne_zero _).symm
    · rw [hlen', p1, hn]
      exact Nat.add_le_add_right hle 1

/-! ### The bands of a signal -/

/-- What streaming needs of the bands of a channel. -/
structure Prepared (ts d n : Nat) (bands : List Band) : Prop where
  ready : ∀ b ∈ bands, Fresh b ∨ FreshBlocks ts d b
  some : bands ≠ []
  full : ∀ b ∈ bands, b.effects ≠ [] ∧ ∀ e ∈ b.effects, ¬ e.Void b.bandType
  dense : ∀ b ∈ bands, ∀ t, eventsIn t (t + d) b.effects ≤ d
  few : bands.length ≤ 2
  effects : (bands.flatMap (·.effects)).length ≤ n
  events : ((bands.flatMap (·.effects)).flatMap Effect.eventTimes).length ≤ 65535

theorem curve_prepared {ts d : Nat} {b : Band} (hf : Fresh b) {e : Effect} (he : b.effects = [e]) (hk : e.keyframes ≠ [])
    (hm : e.eventTimes.Pairwise (· < ·)) (hb : ∀ t ∈ e.eventTimes, 0 ≤ t ∧ t ≤ 65534) : Prepared ts d 1 [b] := by
  refine ⟨fun x hx => ?_, List.cons_ne_nil _ _, fun x hx => ?_, fun x hx t => ?_, by simp, ?_, ?_⟩
  · rw [List.mem_singleton.mp hx]; exact .inl hf
  · rw [List.mem_singleton.mp hx]
    refine ⟨hf.filled, fun e' he' hv => ?_⟩
    rw [he] at he'
    rw [List.mem_singleton.mp he'] at hv
    exact hk hv.2.2
  · rw [List.mem_singleton.mp hx, he]
    unfold eventsIn
    rw [List.flatMap_cons, List.flatMap_nil, List.append_nil]
    have h := rising_length (hm.sublist List.filter_sublist) (a := t) (L := t + d - 1)
      (xs := e.eventTimes.filter (fun x => decide (t ≤ x ∧ x < t + d))) (fun x hx => by
        have := of_decide_eq_true (List.mem_filter.mp hx).2
        omega) (by omega)
    omega
  · simp [he]
  · simp only [List.flatMap_cons, List.flatMap_nil, List.append_nil, he]
    have := rising_length hm (a := 0) (L := 65534) hb (by norm_num)
    omega

theorem blocks_events {ts d : Nat} {b : Band} (hf : FreshBlocks ts d b) : b.effects.flatMap Effect.eventTimes = [] := by
  rw [List.flatMap_eq_nil_iff]
  intro e he
  obtain ⟨-, h1, h2⟩ := hf.effects e he
  unfold Effect.eventTimes
  rw [if_pos h1, h2]
  rfl

theorem wavelet_prepared {ts d n : Nat} {b : Band} (hf : FreshBlocks ts d b) (h0 : b.effects ≠ [])
    (hn : b.effects.length ≤ n) : Prepared ts d n [b] := by
  have he := blocks_events hf
  refine ⟨fun x hx => ?_, List.cons_ne_nil _ _, fun x hx => ?_, fun x hx t => ?_, by simp, ?_, ?_⟩
  · rw [List.mem_singleton.mp hx]; exact .inr hf
  · rw [List.mem_singleton.mp hx]
    exact ⟨h0, fun e he' hv => hv.1 hf.bandType⟩
  · rw [List.mem_singleton.mp hx]
    unfold eventsIn
    rw [he]
    exact Nat.zero_le _
  · simpa using hn
  · simp [he]

theorem both_prepared {ts d n : Nat} {b b' : Band} (h : Prepared ts d 1 [b]) (h' : Prepared ts d n [b'])
    (hf : FreshBlocks ts d b') : Prepared ts d (n + 1) [b, b'] := by
  have he := blocks_events hf
  have hmem : ∀ x ∈ [b, b'], x ∈ [b] ∨ x ∈ [b'] := fun x hx => by simpa using hx
  refine ⟨fun x hx => (hmem x hx).elim (h.ready x) (h'.ready x), List.cons_ne_nil _ _,
    fun x hx => (hmem x hx).elim (h.full x) (h'.full x), fun x hx => (hmem x hx).elim (h.dense x) (h'.dense x), by simp,
    ?_, ?_⟩
  · have h1 := h.effects
    have h2 := h'.effects
    simp only [List.flatMap_cons, List.flatMap_nil, List.append_nil, List.length_append] at h1 h2 ⊢
    omega
  · have h1 := h.events
    simp only [List.flatMap_cons, List.flatMap_nil, List.append_nil, List.flatMap_append, he] at h1 ⊢
    exact h1

theorem bands_prepared {parts : Pcm.Parts} {cfg : Pcm.Config} {ts bl d : Nat} {w : Wav.Parser}
    (hst : Wav.Streamable parts cfg ts bl d w)
    (hw : WaveletParts parts bl w.sampleRate.toNat ts cfg.curveFrequencyLimit) {s : List ℚ} (hs : s ∈ w.buffer)
    {new : List Band} (hsize : ∀ b ∈ new, ∀ e ∈ b.effects, e.waveletBitstream.length < 65536) {modality : Nat}
    (h : Pcm.Bands parts cfg ts modality w.sampleRate.toNat s new) :
    Prepared ts d (if cfg.waveletEnabled = true then s.length / d + 2 else 1) new := by
  have hr : 0 < w.sampleRate.toNat ∧ w.sampleRate.toNat < 2 ^ 16 := by have := hst.rate; omega
  obtain ⟨s1, s2⟩ := hst.samples s hs
  have hlow : parts.lowPass s cfg.curveFrequencyLimit ≠ [] := by
    intro hc
    have := hst.filter s hs
    rw [hc] at this
    exact s1 (List.length_eq_zero_iff.mp this.symm)
  have curve : ∀ (x : List ℚ) (b : Band), x ≠ [] → x.length = s.length → cfg.vectorialEnabled = true →
      (cfg.waveletEnabled = false ∨ 0 < cfg.curveFrequencyLimit) →
      Pcm.CurveOf cfg ts modality w.sampleRate.toNat x b → Prepared ts d 1 [b] := by
    intro x b hx hxl hv hwv hc
    obtain ⟨k1, e, k2, k3, k4, k5⟩ := curve_fresh hx hr hst.limit (by rw [hxl]; exact hst.curves hv hwv s hs) hc
    exact curve_prepared k1 k2 k3 k4 k5
  have wave : ∀ (x : List ℚ) (o : Option Band), x.length = s.length → cfg.waveletEnabled = true →
      parts.wavelet x = .ok o → (∀ b ∈ o.toList, ∀ e ∈ b.effects, e.waveletBitstream.length < 65536) →
      ∃ b, o = some b ∧ FreshBlocks ts d b ∧ Prepared ts d (s.length / d + 1) [b] := by
    intro x o hxl hwe hx hsz
    obtain ⟨lg, transform, pm, budget, e, band, g1, rfl⟩ := hw x o hx
    obtain ⟨t1, rfl, t3⟩ := hst.wavelets hwe
    rw [← t1] at g1 hr
    obtain ⟨f1, f2, f3⟩ := wavelet_fresh g1 hr ⟨hst.packet.1, t3⟩ hst.limit
      (by intro hc; rw [hc] at hxl; exact s1 (List.length_eq_zero_iff.mp hxl.symm)) (by rw [hxl]; exact s2)
      (fun f hf => hsz _ (by simp) f hf)
    rw [hxl] at f3
    exact ⟨_, rfl, f1, wavelet_prepared f1 f2 f3⟩
  have more : ∀ {n m : Nat} {l : List Band}, n ≤ m → Prepared ts d n l → Prepared ts d m l := fun hnm hp =>
    ⟨hp.1, hp.2, hp.3, hp.4, hp.5, hp.6.trans hnm, hp.7⟩
  cases h with
  | none h1 h2 =>
    rcases hst.enabled with he | he
    · rw [h1] at he; cases he
    · rw [h2] at he; cases he
  | curve b h1 h2 h3 h4 =>
    rw [if_neg (by simp [h2])]
    exact curve s b s1 rfl h1 (.inl h2) h4
  | low b h1 h2 h3 h4 =>
    rw [if_neg (by simp [h2])]
    exact curve _ b hlow (hst.filter s hs) h1 (.inl h2) h4
  | wavelet o h1 h2 h3 =>
    rw [if_pos h1]
    obtain ⟨b, rfl, -, k⟩ := wave s o rfl h1 h3 hsize
    exact more (by omega) k
  | high r o h1 h2 h3 h4 h5 =>
    rw [if_pos h2]
    obtain ⟨b, rfl, -, k⟩ := wave r o h4.1 h2 h5 hsize
    exact more (by omega) k
  | both b e r o h1 h2 h3 h4 h5 h6 h7 =>
    rw [if_pos h2]
    obtain ⟨b', rfl, k1, k2⟩ := wave r o h6.1 h2 h7 (fun b' hb' => hsize b' (List.mem_cons_of_mem _ hb'))
    exact both_prepared (curve _ b hlow (hst.filter s hs) h1 (.inr h3) h4) k2 k1

/-! ### What is void -/

/-- Nothing is void. -/
theorem channels_full {ts : Nat} {cs : List Channel} (h0 : cs ≠ []) (h : ∀ c ∈ cs, c.bands ≠ [] ∧
    ∀ b ∈ c.bands, b.effects ≠ [] ∧ ∀ e ∈ b.effects, ¬ e.Void b.bandType) :
    (channelsOf ts cs).prune = channelsOf ts cs ∧ (channelsOf ts cs).Spaced := by
  have hb : ∀ c ∈ cs, ∀ b ∈ c.bands, b.prune = b := by
    intro c hc b hb
    unfold Band.prune
    rw [List.filter_eq_self.mpr]
    intro e he
    simpa using ((h c hc).2 b hb).2 e he
  have hc : ∀ c ∈ cs, c.prune = c := by
    intro c hc'
    have h1 : c.bands.map Band.prune = c.bands := by
      conv_rhs => rw [← List.map_id c.bands]
      exact List.map_congr_left (hb c hc')
    unfold Channel.prune
    rw [h1, List.filter_eq_self.mpr (fun b hb' => by simp [((h c hc').2 b hb').1])]
  constructor
  · have h1 : cs.map Channel.prune = cs := by
      conv_rhs => rw [← List.map_id cs]
      exact List.map_congr_left hc
    have h2 : cs.filter (fun c => !c.bands.isEmpty) = cs := List.filter_eq_self.mpr (fun c hc' => by simp [(h c hc').1])
    unfold channelsOf imported Experience.prune Perception.prune
    simp only [List.map_cons, List.map_nil, h1, h2]
    rw [List.filter_cons_of_pos (by simp; exact h0)]
    rfl
  · refine ⟨fun p hp => ?_, List.isChain_singleton _⟩
    rw [List.mem_singleton.mp hp]
    refine ⟨fun c hc' => ⟨fun b hb' => ⟨?_⟩, ?_⟩, ?_⟩
    · rw [List.isChain_iff_getElem]
      intro i hi hv
      exact absurd hv (((h c hc').2 b hb').2 _ (List.getElem_mem _))
    · rw [List.isChain_iff_getElem]
      intro i hi _
      exact ⟨hb c hc' _ (List.getElem_mem _), ((h c hc').2 _ (List.getElem_mem _)).1⟩
    · show cs.IsChain _
      rw [List.isChain_iff_getElem]
      intro i hi _
      exact ⟨hc _ (List.getElem_mem _), (h _ (List.getElem_mem _)).1⟩

end Haptics.Imported
