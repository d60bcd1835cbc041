import Verif.Main.SoundsLemmas
import Verif.Main.WaveletParts
import Verif.Stream.PropsJoin
import Verif.Stream.PropsSizes
import Verif.Bits.PropsFloat

namespace Haptics.Sounds
open Haptics Haptics.SynthMain

/-! ### What is received of the parts -/

theorem amplitude_received {a : ℚ} (h : |a| ≤ 1) :
    |a - quantF 8 (-MAX_AMPLITUDE) MAX_AMPLITUDE a| ≤ 1 / 127 ∧ |a| ≤ 1 ∧ |quantF 8 (-MAX_AMPLITUDE) MAX_AMPLITUDE a| ≤ 1 := by
  obtain ⟨h1, h2⟩ := abs_le.mp h
  refine ⟨?_, h, ?_⟩
  · rw [abs_sub_comm]; exact c05_amplitude a h1 h2
  · have hr := c05_ranges_exact (-MAX_AMPLITUDE) MAX_AMPLITUDE (by simp)
    exact abs_le.mpr (c05_in_range 8 (by norm_num) (by norm_num) a (by linarith [hr.1]) hr.2.1 hr.2.2.1 hr.2.2.2)

theorem phase_zero : quantF 16 0 MAX_PHASE 0 = 0 :=
  c05_min_exact 16 (by have := (c05_ranges_exact 0 MAX_PHASE (by simp)).1; linarith) (c05_ranges_exact 0 MAX_PHASE (by simp)).2.2.1 le_rfl

theorem phase_received {v : ℚ} (h0 : 0 ≤ v) (h1 : v ≤ MAX_PHASE) : |v - quantF 16 0 MAX_PHASE v| ≤ 1 / 8000 := by
  have h := c05_ranges_exact 0 MAX_PHASE (by simp)
  have hb := c05_error_bound 16 (by norm_num) (by norm_num) v 0 MAX_PHASE h.1 h.2.1 h.2.2.1 h.2.2.2
  have hc : clampTo 0 MAX_PHASE v = v := by
    unfold clampTo
    rw [if_neg (by linarith), if_neg (by linarith)]
  rw [hc, abs_sub_comm] at hb
  refine le_trans hb ?_
  have : MAX_PHASE ≤ 63 / 10 := by decide +kernel
  norm_num
  linarith

theorem gain_received {v : ℚ} (h : |v| ≤ MAX_FLOAT) : |v - quantF 32 (-MAX_FLOAT) MAX_FLOAT v| ≤ 3 / 50 := by
  obtain ⟨h1, h2⟩ := abs_le.mp h
  have h := c05_ranges_exact (-MAX_FLOAT) MAX_FLOAT (by simp)
  have hb := c05_error_bound 32 (by norm_num) (by norm_num) v (-MAX_FLOAT) MAX_FLOAT h.1 h.2.1 h.2.2.1 h.2.2.2
  have hc : clampTo (-MAX_FLOAT) MAX_FLOAT v = v := by
    unfold clampTo
    rw [if_neg (by linarith), if_neg (by linarith)]
  rw [hc, abs_sub_comm] at hb
  refine le_trans hb ?_
  unfold MAX_FLOAT
  norm_num

theorem keyframes_received (bt : Nat) {l : List Keyframe} (h : ∀ k ∈ l, ∀ a ∈ k.amplitudeModulation, |a| ≤ 1) {f : Keyframe → Keyframe}
    (hf : ∀ k, (f k).relativePosition = k.relativePosition ∧ (bt ≠ BandType.Curve → (f k).frequencyModulation = k.frequencyModulation) ∧
      (f k).amplitudeModulation = k.amplitudeModulation.map (quantF 8 (-MAX_AMPLITUDE) MAX_AMPLITUDE)) :
    List.Forall₂ (Keyframe.NearTo (1 / 127) bt) l (l.map f) := by
  rw [List.forall₂_map_right_iff, List.forall₂_same]
  intro k hk
  obtain ⟨h1, h2, h3⟩ := hf k
  refine ⟨h1, h2, ?_⟩
  rw [h3]
  cases ha : k.amplitudeModulation with
  | none => exact .none
  | some a => exact .some (amplitude_received (h k hk a ha))

theorem phase_near {bt : Nat} {e : Effect} (h : e.Playable bt) (hv : bt = BandType.VectorialWave) :
    quantF 16 0 MAX_PHASE e.phaseOrDefault = e.phaseOrDefault ∨
      (e.baseSignalOrDefault = 0 ∧ |e.phaseOrDefault - quantF 16 0 MAX_PHASE e.phaseOrDefault| ≤ 1 / 8000) := by
  rcases h.phase hv with h0 | ⟨hs, h1, h2⟩
  · left; rw [h0, phase_zero]
  · exact Or.inr ⟨hs, phase_received h1 h2⟩

/-- An effect of keyframes as it is received. -/
theorem effect_received {bt : Nat} {e : Effect} (h : e.Playable bt) : e.NearTo (1 / 127) (1 / 8000) bt (e.receivedIn bt) := by
  unfold Effect.receivedIn
  rw [if_pos h.basis]
  refine ⟨rfl, keyframes_received bt h.amplitudes fun k => ⟨rfl, fun hb => if_neg hb, rfl⟩, fun hv => ?_⟩
  have := phase_near h hv
  simp only [hv, if_true, Effect.baseSignalOrDefault, Effect.phaseOrDefault, Option.getD_some]
  exact ⟨trivial, this⟩

theorem received_fields (r : Effect) : r.received.id = r.id ∧ r.received.effectType = r.effectType ∧
    r.received.keyframes = r.keyframes.map Keyframe.received ∧
    (r.effectType = EffectType.Basis → r.received.phase = some (quantF 16 0 MAX_PHASE (r.phase.getD 0)) ∧
      r.received.baseSignal = some (r.baseSignal.getD 0)) := by
  cases r
  rw [Effect.received]
  exact ⟨rfl, rfl, rfl, fun h => ⟨if_pos h, if_pos h⟩⟩

/-- An effect of the library as it is received, put in the place of a reference. -/
theorem library_received {bt : Nat} {r : Effect} (h : r.Playable bt) (pos i i' : Int) :
    ({ r with position := pos, id := i } : Effect).NearTo (1 / 127) (1 / 8000) bt { r.received with position := pos, id := i' } := by
  obtain ⟨_, _, h3, h4⟩ := received_fields r
  obtain ⟨h5, h6⟩ := h4 h.basis
  refine ⟨rfl, ?_, fun hv => ?_⟩
  · show List.Forall₂ _ r.keyframes r.received.keyframes
    rw [h3]
    exact keyframes_received bt h.amplitudes fun k => ⟨rfl, fun _ => rfl, rfl⟩
  · have := phase_near h hv
    unfold Effect.baseSignalOrDefault Effect.phaseOrDefault at this ⊢
    simp only [h5, h6, Option.getD_some]
    exact ⟨trivial, this⟩

theorem find_received (library : List Effect) (i : Int) :
    (library.map Effect.received).find? (·.id == i) = (library.find? (·.id == i)).map Effect.received := by
  rw [List.find?_map]
  congr 2
  funext r
  simp [(received_fields r).1]

/-- Any effect, with the library in place, before and after. -/
theorem linearized_received {library : List Effect} {bt : Nat} (hbt : bt ≠ BandType.WaveletWave) {e x : Effect} (h : e.PlayableFrom library bt)
    (hx : x = { e with id := x.id } ∧ (bt ≠ BandType.WaveletWave → e.id ≠ -1 → x = e)) :
    (linearizeEffect library e).NearTo (1 / 127) (1 / 8000) bt
      (linearizeEffect (library.map Effect.received) (x.receivedBy bt)) := by
  unfold Effect.receivedBy
  rw [if_neg hbt]
  rcases h with h | ⟨hr, hid, r, hfind, hplay⟩
  · have hb := h.basis
    have hxe : x.effectType = EffectType.Basis := by rw [hx.1]; exact hb
    have ht : (x.receivedIn bt).effectType = EffectType.Basis := by unfold Effect.receivedIn; rw [if_pos hxe]; exact hxe
    unfold linearizeEffect
    rw [hb, ht, if_neg (by decide), if_neg (by decide)]
    have hxp : x.Playable bt := by
      refine ⟨hxe, ?_, ?_⟩
      · rw [hx.1]; exact h.amplitudes
      · rw [hx.1]; exact h.phase
    have hn := effect_received hxp
    refine ⟨?_, ?_, ?_⟩
    · rw [hn.position, hx.1]
    · have := hn.keyframes; rw [show x.keyframes = e.keyframes by rw [hx.1]] at this; exact this
    · have := hn.signal
      rw [show x.baseSignalOrDefault = e.baseSignalOrDefault by rw [hx.1]; rfl, show x.phaseOrDefault = e.phaseOrDefault by rw [hx.1]; rfl] at this
      exact this
  · have hxe := hx.2 hbt hid
    subst hxe
    have hnb : ¬ x.effectType = EffectType.Basis := by rw [hr]; decide
    have hrec : x.receivedIn bt = { id := x.id, position := x.position, effectType := x.effectType } := by
      unfold Effect.receivedIn; rw [if_neg hnb]
    unfold linearizeEffect getEffectById
    rw [hrec, if_pos hr, if_pos hr, hfind, find_received, hfind]
    exact library_received hplay _ _ _

theorem forall₂_imp_mem {α β : Type} {R S : α → β → Prop} {l : List α} {l' : List β} (h : List.Forall₂ R l l')
    (hRS : ∀ a ∈ l, ∀ b, R a b → S a b) : List.Forall₂ S l l' := by
  induction h with
  | nil => exact .nil
  | cons hr _ ih =>
    exact .cons (hRS _ List.mem_cons_self _ hr) (ih fun a ha => hRS a (List.mem_cons_of_mem _ ha))

theorem linearizeEffect_basis (library : List Effect) {e : Effect} (h : e.effectType = EffectType.Basis) : linearizeEffect library e = e := by
  unfold linearizeEffect
  rw [if_neg (by rw [h]; decide)]

/-- A wavelet band, before and after. -/
theorem blocks_received {library : List Effect} {b x : Band} (h : b.Playable library) (hbt : b.bandType = BandType.WaveletWave)
    (hx : ∃ ids, x = (b.assignIds ids).1) :
    ({ b with effects := b.effects.map (linearizeEffect library) } : Band).SameBlocks
      { x.receivedStream with effects := x.receivedStream.effects.map (linearizeEffect (library.map Effect.received)) } := by
  obtain ⟨ids, rfl⟩ := hx
  refine ⟨⟨hbt, hbt⟩, ⟨rfl, rfl⟩, ?_, ?_⟩
  · show (if b.bandType = BandType.WaveletWave then some b.blockLengthOrDefault else some 0).getD 0 = b.blockLengthOrDefault
    rw [if_pos hbt]; rfl
  · show List.Forall₂ _ (b.effects.map _) (((identified b.bandType ids b.effects).1.map (Effect.receivedBy b.bandType)).map _)
    rw [List.map_map, List.forall₂_map_left_iff, List.forall₂_map_right_iff]
    refine forall₂_imp_mem (identified_forall₂ b.bandType b.effects ids) fun e he x hx => ?_
    have hr : Effect.receivedBy b.bandType x = x.receivedWavelet x.id := if_pos hbt
    rw [linearizeEffect_basis library (h.blocks hbt e he), Function.comp_apply, hr, linearizeEffect_basis _ rfl]
    show x.position = e.position ∧ x.waveletBitstream = e.waveletBitstream
    rw [hx.1]
    exact ⟨rfl, rfl⟩

/-- A band with the library in place, before and after. -/
theorem band_received {library : List Effect} {b x : Band} (h : b.Playable library) (hx : ∃ ids, x = (b.assignIds ids).1) :
    ({ b with effects := b.effects.map (linearizeEffect library) } : Band).Matches (1 / 127) (1 / 8000)
      { x.receivedStream with effects := x.receivedStream.effects.map (linearizeEffect (library.map Effect.received)) } := by
  by_cases hbt : b.bandType = BandType.WaveletWave
  · exact .inr (blocks_received h hbt hx)
  obtain ⟨ids, rfl⟩ := hx
  have hbt' : b.bandType = BandType.Transient ∨ b.bandType = BandType.Curve ∨ b.bandType = BandType.VectorialWave := by
    have := h.bandType
    tauto
  refine .inl ⟨rfl, hbt', fun hc => ?_, rfl, rfl, ?_⟩
  · have hc : b.bandType = BandType.Curve := hc
    show (if b.bandType = BandType.Curve then some b.curveTypeOrDefault else none).getD 0 = b.curveTypeOrDefault
    rw [if_pos hc]; rfl
  · show List.Forall₂ _ (b.effects.map _) (((identified b.bandType ids b.effects).1.map _).map _)
    rw [List.map_map, List.forall₂_map_left_iff, List.forall₂_map_right_iff]
    exact forall₂_imp_mem (identified_forall₂ b.bandType b.effects ids) fun e he x hx => linearized_received hbt (h.effects hbt e he) hx

theorem channel_received {library : List Effect} {c x : Channel} (h : c.Playable library) (hx : ∃ ids, x = (c.assignIds ids).1) :
    ({ c with bands := c.bands.map (fun b => { b with effects := b.effects.map (linearizeEffect library) }) } : Channel).NearTo
      (1 / 127) (1 / 8000) (3 / 50)
      { x.receivedStream with bands := x.receivedStream.bands.map (fun b =>
          { b with effects := b.effects.map (linearizeEffect (library.map Effect.received)) }) } := by
  obtain ⟨ids, rfl⟩ := hx
  refine ⟨?_, ?_, ?_, gain_received h.gain⟩
  · show List.Forall₂ _ (c.bands.map _) (((mapAccum Band.assignIds ids c.bands).1.map _).map _)
    rw [List.map_map, List.forall₂_map_left_iff, List.forall₂_map_right_iff]
    exact forall₂_imp_mem (mapAccum_forall₂ Band.assignIds c.bands ids) fun b hb x hx => band_received (h.bands b hb) hx
  · show c.frequencySampling.filter (· ≠ 0) = c.frequencySampling
    cases hf : c.frequencySampling with
    | none => rfl
    | some f =>
      have := (h.sampling f hf).1
      rw [Option.filter_some, if_pos (by simpa using this.ne')]
  · intro hs
    show (if 0 < c.frequencySampling.getD 0 then some (c.sampleCount.getD 0) else none) = c.sampleCount
    obtain ⟨f, hf⟩ := Option.isSome_iff_exists.mp hs
    have hf : c.frequencySampling = some f := hf
    obtain ⟨h1, h2⟩ := h.sampling f hf
    obtain ⟨n, hn⟩ := Option.isSome_iff_exists.mp h2
    rw [hf, hn, Option.getD_some, if_pos h1, Option.getD_some]

theorem perceptions_received (h : Experience) (hp : ∀ p ∈ h.perceptions, ∀ c ∈ p.channels, c.Playable p.effectLibrary) :
    List.Forall₂ (Perception.NearTo (1 / 127) (1 / 8000) (3 / 50)) h.linearize.perceptions h.assignIds.receivedStream.linearize.perceptions := by
  show List.Forall₂ _ (h.perceptions.map Perception.linearizeLibrary)
    (((mapAccum Perception.assignIds (getEffectsId h) h.perceptions).1.map Perception.receivedStream).map Perception.linearizeLibrary)
  rw [List.map_map, List.forall₂_map_left_iff, List.forall₂_map_right_iff]
  refine forall₂_imp_mem (mapAccum_forall₂ Perception.assignIds h.perceptions _) fun p hpm x hx => ?_
  obtain ⟨ids, rfl⟩ := hx
  refine ⟨?_, ?_⟩
  · show (some (p.perceptionUnitExponent.getD 0)).getD 0 = _
    rfl
  · show List.Forall₂ _ (p.channels.map _) (((mapAccum Channel.assignIds ids p.channels).1.map _).map _)
    rw [List.map_map, List.forall₂_map_left_iff, List.forall₂_map_right_iff]
    exact forall₂_imp_mem (mapAccum_forall₂ Channel.assignIds p.channels ids) fun c hc x hx => channel_received (hp p hpm c hc) hx

/-! ### Bézier curves -/

theorem forall₂_mem_right' {α β : Type} {R : α → β → Prop} {l : List α} {r : List β} (h : List.Forall₂ R l r) {b : β} (hb : b ∈ r) :
    ∃ a ∈ l, R a b := by
  induction h with
  | nil => cases hb
  | cons hab _ ih =>
    rcases List.mem_cons.mp hb with rfl | hb
    · exact ⟨_, List.mem_cons_self, hab⟩
    · obtain ⟨a, ha, hR⟩ := ih hb
      exact ⟨a, List.mem_cons_of_mem _ ha, hR⟩

theorem curvePoint_fst {fs : Int} {ts : Nat} {k : Keyframe} {q : Int × ℝ} (h : curvePoint fs ts k = .ok q) (hfs : 0 ≤ fs)
    (hr : ∀ p ∈ k.relativePosition, 0 ≤ p ∧ p * fs < 2 ^ 31) : q.1 = (k.relativePosition.getD 0 * fs) / ts := by
  unfold curvePoint at h
  cases hp : k.relativePosition with
  | none => rw [hp] at h; cases h
  | some p =>
    rw [hp] at h
    simp only at h
    split at h
    · cases h
    · split at h
      · cases h
      · obtain ⟨h0, h1⟩ := hr p hp
        have hm : 0 ≤ p * fs := mul_nonneg h0 hfs
        rw [← Except.ok.inj h]
        show toSigned 32 (u32 (p * fs) / ts) = p * fs / ts
        have hu : ((u32 (p * fs) : ℕ) : ℤ) = p * fs := by
          unfold u32
          rw [Int.emod_eq_of_lt hm (by omega), Int.toNat_of_nonneg hm]
        have hlt : u32 (p * fs) / ts < 2 ^ 31 := lt_of_le_of_lt (Nat.div_le_self _ _) (by omega)
        unfold toSigned
        rw [if_pos (by simpa using hlt), Int.natCast_ediv, hu]

theorem inStep_points {fs : Int} {ts : Nat} {e : Effect} (h : e.InStep fs) {pts : List (Int × ℝ)}
    (hp : curvePoints fs ts e.keyframes = .ok pts) : (pts.map Prod.fst).Pairwise (· ≤ ·) := by
  have key : ∀ (l : List Keyframe) (r : List (Int × ℝ)), List.Forall₂ (fun k q => curvePoint fs ts k = .ok q) l r →
      (l.map (fun k => k.relativePosition.getD 0)).Pairwise (· ≤ ·) → (∀ k ∈ l, ∀ p ∈ k.relativePosition, 0 ≤ p ∧ p * fs < 2 ^ 31) →
      (r.map Prod.fst).Pairwise (· ≤ ·) := by
    intro l r hlr
    induction hlr with
    | nil => intro _ _; exact .nil
    | cons hk hl ih =>
      rename_i k q l r
      intro ho hr
      rw [List.map_cons, List.pairwise_cons] at ho ⊢
      refine ⟨fun x hx => ?_, ih ho.2 fun k hk => hr k (List.mem_cons_of_mem _ hk)⟩
      obtain ⟨q', hq', rfl⟩ := List.mem_map.mp hx
      obtain ⟨k', hk', hkq⟩ := forall₂_mem_right' hl hq'
      rw [curvePoint_fst hk h.frequency (hr k List.mem_cons_self), curvePoint_fst hkq h.frequency (hr k' (List.mem_cons_of_mem _ hk'))]
      rcases Nat.eq_zero_or_pos ts with rfl | hts
      · simp
      · exact Int.ediv_le_ediv (by exact_mod_cast hts)
          (mul_le_mul_of_nonneg_right (ho.1 _ (List.mem_map_of_mem hk')) h.frequency)
  unfold curvePoints at hp
  split at hp
  · cases hp
  · cases hp
  · rename_i p ps hm
    have := key _ _ (mapE_forall₂ _ _ _ hm) h.order h.range
    rw [← Except.ok.inj hp]
    rw [List.map_cons, List.pairwise_cons] at this ⊢
    rw [List.map_map]
    constructor
    · intro x hx
      obtain ⟨q, hq, rfl⟩ := List.mem_map.mp hx
      have := this.1 q.1 (List.mem_map_of_mem hq)
      show 0 ≤ q.1 - p.1
      omega
    · have h2 := List.pairwise_map.mp this.2
      rw [List.pairwise_map]
      exact h2.imp fun {a b} hab => by
        show a.1 - p.1 ≤ b.1 - p.1
        omega

theorem linearizeEffect_keyframes (library : List Effect) (e : Effect) :
    ∃ r ∈ e :: library, (linearizeEffect library e).keyframes = r.keyframes := by
  unfold linearizeEffect
  split
  · cases hr : getEffectById library e.id with
    | none => exact ⟨e, List.mem_cons_self, rfl⟩
    | some r => exact ⟨r, List.mem_cons_of_mem _ (List.mem_of_find?_eq_some hr), rfl⟩
  · exact ⟨e, List.mem_cons_self, rfl⟩

theorem curves_tame (h : Experience) (hp : h.Playable) {fs : Int} (hs : h.InStep fs)
    {other other' : Nat → List (Int × ℝ) → Except Err (List (Option ℝ))} (ho : other 4 = Splines.bezier) (ho' : other' 4 = Splines.bezier)
    (ts : Nat) : ∀ p ∈ h.linearize.perceptions, ∀ c ∈ p.channels, ∀ b ∈ c.bands, b.Tame other other' fs ts := by
  intro _ hpl _ hcl _ hbl hcurve _ hel pts hpts hrange
  obtain ⟨p, hpm, rfl⟩ := List.mem_map.mp hpl
  obtain ⟨c, hc, rfl⟩ := List.mem_map.mp hcl
  obtain ⟨b, hb, rfl⟩ := List.mem_map.mp hbl
  obtain ⟨e, he, rfl⟩ := List.mem_map.mp hel
  have hct := ((hp.channels p hpm c hc).bands b hb).curveType hcurve
  have h4 : b.curveTypeOrDefault = 4 := by
    have h1 : 3 ≤ b.curveTypeOrDefault ∧ b.curveTypeOrDefault ≤ 5 := hrange
    omega
  refine ⟨h4, ho, ho', ?_⟩
  obtain ⟨r, hr, hk⟩ := linearizeEffect_keyframes p.effectLibrary e
  rw [hk] at hpts
  refine inStep_points (hs p hpm c hc b hb hcurve h4 r ?_) hpts
  rcases List.mem_cons.mp hr with rfl | hr
  · exact List.mem_append_left _ he
  · exact List.mem_append_right _ hr

theorem wavelets_linearized {h : Experience} {p : Perception} {c : Channel} {b : Band} (hp : p ∈ h.linearize.perceptions) (hc : c ∈ p.channels)
    (hb : b ∈ c.bands) (hw : b.bandType = BandType.WaveletWave) : h.HasWavelets := by
  obtain ⟨p, hp', rfl⟩ := List.mem_map.mp hp
  obtain ⟨c, hc', rfl⟩ := List.mem_map.mp hc
  obtain ⟨b, hb', rfl⟩ := List.mem_map.mp hb
  exact ⟨p, hp', c, hc', b, hb', hw⟩

/-- **C102 (partial).** An experience of keyframes in which nothing is void is received from its stream as one that sounds
alike: for every sampling frequency and padding, the synthesizer fails on both in the same way, or gives as many signals
of as many samples, each of which is off by at most `loss`; if there are Bézier curves, provided that their keyframes are
in order, and if there are wavelet bands, provided that the decoder makes the same samples of the same blocks.  What is missing
are experiences with void components and with
channels without number of samples, of which it is not true, and Akima and B-spline curves, later sync points (`c102_sync_partial`) and spatial perceptions. -/
theorem c102_sounds_partial (h : Experience) (d : Nat) (hd : 0 < d) (hd2 : d < 2 ^ 24) (hs : h.Spaced) (hv : h.prune = h)
    (hf : h.assignIds.StreamFits d) (hi : h.Identified) (hm : h.assignIds.Modest d) (hp : h.Playable) :
    ∃ file x, writeStream h d = .ok file ∧ readStream file = .ok (true, some x) ∧
      ∀ (parts parts' : Parts) (fs pad : Int), parts.other 4 = Splines.bezier → parts'.other 4 = Splines.bezier → h.InStep fs →
        (h.HasWavelets → parts.DecodeAlike parts') →
        Alike (SoundsLike h fs pad) (synthesize parts h fs pad) (synthesize parts' x fs pad) := by
  obtain ⟨file, hw, hr⟩ := c57_streamed_partial h d hd hd2 hs (by rw [hv]; exact hf) (by rw [hv]; exact hi) (by rw [hv]; exact hm)
  rw [hv] at hr
  refine ⟨file, _, hw, hr, fun parts parts' fs pad ho ho' hin hdec => ?_⟩
  refine synthesize_near parts parts' h _ (by norm_num) (by norm_num) (by norm_num) le_rfl ?_ (perceptions_received h hp.channels) fs pad
    (fun p hp c hc b hb hw => hdec (wavelets_linearized hp hc hb hw)) (fun ts _ => curves_tame h hp hin ho ho' ts) hp.timescale
  obtain ⟨ts, hts⟩ := Option.isSome_iff_exists.mp hp.timescale
  show some (h.timescale.getD 1000) = h.timescale
  rw [hts]; rfl

theorem waveletBand_same {b b' : Band} (h : b.SameBlocks b') : waveletBand b' = waveletBand b := by
  unfold waveletBand
  rw [h.limits.2, h.blockLength]
  have hb := h.blocks
  revert hb
  generalize b.effects = l
  generalize b'.effects = l'
  intro hb
  have : l'.map (fun e => (e.position.toNat, e.waveletBitstream)) = l.map (fun e => (e.position.toNat, e.waveletBitstream)) := by
    induction hb with
    | nil => rfl
    | cons he _ ih => rw [List.map_cons, List.map_cons, ih, he.1, he.2]
  rw [this]

/-- **C102 (partial)**: the wavelet decoder of the synthesizer is one that makes the same samples of the same blocks, in whatever
state it is, as `c102_sounds_partial` asks of it. -/
theorem c102_decoder_partial (inverse : ℕ → List ℚ → List ℚ) (d : Spiht.Decoder)
    (other other' : Nat → List (Int × ℝ) → Except Err (List (Option ℝ))) :
    (decoderParts inverse d other).DecodeAlike (decoderParts inverse d other') := by
  intro ts b b' h
  unfold decoderParts
  simp only
  rw [waveletBand_same h]
  cases Wavelet.transformBand inverse (waveletBand b) ts d with
  | error x => exact rfl
  | ok l => exact ⟨h.wavelet, h.limits.2, List.forall₂_same.mpr fun e _ => ⟨rfl, rfl⟩⟩

/-- **C102 (partial)** with any number of sync points, if the experience can be described more than once (C36). -/
theorem c102_sync_partial (h : Experience) (d : Nat) (hd : 0 < d) (hd2 : d < 2 ^ 24) (hs : h.Spaced) (hv : h.prune = h)
    (hf : h.assignIds.unsynced.StreamFits d) (hi : h.Identified) (hm : h.assignIds.Modest d) (hres : h.Resendable) (hp : h.Playable) :
    ∃ file x, writeStream h d = .ok file ∧ readStream file = .ok (true, some x) ∧
      ∀ (parts parts' : Parts) (fs pad : Int), parts.other 4 = Splines.bezier → parts'.other 4 = Splines.bezier → h.InStep fs →
        (h.HasWavelets → parts.DecodeAlike parts') →
        Alike (SoundsLike h fs pad) (synthesize parts h fs pad) (synthesize parts' x fs pad) := by
  obtain ⟨file, times, hw, hr, -⟩ := c57_sync_partial h d hd hd2 hs (by rw [hv]; exact hf) (by rw [hv]; exact hi) (by rw [hv]; exact hm)
    (by rw [hv]; exact hres)
  rw [hv] at hr
  refine ⟨file, _, hw, hr, fun parts parts' fs pad ho ho' hin hdec => ?_⟩
  refine synthesize_near parts parts' h _ (by norm_num) (by norm_num) (by norm_num) le_rfl ?_ (perceptions_received h hp.channels) fs pad
    (fun p hp c hc b hb hw => hdec (wavelets_linearized hp hc hb hw)) (fun ts _ => curves_tame h hp hin ho ho' ts) hp.timescale
  obtain ⟨ts, hts⟩ := Option.isSome_iff_exists.mp hp.timescale
  show some (h.timescale.getD 1000) = h.timescale
  rw [hts]; rfl

/-! ### What is lost -/

theorem received_length_zero (h : Experience) (hc : ∀ p ∈ h.perceptions, ∀ c ∈ p.channels, (∃ f, c.frequencySampling = some f ∧ 0 < f) ∧
    c.sampleCount = none) : ∀ l, h.assignIds.receivedStream.linearize.timeLength = .ok l → l = 0 := by
  intro l hl
  have hch : ∀ c ∈ (h.assignIds.receivedStream.linearize.perceptions).flatMap Perception.channels,
      (∃ f, c.frequencySampling = some f ∧ 0 < f) ∧ c.sampleCount = some 0 := by
    intro c hcm
    obtain ⟨q, hq, hcq⟩ := List.mem_flatMap.mp hcm
    obtain ⟨q1, hq1, rfl⟩ := List.mem_map.mp hq
    obtain ⟨q2, hq2, rfl⟩ := List.mem_map.mp hq1
    obtain ⟨p, hpm, ids, hpe⟩ : ∃ p ∈ h.perceptions, ∃ ids, q2 = (p.assignIds ids).1 := by
      have := forall₂_imp_mem (S := fun p x => p ∈ h.perceptions ∧ ∃ ids, x = (Perception.assignIds ids p).1)
        (mapAccum_forall₂ Perception.assignIds h.perceptions (getEffectsId h)) fun p hp x hx => ⟨hp, hx⟩
      obtain ⟨p, hp, hx⟩ := forall₂_mem_right this hq2
      exact ⟨p, hp, hx⟩
    subst hpe
    obtain ⟨c1, hc1, rfl⟩ := List.mem_map.mp hcq
    obtain ⟨c2, hc2, rfl⟩ := List.mem_map.mp hc1
    have := forall₂_imp_mem (S := fun c x => c ∈ p.channels ∧ ∃ ids, x = (Channel.assignIds ids c).1)
      (mapAccum_forall₂ Channel.assignIds p.channels ids) fun c hc x hx => ⟨hc, hx⟩
    obtain ⟨c, hcp, ids', rfl⟩ := forall₂_mem_right this hc2
    obtain ⟨⟨f, hf, hf0⟩, hn⟩ := hc p hpm c hcp
    refine ⟨⟨f, ?_, hf0⟩, ?_⟩
    · show c.frequencySampling.filter (· ≠ 0) = some f
      rw [hf, Option.filter_some, if_pos (by simpa using hf0.ne')]
    · show (if 0 < c.frequencySampling.getD 0 then some (c.sampleCount.getD 0) else none) = some 0
      rw [hf, hn, Option.getD_some, if_pos hf0]; rfl
  unfold Experience.timeLength at hl
  have hts : h.assignIds.receivedStream.linearize.timescale = some (h.timescale.getD 1000) := rfl
  rw [hts] at hl
  simp only at hl
  revert hl hch
  generalize (h.assignIds.receivedStream.linearize.perceptions).flatMap Perception.channels = cs
  intro hl hch
  have hz : ∀ r, mapE (fun c : Channel => c.lengths (h.timescale.getD 1000)) cs = .ok r → ∀ x ∈ r.flatten, x = 0 := by
    intro r hr x hx
    obtain ⟨y, hy, hxy⟩ := List.mem_flatten.mp hx
    obtain ⟨c, hcm, hcy⟩ := mapE_mem _ _ _ hr y hy
    obtain ⟨⟨f, hf, hf0⟩, hn⟩ := hch c hcm
    unfold Channel.lengths at hcy
    rw [hf, hn] at hcy
    simp only at hcy
    rw [if_neg hf0.ne'] at hcy
    have := Except.ok.inj hcy
    subst this
    rw [List.mem_singleton] at hxy
    rw [hxy]
    simp [fl64_zero]
  cases hr : mapE (fun c : Channel => c.lengths (h.timescale.getD 1000)) cs with
  | error e => rw [hr] at hl; cases hl
  | ok r =>
    rw [hr] at hl
    have hl := Except.ok.inj hl
    rw [← hl]
    have hz := hz r hr
    revert hz
    generalize r.flatten = l
    intro hz
    have : ∀ (l : List ℚ), (∀ x ∈ l, x = 0) → l.foldl max 0 = 0 := by
      intro l
      induction l with
      | nil => intro _; rfl
      | cons x l ih =>
        intro hx
        rw [List.foldl_cons, hx x List.mem_cons_self, max_self]
        exact ih fun y hy => hx y (List.mem_cons_of_mem _ hy)
    exact this l hz

/-- A channel with a sampling frequency and no number of samples is received as one of no samples: if there are no other
channels, all signals of the stream are empty. -/
theorem c102_length_negation (h : Experience) (d : Nat) (hd : 0 < d) (hd2 : d < 2 ^ 24) (hs : h.Spaced) (hv : h.prune = h)
    (hf : h.assignIds.StreamFits d) (hi : h.Identified) (hm : h.assignIds.Modest d)
    (hc : ∀ p ∈ h.perceptions, ∀ c ∈ p.channels, (∃ f, c.frequencySampling = some f ∧ 0 < f) ∧ c.sampleCount = none) :
    ∃ file x, writeStream h d = .ok file ∧ readStream file = .ok (true, some x) ∧
      ∀ (parts : Parts) (fs : Int) (sig : List (List (Option ℝ))), synthesize parts x fs 0 = .ok sig → ∀ s ∈ sig, s = [] := by
  obtain ⟨file, hw, hr⟩ := c57_streamed_partial h d hd hd2 hs (by rw [hv]; exact hf) (by rw [hv]; exact hi) (by rw [hv]; exact hm)
  rw [hv] at hr
  refine ⟨file, _, hw, hr, fun parts fs sig hsig s hsm => ?_⟩
  obtain ⟨ts, length, n, h1, h2, h3, h4, h5, h6⟩ := c82_signals _ _ _ _ _ hsig
  have hl := received_length_zero h hc length h2
  have hn : n = 0 := by
    subst hl
    unfold sampleCount at h3
    split at h3
    · cases h3
    · have hz : roundAway (fl64 (fl64 ((fs : ℚ) * fl64 (0 + 2 * ((0 : Int) : ℚ))) / ts)) = 0 := by
        simp [fl64_zero, roundAway]; norm_num
      simp only [hz] at h3
      rw [if_pos (by norm_num)] at h3
      exact (Except.ok.inj h3).symm.trans (by decide)
  obtain ⟨i, hi, rfl⟩ := List.getElem_of_mem hsm
  have hi' : i < (channelsOf h.assignIds.receivedStream.perceptions).length := by rw [← h5]; exact hi
  obtain ⟨s', hs', hlen, _⟩ := h6 i _ _ (List.getElem?_eq_getElem hi')
  rw [List.getElem?_eq_getElem hi] at hs'
  obtain rfl := Option.some.inj hs'
  rw [hn] at hlen
  exact List.length_eq_zero_iff.mp hlen

theorem channels_count (ps : List Perception) : (channelsOf ps).length = (ps.map (fun p => p.channels.length)).sum := by
  unfold channelsOf
  rw [List.length_flatMap]
  congr 1
  exact List.map_congr_left fun p _ => by simp

theorem received_count (h : Experience) : (channelsOf h.assignIds.receivedStream.perceptions).length = (channelsOf h.perceptions).length := by
  rw [channels_count, channels_count]
  show (((mapAccum Perception.assignIds (getEffectsId h) h.perceptions).1.map Perception.receivedStream).map _).sum = _
  rw [List.map_map, mapAccum_map Perception.assignIds (fun p => p.channels.length) _ (fun ids p => ?_)]
  show (((mapAccum Channel.assignIds ids p.channels).1.map Channel.receivedStream)).length = _
  rw [List.length_map]
  exact (mapAccum_forall₂ Channel.assignIds p.channels ids).length_eq.symm

theorem filter_sum (ps : List Perception) : ((ps.filter (fun p => !p.channels.isEmpty)).map (fun p => p.channels.length)).sum =
    (ps.map (fun p => p.channels.length)).sum := by
  induction ps with
  | nil => rfl
  | cons p ps ih =>
    cases hp : p.channels with
    | nil => rw [List.filter_cons_of_neg (by simp [hp]), ih]; simp [hp]
    | cons c cs => rw [List.filter_cons_of_pos (by simp [hp])]; simp [ih]

theorem prune_count (h : Experience) (hc : ∃ p ∈ h.perceptions, ∃ c ∈ p.channels, ∀ b ∈ c.bands, ∀ e ∈ b.effects, e.Void b.bandType) :
    (channelsOf h.prune.perceptions).length < (channelsOf h.perceptions).length := by
  rw [channels_count, channels_count]
  show ((((h.perceptions.map Perception.prune).filter _).map _)).sum < _
  rw [filter_sum, List.map_map]
  obtain ⟨p, hp, c, hcm, hce⟩ := hc
  have hle : ∀ q : Perception, q.prune.channels.length ≤ q.channels.length := by
    intro q
    show (((q.channels.map Channel.prune).filter _)).length ≤ _
    exact (List.length_filter_le _ _).trans (by simp)
  have hlt : p.prune.channels.length < p.channels.length := by
    show (((p.channels.map Channel.prune).filter _)).length < _
    rw [show p.channels.length = (p.channels.map Channel.prune).length by simp]
    refine List.length_filter_lt_length_iff_exists.mpr ⟨c.prune, List.mem_map_of_mem hcm, ?_⟩
    have : c.prune.bands = [] := by
      show (c.bands.map Band.prune).filter _ = []
      rw [List.filter_eq_nil_iff]
      intro b hb
      obtain ⟨b, hb', rfl⟩ := List.mem_map.mp hb
      have : b.prune.effects = [] := by
        show b.effects.filter _ = []
        rw [List.filter_eq_nil_iff]
        intro e he
        simpa using hce b hb' e he
      simp [this]
    simp [this]
  exact List.sum_lt_sum _ _ (fun q _ => hle q) ⟨p, hp, hlt⟩

/-- A channel with nothing to play is not streamed: there are fewer signals. -/
theorem c102_channel_negation (h : Experience) (d : Nat) (hd : 0 < d) (hd2 : d < 2 ^ 24) (hs : h.Spaced)
    (hf : h.prune.assignIds.StreamFits d) (hi : h.prune.Identified) (hm : h.prune.assignIds.Modest d)
    (hc : ∃ p ∈ h.perceptions, ∃ c ∈ p.channels, ∀ b ∈ c.bands, ∀ e ∈ b.effects, e.Void b.bandType) :
    ∃ file x, writeStream h d = .ok file ∧ readStream file = .ok (true, some x) ∧
      ∀ (parts parts' : Parts) (fs pad : Int) (sig sig' : List (List (Option ℝ))), synthesize parts h fs pad = .ok sig →
        synthesize parts' x fs pad = .ok sig' → sig'.length < sig.length := by
  obtain ⟨file, hw, hr⟩ := c57_streamed_partial h d hd hd2 hs hf hi hm
  refine ⟨file, _, hw, hr, fun parts parts' fs pad sig sig' h1 h2 => ?_⟩
  obtain ⟨_, _, _, _, _, _, _, h5, _⟩ := c82_signals _ _ _ _ _ h1
  obtain ⟨_, _, _, _, _, _, _, h6, _⟩ := c82_signals _ _ _ _ _ h2
  rw [h5, h6, received_count]
  exact prune_count h hc

/-! ### An experience -/

/-- An effect of the library, one of a vectorial band, and one of a transient band. -/
def tone : Effect :=
  { id := 8, keyframes := [{ relativePosition := some 0, amplitudeModulation := some (1 / 2) },
      { relativePosition := some 100, amplitudeModulation := some (-1) }] }

def sweep : Effect :=
  { id := 3, position := 10, phase := some 1
    keyframes := [{ relativePosition := some 0, amplitudeModulation := some (1 / 3), frequencyModulation := some 100 },
      { relativePosition := some 130, amplitudeModulation := some 1, frequencyModulation := some 60 }] }

def tick : Effect :=
  { id := 5, position := 5
    keyframes := [{ relativePosition := some 0, amplitudeModulation := some (1 / 4), frequencyModulation := some 70 }] }

/-- Two bands; the first one refers to the library. -/
def heard (f : Option Nat) : Experience :=
  { timescale := some 1000
    perceptions := [{ id := 1, avatarId := 1, effectSemanticScheme := some [], effectLibrary := [tone]
                      channels := [{ id := 4, gain := 2, frequencySampling := f
                                     bands := [{ upperFrequencyLimit := 300, effects := [sweep,
                                         { id := 8, position := 200, effectType := EffectType.Reference }] },
                                       { bandType := BandType.Transient, upperFrequencyLimit := 1000, effects := [tick] }] }] }] }

theorem heard_assigned (f : Option Nat) : (heard f).assignIds = heard f := rfl

theorem heard_prune (f : Option Nat) : (heard f).prune = heard f := rfl

theorem heard_streams (f : Option Nat) (hf : ∀ v ∈ f, v < 2 ^ 31) : (heard f).Spaced ∧ (heard f).StreamFits 128 ∧ (heard f).Identified ∧
    (heard f).Modest 128 := by
  refine ⟨⟨?_, by simp [heard]⟩, ?_, ?_, ?_⟩
  · intro p hp
    simp only [heard, List.mem_cons, List.not_mem_nil, or_false] at hp
    subst hp
    refine ⟨?_, by simp⟩
    intro c hc
    simp only [List.mem_cons, List.not_mem_nil, or_false] at hc
    subst hc
    refine ⟨?_, ?_⟩
    · intro b hb
      simp only [List.mem_cons, List.not_mem_nil, or_false] at hb
      rcases hb with rfl | rfl <;> exact ⟨by decide +kernel⟩
    · simp only [List.isChain_cons_cons]
      exact ⟨fun h => absurd (congrArg List.isEmpty h) (by decide +kernel), by simp⟩
  · refine ⟨⟨by simp [heard], by simp [heard], by simp [heard], by simp [heard], by simp [heard], by simp [heard], by simp [heard]⟩,
      by simp [heard], by simp [heard], ?_, by simp [heard], by simp [heard, Experience.channelIds], by simp [heard, Experience.allBands]⟩
    intro p hp
    simp only [heard, List.mem_cons, List.not_mem_nil, or_false] at hp
    subst hp
    refine ⟨⟨by simp [U], by simp, by simp, by simp, by simp [U], by simp, by simp, by simp, by simp, by simp⟩, by simp, by simp, ?_, ?_⟩
    · intro e he
      simp only [List.mem_cons, List.not_mem_nil, or_false] at he
      subst he
      refine .mk _ (by simp [U, tone]) (by decide) (by simp [U, tone]) (by simp [tone]) (by simp [tone]) (by simp [tone]) ?_
        (by simp [tone]) (by simp [tone])
      intro k hk
      simp only [tone, List.mem_cons, List.not_mem_nil, or_false] at hk
      rcases hk with rfl | rfl <;> exact ⟨by simp [U], by simp⟩
    · intro c hc
      simp only [List.mem_cons, List.not_mem_nil, or_false] at hc
      subst hc
      refine ⟨⟨by simp [U], by simp, by simp, by simp, by simp, by simp, by simp, by simp, by simp, by simp,
        hf, by simp, by simp, by simp, by simp⟩, ?_⟩
      intro b hb
      simp only [List.mem_cons, List.not_mem_nil, or_false] at hb
      rcases hb with rfl | rfl
      · refine ⟨⟨by decide, by simp [BandType.VectorialWave, BandType.Curve], by simp [BandType.VectorialWave, BandType.WaveletWave],
          by simp, by simp [U], by simp [U]⟩, .inl ⟨.inr (.inr rfl), ⟨by decide +kernel, by simp [TimeOrdered, sweep],
            by simp [sweep, EffectType.Basis, EffectType.Reference], by simp [sweep], by simp [sweep]⟩,
            by simp [DistinctIds, sweep], ?_, by decide +kernel, by simp, ?_⟩⟩
        · intro x hx
          simp only [List.mem_cons, List.not_mem_nil, or_false] at hx
          rcases hx with rfl | rfl
          · refine ⟨by simp [U, sweep], .inl rfl, by simp [sweep], by simp [sweep], by simp [sweep], ?_⟩
            intro k hk
            simp only [sweep, List.mem_cons, List.not_mem_nil, or_false] at hk
            rcases hk with rfl | rfl <;> exact ⟨⟨_, rfl, by simp [U]⟩, by simp [U], by simp, by simp⟩
          · exact ⟨by simp [U], .inr rfl, by simp, by simp, by simp, by simp⟩
        · intro x hx _ m hm
          simp only [List.getLast?_cons_cons, List.getLast?_singleton, Option.mem_def, Option.some.injEq] at hx
          subst hx
          push_cast
          omega
      · refine ⟨⟨by decide, by simp [BandType.Transient, BandType.Curve], by simp [BandType.Transient, BandType.WaveletWave],
          by simp, by simp [U], by simp [U]⟩, .inl ⟨.inl rfl, ⟨by decide +kernel, by simp [TimeOrdered],
            by simp [tick, EffectType.Basis], by simp [tick], by simp [tick]⟩,
            by simp [DistinctIds], ?_, by decide +kernel, by simp, by simp [tick, EffectType.Basis, EffectType.Reference]⟩⟩
        intro x hx
        simp only [List.mem_cons, List.not_mem_nil, or_false] at hx
        subst hx
        refine ⟨by simp [U, tick], .inl rfl, by simp [tick], by simp [tick], by simp [tick], ?_⟩
        intro k hk
        simp only [tick, List.mem_cons, List.not_mem_nil, or_false] at hk
        subst hk
        exact ⟨⟨_, rfl, by simp [U]⟩, by simp [U], by simp, by simp⟩
  · intro b hb ht
    simp only [heard, Experience.allBands, List.flatMap_cons, List.flatMap_nil, List.append_nil, List.mem_cons, List.not_mem_nil, or_false] at hb
    rcases hb with rfl | rfl <;> exact absurd ht (by decide)
  · have e : (heard f).allBands.all (fun b => (b.effects.flatMap Effect.eventTimes).length ≤ 7000) = true := rfl
    refine ⟨?_, ?_, fun b hb t => eventsIn_small (of_decide_eq_true (List.all_eq_true.mp e b hb)) _ _, ?_, ?_⟩
    · intro p hp c hc
      simp only [heard, List.mem_cons, List.not_mem_nil, or_false] at hp
      subst hp
      simp only [List.mem_cons, List.not_mem_nil, or_false] at hc
      subst hc
      exact Nat.zero_le _
    · intro p hp
      simp only [heard, List.mem_cons, List.not_mem_nil, or_false] at hp
      subst hp
      show weightAll [tone] ≤ 9000
      decide +kernel
    · show 4 ≤ _
      norm_num
    · exact Nat.zero_le _

theorem heard_playable : (heard none).Playable := by
  refine ⟨rfl, ?_⟩
  intro p hp c hc
  simp only [heard, List.mem_cons, List.not_mem_nil, or_false] at hp
  subst hp
  simp only [List.mem_cons, List.not_mem_nil, or_false] at hc
  subst hc
  refine ⟨?_, by simp, ?_⟩
  · have : (2 : ℚ) ≤ MAX_FLOAT := by decide +kernel
    rw [abs_of_nonneg (by norm_num)]
    exact this
  intro b hb
  simp only [List.mem_cons, List.not_mem_nil, or_false] at hb
  rcases hb with rfl | rfl
  · refine ⟨.inr (.inr (.inl rfl)), by simp [BandType.VectorialWave, BandType.Curve], fun _ => ?_, fun h => absurd h (by decide)⟩
    intro e he
    simp only [List.mem_cons, List.not_mem_nil, or_false] at he
    rcases he with rfl | rfl
    · refine .inl ⟨rfl, ?_, fun _ => .inr ⟨rfl, by decide +kernel, by decide +kernel⟩⟩
      intro k hk a ha
      simp only [sweep, List.mem_cons, List.not_mem_nil, or_false] at hk
      rcases hk with rfl | rfl <;> obtain rfl := Option.some.inj ha <;> rw [abs_of_nonneg (by norm_num)] <;> norm_num
    · refine .inr ⟨rfl, by decide, tone, rfl, rfl, ?_, fun _ => .inl (by decide +kernel)⟩
      intro k hk a ha
      simp only [tone, List.mem_cons, List.not_mem_nil, or_false] at hk
      rcases hk with rfl | rfl <;> obtain rfl := Option.some.inj ha
      · rw [abs_of_nonneg (by norm_num)]; norm_num
      · rw [abs_neg, abs_one]
  · refine ⟨.inl rfl, by simp [BandType.Transient, BandType.Curve], fun _ => ?_, fun h => absurd h (by decide)⟩
    intro e he
    simp only [List.mem_cons, List.not_mem_nil, or_false] at he
    subst he
    refine .inl ⟨rfl, ?_, fun h => absurd h (by decide)⟩
    intro k hk a ha
    simp only [tick, List.mem_cons, List.not_mem_nil, or_false] at hk
    subst hk
    obtain rfl := Option.some.inj ha
    rw [abs_of_nonneg (by norm_num)]
    norm_num

/-- Non-vacuity of `c102_sounds_partial`. -/
example : ((heard none).Spaced ∧ (heard none).prune = heard none ∧ (heard none).assignIds.StreamFits 128 ∧ (heard none).Identified ∧
    (heard none).assignIds.Modest 128) ∧ (heard none).Playable := by
  obtain ⟨h1, h2, h3, h4⟩ := heard_streams none (by simp)
  exact ⟨⟨h1, rfl, h2, h3, h4⟩, heard_playable⟩

/-- A Bézier curve. -/
def bend : Effect :=
  { id := 6, position := 20
    keyframes := [{ relativePosition := some 0, amplitudeModulation := some (1 / 3) },
      { relativePosition := some 40, amplitudeModulation := some 1 }, { relativePosition := some 90, amplitudeModulation := some (1 / 5) }] }

/-- An experience of a Bézier curve. -/
def bent : Experience :=
  { timescale := some 1000
    perceptions := [{ id := 1, avatarId := 1, effectSemanticScheme := some []
                      channels := [{ id := 4, gain := 2
                                     bands := [{ bandType := BandType.Curve, curveType := some 4, upperFrequencyLimit := 300,
                                                 effects := [bend] }] }] }] }

theorem bent_streams : bent.Spaced ∧ bent.StreamFits 128 ∧ bent.Identified ∧ bent.Modest 128 := by
  refine ⟨⟨?_, by simp [bent]⟩, ?_, ?_, ?_⟩
  · intro p hp
    simp only [bent, List.mem_cons, List.not_mem_nil, or_false] at hp
    subst hp
    refine ⟨?_, by simp⟩
    intro c hc
    simp only [List.mem_cons, List.not_mem_nil, or_false] at hc
    subst hc
    refine ⟨?_, by simp⟩
    intro b hb
    simp only [List.mem_cons, List.not_mem_nil, or_false] at hb
    subst hb
    exact ⟨by decide +kernel⟩
  · refine ⟨⟨by simp [bent], by simp [bent], by simp [bent], by simp [bent], by simp [bent], by simp [bent], by simp [bent]⟩,
      by simp [bent], by simp [bent], ?_, by simp [bent], by simp [bent, Experience.channelIds], by simp [bent, Experience.allBands]⟩
    intro p hp
    simp only [bent, List.mem_cons, List.not_mem_nil, or_false] at hp
    subst hp
    refine ⟨⟨by simp [U], by simp, by simp, by simp, by simp [U], by simp, by simp, by simp, by simp, by simp⟩, by simp, by simp,
      by simp, ?_⟩
    intro c hc
    simp only [List.mem_cons, List.not_mem_nil, or_false] at hc
    subst hc
    refine ⟨⟨by simp [U], by simp, by simp, by simp, by simp, by simp, by simp, by simp, by simp, by simp,
      by simp, by simp, by simp, by simp, by simp⟩, ?_⟩
    intro b hb
    simp only [List.mem_cons, List.not_mem_nil, or_false] at hb
    subst hb
    refine ⟨⟨by decide, by decide, by simp [BandType.Curve, BandType.WaveletWave],
      by simp, by simp [U], by simp [U]⟩, .inl ⟨.inr (.inl rfl), ⟨by decide +kernel, by simp [TimeOrdered],
        by simp [bend, EffectType.Basis], by simp [bend], by simp [bend]⟩,
        by simp [DistinctIds], ?_, by decide +kernel, by simp, by simp [bend, EffectType.Basis, EffectType.Reference]⟩⟩
    intro x hx
    simp only [List.mem_cons, List.not_mem_nil, or_false] at hx
    subst hx
    refine ⟨by simp [U, bend], .inl rfl, by simp [bend], by simp [bend], by simp [bend], ?_⟩
    intro k hk
    simp only [bend, List.mem_cons, List.not_mem_nil, or_false] at hk
    rcases hk with rfl | rfl | rfl <;> exact ⟨⟨_, rfl, by simp [U]⟩, by simp [U], by simp, by simp⟩
  · intro b hb ht
    simp only [bent, Experience.allBands, List.flatMap_cons, List.flatMap_nil, List.append_nil, List.mem_cons, List.not_mem_nil, or_false] at hb
    subst hb
    exact absurd ht (by decide)
  · have e : bent.allBands.all (fun b => (b.effects.flatMap Effect.eventTimes).length ≤ 7000) = true := rfl
    refine ⟨?_, ?_, fun b hb t => eventsIn_small (of_decide_eq_true (List.all_eq_true.mp e b hb)) _ _, ?_, ?_⟩
    · intro p hp c hc
      simp only [bent, List.mem_cons, List.not_mem_nil, or_false] at hp
      subst hp
      simp only [List.mem_cons, List.not_mem_nil, or_false] at hc
      subst hc
      exact Nat.zero_le _
    · intro p hp
      simp only [bent, List.mem_cons, List.not_mem_nil, or_false] at hp
      subst hp
      exact Nat.zero_le _
    · show 3 ≤ _
      norm_num
    · exact Nat.zero_le _

theorem bent_playable : bent.Playable ∧ bent.InStep 8000 := by
  constructor
  · refine ⟨rfl, ?_⟩
    intro p hp c hc
    simp only [bent, List.mem_cons, List.not_mem_nil, or_false] at hp
    subst hp
    simp only [List.mem_cons, List.not_mem_nil, or_false] at hc
    subst hc
    refine ⟨?_, by simp, ?_⟩
    · have : (2 : ℚ) ≤ MAX_FLOAT := by decide +kernel
      rw [abs_of_nonneg (by norm_num)]
      exact this
    intro b hb
    simp only [List.mem_cons, List.not_mem_nil, or_false] at hb
    subst hb
    refine ⟨.inr (.inl rfl), fun _ => by decide, fun _ => ?_, fun h => absurd h (by decide)⟩
    intro e he
    simp only [List.mem_cons, List.not_mem_nil, or_false] at he
    subst he
    refine .inl ⟨rfl, ?_, fun h => absurd h (by decide)⟩
    intro k hk a ha
    simp only [bend, List.mem_cons, List.not_mem_nil, or_false] at hk
    rcases hk with rfl | rfl | rfl <;> obtain rfl := Option.some.inj ha <;> rw [abs_of_nonneg (by norm_num)] <;> norm_num
  · intro p hp c hc b hb _ _ e he
    simp only [bent, List.mem_cons, List.not_mem_nil, or_false] at hp
    subst hp
    simp only [List.mem_cons, List.not_mem_nil, or_false] at hc
    subst hc
    simp only [List.mem_cons, List.not_mem_nil, or_false] at hb
    subst hb
    simp only [List.append_nil, List.mem_cons, List.not_mem_nil, or_false] at he
    subst he
    refine ⟨by norm_num, by simp [bend], ?_⟩
    intro k hk p hp
    simp only [bend, List.mem_cons, List.not_mem_nil, or_false] at hk
    rcases hk with rfl | rfl | rfl <;> obtain rfl := Option.some.inj hp <;> norm_num

/-- Non-vacuity of `c102_sounds_partial` with a Bézier curve. -/
example : (bent.Spaced ∧ bent.prune = bent ∧ bent.assignIds.StreamFits 128 ∧ bent.Identified ∧ bent.assignIds.Modest 128) ∧
    bent.Playable ∧ bent.InStep 8000 ∧ ∃ p ∈ bent.perceptions, ∃ c ∈ p.channels, ∃ b ∈ c.bands, b.curveTypeOrDefault = 4 := by
  obtain ⟨h1, h2, h3, h4⟩ := bent_streams
  exact ⟨⟨h1, rfl, h2, h3, h4⟩, bent_playable.1, bent_playable.2,
    ⟨_, List.mem_cons_self, _, List.mem_cons_self, _, List.mem_cons_self, rfl⟩⟩

/-- An experience of a Bézier curve and of a wavelet band of two blocks. -/
def waves (i j : Int) : Experience :=
  { timescale := some 2000
    perceptions := [{ id := 1, avatarId := 1, effectSemanticScheme := some []
                      channels := [{ id := 4, gain := 2
                                     bands := [{ bandType := BandType.Curve, curveType := some 4, upperFrequencyLimit := 300,
                                                 effects := [{ bend with id := 10 }] }, exampleWavelet i j] }] }] }

theorem waves_assigned : (waves (-1) (-1)).assignIds = waves 11 12 := rfl

theorem waves_streams : (waves (-1) (-1)).Spaced ∧ (waves 11 12).StreamFits 128 ∧ (waves (-1) (-1)).Identified ∧ (waves 11 12).Modest 128 := by
  refine ⟨⟨?_, by simp [waves]⟩, ?_, ?_, ?_⟩
  · intro p hp
    simp only [waves, List.mem_cons, List.not_mem_nil, or_false] at hp
    subst hp
    refine ⟨?_, by simp⟩
    intro c hc
    simp only [List.mem_cons, List.not_mem_nil, or_false] at hc
    subst hc
    refine ⟨?_, ?_⟩
    · intro b hb
      simp only [List.mem_cons, List.not_mem_nil, or_false] at hb
      rcases hb with rfl | rfl <;> exact ⟨by decide +kernel⟩
    · simp only [List.isChain_cons_cons]
      exact ⟨fun h => absurd (congrArg List.isEmpty h) (by decide +kernel), by simp⟩
  · refine ⟨⟨by simp [waves], by simp [waves], by simp [waves], by simp [waves], by simp [waves], by simp [waves], by simp [waves]⟩,
      by simp [waves], by simp [waves], ?_, by simp [waves], by simp [waves, Experience.channelIds], by simp [waves, Experience.allBands]⟩
    intro p hp
    simp only [waves, List.mem_cons, List.not_mem_nil, or_false] at hp
    subst hp
    refine ⟨⟨by simp [U], by simp, by simp, by simp, by simp [U], by simp, by simp, by simp, by simp, by simp⟩, by simp, by simp,
      by simp, ?_⟩
    intro c hc
    simp only [List.mem_cons, List.not_mem_nil, or_false] at hc
    subst hc
    refine ⟨⟨by simp [U], by simp, by simp, by simp, by simp, by simp, by simp, by simp, by simp, by simp,
      by simp, by simp, by simp, by simp, by simp⟩, ?_⟩
    intro b hb
    simp only [List.mem_cons, List.not_mem_nil, or_false] at hb
    rcases hb with rfl | rfl
    · refine ⟨⟨by decide, by decide, by simp [BandType.Curve, BandType.WaveletWave],
        by simp, by simp [U], by simp [U]⟩, .inl ⟨.inr (.inl rfl), ⟨by decide +kernel, by simp [TimeOrdered],
          by simp [bend, EffectType.Basis], by simp [bend], by simp [bend]⟩,
          by simp [DistinctIds], ?_, by decide +kernel, by simp, by simp [bend, EffectType.Basis, EffectType.Reference]⟩⟩
      intro x hx
      simp only [List.mem_cons, List.not_mem_nil, or_false] at hx
      subst hx
      refine ⟨by simp [U, bend], .inl rfl, by simp [bend], by simp [bend], by simp [bend], ?_⟩
      intro k hk
      simp only [bend, List.mem_cons, List.not_mem_nil, or_false] at hk
      rcases hk with rfl | rfl | rfl <;> exact ⟨⟨_, rfl, by simp [U]⟩, by simp [U], by simp, by simp⟩
    · exact ⟨exampleWavelet_fits.1, .inr exampleWavelet_fits.2⟩
  · intro b hb ht
    simp only [waves, Experience.allBands, List.flatMap_cons, List.flatMap_nil, List.append_nil, List.mem_cons, List.not_mem_nil, or_false] at hb
    rcases hb with rfl | rfl
    · exact absurd ht (by decide)
    · intro e he
      simp only [exampleWavelet, List.mem_cons, List.not_mem_nil, or_false] at he
      rcases he with rfl | rfl <;> decide
  · have e : (waves 11 12).allBands.all (fun b => (b.effects.flatMap Effect.eventTimes).length ≤ 7000) = true := rfl
    refine ⟨?_, ?_, fun b hb t => eventsIn_small (of_decide_eq_true (List.all_eq_true.mp e b hb)) _ _, ?_, ?_⟩
    · intro p hp c hc
      simp only [waves, List.mem_cons, List.not_mem_nil, or_false] at hp
      subst hp
      simp only [List.mem_cons, List.not_mem_nil, or_false] at hc
      subst hc
      exact Nat.zero_le _
    · intro p hp
      simp only [waves, List.mem_cons, List.not_mem_nil, or_false] at hp
      subst hp
      exact Nat.zero_le _
    · decide +kernel
    · decide +kernel

theorem waves_playable : (waves (-1) (-1)).Playable ∧ (waves (-1) (-1)).InStep 8000 := by
  constructor
  · refine ⟨rfl, ?_⟩
    intro p hp c hc
    simp only [waves, List.mem_cons, List.not_mem_nil, or_false] at hp
    subst hp
    simp only [List.mem_cons, List.not_mem_nil, or_false] at hc
    subst hc
    refine ⟨?_, by simp, ?_⟩
    · have : (2 : ℚ) ≤ MAX_FLOAT := by decide +kernel
      rw [abs_of_nonneg (by norm_num)]
      exact this
    intro b hb
    simp only [List.mem_cons, List.not_mem_nil, or_false] at hb
    rcases hb with rfl | rfl
    · refine ⟨.inr (.inl rfl), fun _ => by decide, fun _ => ?_, fun h => absurd h (by decide)⟩
      intro e he
      simp only [List.mem_cons, List.not_mem_nil, or_false] at he
      subst he
      refine .inl ⟨rfl, ?_, fun h => absurd h (by decide)⟩
      intro k hk a ha
      simp only [bend, List.mem_cons, List.not_mem_nil, or_false] at hk
      rcases hk with rfl | rfl | rfl <;> obtain rfl := Option.some.inj ha <;> rw [abs_of_nonneg (by norm_num)] <;> norm_num
    · refine ⟨.inr (.inr (.inr rfl)), fun h => absurd h (by decide), fun h => absurd rfl h, fun _ => ?_⟩
      intro e he
      simp only [exampleWavelet, List.mem_cons, List.not_mem_nil, or_false] at he
      rcases he with rfl | rfl <;> rfl
  · intro p hp c hc b hb hcurve _ e he
    simp only [waves, List.mem_cons, List.not_mem_nil, or_false] at hp
    subst hp
    simp only [List.mem_cons, List.not_mem_nil, or_false] at hc
    subst hc
    simp only [List.mem_cons, List.not_mem_nil, or_false] at hb
    rcases hb with rfl | rfl
    · simp only [List.append_nil, List.mem_cons, List.not_mem_nil, or_false] at he
      subst he
      refine ⟨by norm_num, by simp [bend], ?_⟩
      intro k hk p hp
      simp only [bend, List.mem_cons, List.not_mem_nil, or_false] at hk
      rcases hk with rfl | rfl | rfl <;> obtain rfl := Option.some.inj hp <;> norm_num
    · exact absurd hcurve (by decide)

/-- Non-vacuity of `c102_sounds_partial` with a wavelet band. -/
example : ((waves (-1) (-1)).Spaced ∧ (waves (-1) (-1)).prune = waves (-1) (-1) ∧ (waves (-1) (-1)).assignIds.StreamFits 128 ∧
    (waves (-1) (-1)).Identified ∧ (waves (-1) (-1)).assignIds.Modest 128) ∧ (waves (-1) (-1)).Playable ∧ (waves (-1) (-1)).InStep 8000 ∧
    (waves (-1) (-1)).HasWavelets := by
  obtain ⟨h1, h2, h3, h4⟩ := waves_streams
  exact ⟨⟨h1, rfl, h2, h3, h4⟩, waves_playable.1, waves_playable.2,
    ⟨_, List.mem_cons_self, _, List.mem_cons_self, _, List.mem_cons_of_mem _ List.mem_cons_self, rfl⟩⟩

/-- Non-vacuity of `c102_decoder_partial`: two bands of the same two blocks, with other identifiers. -/
example : (exampleWavelet 1 2).SameBlocks (exampleWavelet 11 12) :=
  ⟨⟨rfl, rfl⟩, ⟨rfl, rfl⟩, rfl, .cons ⟨rfl, rfl⟩ (.cons ⟨rfl, rfl⟩ .nil)⟩

/-- The same with two sync points. -/
def heardTwice : Experience := { heard none with syncs := [{ timestamp := 0 }, { timestamp := 128 }] }

/-- Non-vacuity of `c102_sync_partial`. -/
example : (heardTwice.Spaced ∧ heardTwice.prune = heardTwice ∧ heardTwice.assignIds.unsynced.StreamFits 128 ∧ heardTwice.Identified ∧
    heardTwice.assignIds.Modest 128) ∧ heardTwice.Resendable ∧ heardTwice.Playable ∧ heardTwice.syncs.length = 2 := by
  obtain ⟨h1, h2, h3, h4⟩ := heard_streams none (by simp)
  refine ⟨⟨⟨h1.1, h1.2⟩, rfl, h2, h3, ⟨h4.1, h4.2, h4.3, h4.4, h4.5⟩⟩, ⟨rfl, ?_, ?_⟩, ⟨heard_playable.timescale, heard_playable.channels⟩, rfl⟩
  · intro p hp
    simp only [heardTwice, heard, List.mem_cons, List.not_mem_nil, or_false] at hp
    subst hp
    rfl
  · intro p hp
    simp only [heardTwice, heard, List.mem_cons, List.not_mem_nil, or_false] at hp
    subst hp
    rfl

theorem heard_length : (heard (some 8000)).linearize.timeLength = .ok 300 := by
  have h : (heard (some 8000)).linearize.timeLength.toOption = some 300 := by decide +kernel
  revert h
  cases (heard (some 8000)).linearize.timeLength with
  | error e => intro h; cases h
  | ok v => intro h; rw [Option.some.inj h]

/-- The channel after references are resolved. -/
def plain (f : Option Nat) : Channel :=
  { id := 4, gain := 2, frequencySampling := f
    bands := [{ upperFrequencyLimit := 300, effects := [sweep, { tone with id := -1, position := 200 }] },
      { bandType := BandType.Transient, upperFrequencyLimit := 1000, effects := [tick] }] }

theorem heard_plain (f : Option Nat) : (heard f).linearize.perceptions =
    [{ id := 1, avatarId := 1, effectSemanticScheme := some [], effectLibrary := [], channels := [plain f] }] := rfl

theorem plain_plays (f : Option Nat) : Haptics.Playable 1000 (plain f) ∧ ∀ b ∈ (plain f).bands, b.bandType ≠ BandType.Curve ∧ b.effects ≠ [] := by
  refine ⟨⟨by decide, ?_, ?_, ?_⟩, ?_⟩ <;>
    simp [plain, sweep, tone, tick, BandType.VectorialWave, BandType.Transient, BandType.Curve]

/-- The experience is played at every frequency. -/
theorem heard_played (parts : Parts) (fs pad : ℤ) (n : ℕ) (h : (sampleCount 300 fs pad 1000).toOption = some n) :
    ∃ s, synthesize parts (heard (some 8000)) fs pad = .ok [s] ∧ s.length = n := by
  obtain ⟨r, hr, hl, _⟩ := c32_evaluateChannel parts.samples parts.other (plain (some 8000)) n fs pad 1000 (plain_plays _).1 (plain_plays _).2
  unfold synthesize
  rw [heard_length]
  show ∃ s, playFile parts (heard (some 8000)).linearize 300 fs pad = .ok [s] ∧ s.length = n
  unfold playFile
  have ht : (heard (some 8000)).linearize.timescale = some 1000 := rfl
  have hn : sampleCount 300 fs pad 1000 = .ok n := by
    revert h
    cases sampleCount 300 fs pad 1000 with
    | error e => intro h; cases h
    | ok v => intro h; rw [Option.some.inj h]
  rw [heard_plain, decode_id _ _ _ (by simp [plain, BandType.VectorialWave, BandType.Transient, BandType.WaveletWave]), ht]
  refine ⟨r.map (Option.map (fun x => x * factor { id := 1, avatarId := 1, effectSemanticScheme := some [], channels := [plain (some 8000)] } (plain (some 8000)))), ?_, by simpa using hl⟩
  show mapE (playChannel parts 300 fs pad 1000) [({ id := 1, avatarId := 1, effectSemanticScheme := some [], channels := [plain (some 8000)] }, plain (some 8000))] >>= _ = _
  simp only [mapE, playChannel, hn, hr, bind, Except.bind, pure, Except.pure]
  rfl

/-- Non-vacuity of `c102_length_negation`: the experience itself lasts 300 ms. -/
example : ((heard (some 8000)).Spaced ∧ (heard (some 8000)).prune = heard (some 8000) ∧ (heard (some 8000)).assignIds.StreamFits 128 ∧
    (heard (some 8000)).Identified ∧ (heard (some 8000)).assignIds.Modest 128) ∧
    (∀ p ∈ (heard (some 8000)).perceptions, ∀ c ∈ p.channels, (∃ f, c.frequencySampling = some f ∧ 0 < f) ∧ c.sampleCount = none) ∧
    ∀ parts : Parts, ∃ s, synthesize parts (heard (some 8000)) 8000 0 = .ok [s] ∧ s.length = 2400 := by
  obtain ⟨h1, h2, h3, h4⟩ := heard_streams (some 8000) (by simp)
  refine ⟨⟨h1, rfl, h2, h3, h4⟩, ?_, fun parts => ?_⟩
  · intro p hp c hc
    simp only [heard, List.mem_cons, List.not_mem_nil, or_false] at hp
    subst hp
    simp only [List.mem_cons, List.not_mem_nil, or_false] at hc
    subst hc
    exact ⟨⟨8000, rfl, by norm_num⟩, rfl⟩
  exact heard_played parts 8000 0 2400 (by unfold sampleCount; decide +kernel)

/-- The same with a channel without bands. -/
def silent : Experience :=
  { heard none with perceptions := (heard none).perceptions.map (fun p => { p with channels := p.channels ++ [{ id := 5 }] }) }

/-- Non-vacuity of `c102_channel_negation`. -/
example : (silent.Spaced ∧ silent.prune.assignIds.StreamFits 128 ∧ silent.prune.Identified ∧ silent.prune.assignIds.Modest 128) ∧
    ∃ p ∈ silent.perceptions, ∃ c ∈ p.channels, ∀ b ∈ c.bands, ∀ e ∈ b.effects, e.Void b.bandType := by
  obtain ⟨h1, h2, h3, h4⟩ := heard_streams none (by simp)
  refine ⟨⟨⟨?_, by simp [silent, heard]⟩, h2, h3, h4⟩, _, List.mem_cons_self, { id := 5 }, by simp, by simp⟩
  intro p hp
  have h1 := h1.1 _ (List.mem_singleton.mpr rfl : _ ∈ (heard none).perceptions)
  simp only [silent, heard, List.map_cons, List.map_nil, List.mem_cons, List.not_mem_nil, or_false] at hp
  subst hp
  refine ⟨?_, ?_⟩
  · intro c hc
    simp only [List.cons_append, List.nil_append, List.mem_cons, List.not_mem_nil, or_false] at hc
    rcases hc with rfl | rfl
    · exact h1.1 _ List.mem_cons_self
    · exact ⟨by simp, by simp⟩
  · simp only [List.cons_append, List.nil_append, List.isChain_cons_cons]
    exact ⟨fun h => absurd (congrArg List.isEmpty h) (by decide +kernel), by simp⟩

end Haptics.Sounds
