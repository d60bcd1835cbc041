import Verif.Main.SpecTranscoded
import Verif.Bits.PropsFloat
import Verif.Stream.StreamLemmas
import Verif.Json.PropsFile
import Verif.Encoder.AhapTyped

/-! Towards C97: what is received from a stream can be written to a file, and the file meets the rules. -/

namespace Haptics.Transcoded
open Haptics Haptics.Json

/-! ### Values -/

theorem isFloat_fl32 {x : ℚ} (hx : |x| ≤ 2 ^ 15) : IsFloat (fl32 x) := by
  by_cases h0 : x = 0
  · subst h0
    exact ⟨0, 0, by norm_num, by norm_num, by norm_num, by simp⟩
  obtain ⟨h1, h2⟩ := ilog2_spec |x| (abs_pos.2 h0)
  have hlog : ilog2 |x| ≤ 15 := by
    by_contra hc
    have : (2 : ℚ) ^ (16 : ℤ) ≤ 2 ^ (ilog2 |x|) := zpow_le_zpow_right₀ (by norm_num) (by omega)
    norm_num at this
    linarith
  set U : ℤ := max (ilog2 |x|) (-126) - 23 with hU
  have hulp : ulpOf 24 (-126) x = 2 ^ U := by unfold ulpOf; rw [hU]; norm_num
  have hpos : (0 : ℚ) < 2 ^ U := by positivity
  have hq : |x / 2 ^ U| ≤ ((2 ^ 24 : ℤ) : ℚ) := by
    rw [abs_div, abs_of_pos hpos, div_le_iff₀ hpos]
    rw [show ((2 ^ 24 : ℤ) : ℚ) = 2 ^ (24 : ℤ) by norm_num, ← zpow_add₀ (by norm_num)]
    refine h2.le.trans (zpow_le_zpow_right₀ (by norm_num) ?_)
    have := le_max_left (ilog2 |x|) (-126)
    omega
  have hr : |roundEven (x / 2 ^ U)| ≤ 2 ^ 24 := by
    obtain ⟨ha, hb⟩ := abs_le.1 hq
    have e1 := roundEven_mono ha
    have e2 := roundEven_mono hb
    rw [roundEven_int] at e2
    rw [show -((2 ^ 24 : ℤ) : ℚ) = ((-2 ^ 24 : ℤ) : ℚ) by push_cast; ring, roundEven_int] at e1
    exact abs_le.2 ⟨e1, e2⟩
  have hval : fl32 x = roundEven (x / 2 ^ U) * 2 ^ U := by
    unfold fl32
    rw [flo_eq 24 (-126) h0, hulp]
  have hUl : -149 ≤ U ∧ U ≤ 0 := by
    have := le_max_right (ilog2 |x|) (-126)
    have := max_le hlog (show (-126 : ℤ) ≤ 15 by norm_num)
    omega
  rcases lt_or_eq_of_le hr with h | h
  · obtain ⟨h3, h4⟩ := abs_lt.mp h
    exact ⟨_, U, by omega, hUl.1, by omega, hval⟩
  · have h2z : (2 : ℚ) ^ (U + 1) = 2 ^ U * 2 := by rw [zpow_add₀ (by norm_num)]; norm_num
    rcases abs_eq (by norm_num : (0 : ℤ) ≤ 2 ^ 24) |>.1 h with h | h
    · refine ⟨2 ^ 23, U + 1, by norm_num, by omega, by omega, ?_⟩
      rw [hval, h, h2z]; push_cast; ring
    · refine ⟨-2 ^ 23, U + 1, by norm_num, by omega, by omega, ?_⟩
      rw [hval, h, h2z]; push_cast; ring

/-- What is read from a quantised field is a `float`. -/
theorem quant_float (n : Nat) (mn mx v : ℚ) (h1 : |mn| ≤ 10000) (h2 : 0 ≤ mx - mn) (h3 : mx - mn ≤ 20000) :
    IsFloat (quantF n mn mx v) := by
  unfold quantF codeFloat
  apply isFloat_fl32
  set c := clamp01 _ with hc
  have c0 : 0 ≤ c := clamp01_nonneg _
  have c1 : c ≤ 1 := clamp01_le_one _
  have e1 : 0 ≤ fl32 (mx - mn) := by have := fl32_mono h2; rwa [fl32_zero] at this
  have e2 : fl32 (mx - mn) ≤ 20000 := by
    have := fl32_mono h3
    rw [show (20000 : ℚ) = ((20000 : ℤ) : ℚ) by norm_num, fl32_int _ (by norm_num)] at this
    simpa using this
  have e3 : 0 ≤ fl32 (c * fl32 (mx - mn)) := by
    have := fl32_mono (mul_nonneg c0 e1); rwa [fl32_zero] at this
  have e4 : fl32 (c * fl32 (mx - mn)) ≤ 20000 := by
    have : c * fl32 (mx - mn) ≤ ((20000 : ℤ) : ℚ) := by push_cast; nlinarith
    have := fl32_mono this
    rw [fl32_int _ (by norm_num)] at this
    simpa using this
  obtain ⟨a, b⟩ := abs_le.mp h1
  exact abs_le.mpr ⟨by norm_num; linarith, by norm_num; linarith⟩

theorem phase_float (v : ℚ) : IsFloat (quantF 16 0 MAX_PHASE v) := by
  have h : fl32 (628318 / 100000) ≤ 7 := by
    have := fl32_mono (show (628318 / 100000 : ℚ) ≤ ((7 : ℤ) : ℚ) by norm_num)
    rw [fl32_int _ (by norm_num)] at this
    simpa using this
  have h0 : 0 ≤ fl32 (628318 / 100000) := by
    have := fl32_mono (show (0 : ℚ) ≤ 628318 / 100000 by norm_num)
    rwa [fl32_zero] at this
  exact quant_float 16 0 MAX_PHASE v (by norm_num) (by simpa [MAX_PHASE] using h0)
    (by have : MAX_PHASE ≤ 7 := h
        linarith)

theorem amplitude_float (v : ℚ) : IsFloat (quantF 8 (-MAX_AMPLITUDE) MAX_AMPLITUDE v) :=
  quant_float _ _ _ v (by norm_num [MAX_AMPLITUDE]) (by norm_num [MAX_AMPLITUDE]) (by norm_num [MAX_AMPLITUDE])

theorem signed_float (v : ℚ) : IsFloat (quantF 32 (-MAX_FLOAT) MAX_FLOAT v) :=
  quant_float _ _ _ v (by norm_num [MAX_FLOAT]) (by norm_num [MAX_FLOAT]) (by norm_num [MAX_FLOAT])

theorem unsigned_float (v : ℚ) : IsFloat (quantF 32 0 MAX_FLOAT v) :=
  quant_float _ _ _ v (by norm_num) (by norm_num [MAX_FLOAT]) (by norm_num [MAX_FLOAT])

theorem frequency_float (v : ℚ) : IsFloat (quantF 32 0 MAX_FREQUENCY v) :=
  quant_float _ _ _ v (by norm_num) (by norm_num [MAX_FREQUENCY]) (by norm_num [MAX_FREQUENCY])

theorem map_float {o : Option ℚ} {f : ℚ → ℚ} (h : ∀ v, IsFloat (f v)) : ∀ q ∈ o.map f, IsFloat q := by
  intro q hq
  obtain ⟨v, -, rfl⟩ := Option.map_eq_some_iff.mp hq
  exact h v

theorem priority_typed {o : Option Int} (h : ∀ i ∈ o, Json.Int32 i) : ∀ i ∈ receivedPriority o, Json.Int32 i := by
  intro i hi
  exact h i (Option.mem_filter_iff.mp hi).1

/-! ### Parts of what is received -/

theorem keyframe_typed {k : Keyframe} (bt : Nat) (h : KeyframeTyped k) : KeyframeTyped (k.receivedIn bt) := by
  refine ⟨h.position, map_float amplitude_float, fun i hi => ?_⟩
  unfold Keyframe.receivedIn at hi
  dsimp only at hi
  split at hi
  · cases hi
  · exact h.frequency i hi

theorem effect_typed {e x : Effect} (bt : Nat) (h : EffectTyped e) (hx : x = { e with id := x.id }) (hid : U 16 x.id)
    (ht : x.effectType < 3) : EffectTyped (x.receivedBy bt) := by
  have i32 : Json.Int32 x.id := by unfold U at hid; unfold Json.Int32; omega
  have p : x.position = e.position := by rw [hx]
  have s : x.semantic = e.semantic := by rw [hx]
  have b : x.baseSignal = e.baseSignal := by rw [hx]
  have k : x.keyframes = e.keyframes := by rw [hx]
  have w : x.waveletBitstream = e.waveletBitstream := by rw [hx]
  unfold Effect.receivedBy Effect.receivedWavelet Effect.receivedIn
  split
  · exact ⟨i32, p ▸ h.position, by simp, by simp, s ▸ h.semantic, by simp, by simp, w ▸ h.payload⟩
  · split
    · refine ⟨i32, p ▸ h.position, ?_, ?_, s ▸ h.semantic, ht, ?_, Or.inl rfl⟩
      · intro q hq
        dsimp only at hq
        split at hq
        · cases hq; exact phase_float _
        · cases hq
      · intro n hn
        dsimp only at hn
        split at hn
        · cases hn
          cases hb : x.baseSignal with
          | none => simp
          | some v => exact h.baseSignal v (b ▸ hb)
        · cases hn
      · intro y hy
        obtain ⟨z, hz, rfl⟩ := List.mem_map.mp hy
        exact keyframe_typed bt (h.keyframes z (k ▸ hz))
    · exact ⟨i32, p ▸ h.position, by simp, by simp, by simp, ht, by simp, Or.inl rfl⟩

theorem library_typed {e : Effect} (h : EffectTyped e) : EffectTyped e.received := by
  obtain ⟨id, position, phase, semantic, keyframes, baseSignal, effectType, timeline, w⟩ := e
  unfold Effect.received
  refine ⟨h.id, h.position, ?_, ?_, h.semantic, h.effectType, ?_, Or.inl rfl⟩
  · intro q hq
    dsimp only at hq
    split at hq
    · cases hq; exact phase_float _
    · cases hq
  · intro n hn
    dsimp only at hn
    split at hn
    · cases hn
      cases hb : baseSignal with
      | none => simp
      | some v => exact h.baseSignal v hb
    · cases hn
  · intro y hy
    obtain ⟨z, hz, rfl⟩ := List.mem_map.mp hy
    have := h.keyframes z hz
    exact ⟨this.position, map_float amplitude_float, this.frequency⟩

theorem device_typed {d : ReferenceDevice} (h : DeviceTyped d) : DeviceTyped d.received := by
  refine ⟨h.id, ?_, map_float frequency_float, map_float frequency_float, map_float frequency_float,
    map_float unsigned_float, map_float unsigned_float, map_float unsigned_float, map_float unsigned_float,
    map_float unsigned_float, map_float unsigned_float, map_float unsigned_float, map_float signed_float, h.type⟩
  intro n hn
  have hn : n = d.bodyPartMask.getD 0 := by simpa [ReferenceDevice.received, eq_comm] using hn
  subst hn
  cases hm : d.bodyPartMask with
  | none => simp [Uint32]
  | some m => exact h.bodyPartMask m hm

/-! ### Pruning and identifiers -/

theorem accum_source {α β σ : Type} {f : σ → α → β × σ} {l : List α} {s : σ} {y : β} (h : y ∈ (mapAccum f s l).1) :
    ∃ x ∈ l, ∃ s', y = (f s' x).1 := by
  induction l generalizing s with
  | nil => simp [mapAccum] at h
  | cons x l ih =>
    rcases List.mem_cons.mp h with rfl | h
    · exact ⟨x, List.mem_cons_self, s, rfl⟩
    · obtain ⟨x', hx, hs⟩ := ih h
      exact ⟨x', List.mem_cons_of_mem _ hx, hs⟩

theorem prune_typed {h : Experience} (t : Typed h) : Typed h.prune := by
  refine ⟨t.level, t.timescale, t.avatars, fun p hp => ?_, t.syncs⟩
  obtain ⟨p, hp', rfl⟩ := List.mem_map.mp (List.mem_filter.mp hp).1
  have tp := t.perceptions p hp'
  refine ⟨tp.id, tp.avatarId, tp.modality, tp.priority, tp.unitExponent, tp.perceptionUnitExponent, tp.devices, tp.library,
    fun c hc => ?_⟩
  obtain ⟨c, hc', rfl⟩ := List.mem_map.mp (List.mem_filter.mp hc).1
  have tc := tp.channels c hc'
  refine ⟨tc.id, tc.gain, tc.mixingWeight, tc.bodyPartMask, tc.vertices, tc.priority, tc.referenceDeviceId,
    tc.frequencySampling, tc.sampleCount, tc.direction, tc.actuatorResolution, tc.bodyPartTarget, tc.actuatorTarget,
    fun b hb => ?_⟩
  obtain ⟨b, hb', rfl⟩ := List.mem_map.mp (List.mem_filter.mp hb).1
  have tb := tc.bands b hb'
  exact ⟨tb.bandType, tb.curveType, tb.blockLength, tb.lower, tb.upper, tb.priority,
    fun f hf => tb.effects f (List.mem_filter.mp hf).1, tb.ordered.filter _⟩

theorem ordered_of_forall₂ {l m : List Effect} (h : List.Forall₂ (fun e x => x.position = e.position) l m)
    (ho : l.Pairwise (fun f g => f.position ≤ g.position)) : m.Pairwise (fun f g => f.position ≤ g.position) := by
  have hm : l.map (·.position) = m.map (·.position) := by
    induction h with
    | nil => rfl
    | cons a _ ih => rw [List.map_cons, List.map_cons, a, ih (List.pairwise_cons.mp ho).2]
  have h1 := List.pairwise_map (f := fun e : Effect => e.position) (R := (· ≤ ·)) (l := l) |>.mpr ho
  rw [hm] at h1
  exact List.pairwise_map.mp h1

theorem band_typed {ts d : Nat} {b : Band} {s : List Int} (t : BandTyped b) (hh : (b.assignIds s).1.HeaderFits)
    (hf : (b.assignIds s).1.EffectsFit d ∨ (b.assignIds s).1.BlocksFit ts d) : BandTyped (b.assignIds s).1.receivedStream := by
  have h2 := identified_forall₂ b.bandType b.effects s
  have tf : ∀ x ∈ (b.assignIds s).1.effects, U 16 x.id ∧ x.effectType < 3 := by
    intro x hx
    rcases hf with hf | hf
    · have := hf.sendable x hx
      refine ⟨this.id, ?_⟩
      rcases this.type with h | h <;> rw [h] <;> decide
    · refine ⟨hf.ids x hx, ?_⟩
      rw [hf.basis x hx]; decide
  refine ⟨t.bandType, ?_, ?_, t.lower, t.upper, priority_typed t.priority, ?_, ?_⟩
  · intro n hn
    by_cases hc : b.bandType = BandType.Curve
    · have hn : n = b.curveTypeOrDefault := by
        simpa [Band.receivedStream, Band.receivedHeader, Band.assignIds, Band.curveTypeOrDefault, hc, eq_comm] using hn
      subst hn
      unfold Band.curveTypeOrDefault
      cases hb : b.curveType with
      | none => decide
      | some v => exact t.curveType v hb
    · simp [Band.receivedStream, Band.receivedHeader, Band.assignIds, hc] at hn
  · intro i hi
    by_cases hc : b.bandType = BandType.WaveletWave
    · have hn : i = (b.assignIds s).1.blockLengthOrDefault := by
        simpa [Band.receivedStream, Band.receivedHeader, Band.assignIds, Band.blockLengthOrDefault, hc, eq_comm] using hi
      have := hh.blockLength hc
      unfold U at this
      omega
    · have : i = 0 := by
        simpa [Band.receivedStream, Band.receivedHeader, Band.assignIds, hc, eq_comm] using hi
      omega
  · intro y hy
    obtain ⟨x, hx, rfl⟩ := List.mem_map.mp hy
    obtain ⟨e, he, hr⟩ := forall₂_mem h2.flip hx
    exact effect_typed _ (t.effects e he) hr.1 (tf x hx).1 (tf x hx).2
  · refine ordered_of_forall₂ (l := b.effects) ?_ t.ordered
    show List.Forall₂ _ _ (((identified b.bandType s b.effects).1).map _)
    rw [List.forall₂_map_right_iff]
    refine h2.imp ?_
    rintro e x ⟨hx, -⟩
    have : (x.receivedBy b.bandType).position = x.position := by
      unfold Effect.receivedBy Effect.receivedWavelet Effect.receivedIn
      split
      · rfl
      · split <;> rfl
    show (x.receivedBy b.bandType).position = _
    rw [this, hx]

theorem channel_typed {ts d : Nat} {c : Channel} {s : List Int} (t : ChannelTyped c)
    (hf : (c.assignIds s).1.StreamFits ts d) : ChannelTyped (c.assignIds s).1.receivedStream := by
  refine ⟨t.id, signed_float _, unsigned_float _, ?_, t.vertices, priority_typed t.priority, t.referenceDeviceId, ?_, ?_,
    t.direction, t.actuatorResolution, ?_, ?_, ?_⟩
  · show Uint32 (if c.actuatorResolution.isSome then 0 else c.bodyPartMask)
    split
    · simp [Uint32]
    · exact t.bodyPartMask
  · intro n hn
    exact t.frequencySampling n (Option.mem_filter_iff.mp hn).1
  · intro n hn
    change n ∈ (if 0 < c.frequencySampling.getD 0 then some (c.sampleCount.getD 0) else none) at hn
    split at hn
    · cases hn
      cases hs : c.sampleCount with
      | none => simp [Uint32]
      | some m => exact t.sampleCount m hs
    · cases hn
  · intro l hl
    change l ∈ (if c.actuatorResolution.isSome then some (c.bodyPartTarget.getD []) else none) at hl
    split at hl
    · cases hl
      cases hs : c.bodyPartTarget with
      | none => simp
      | some m => exact t.bodyPartTarget m hs
    · cases hl
  · intro l hl
    change l ∈ (if c.actuatorResolution.isSome then some (c.actuatorTarget.getD []) else none) at hl
    split at hl
    · cases hl
      cases hs : c.actuatorTarget with
      | none => simp
      | some m => exact t.actuatorTarget m hs
    · cases hl
  · intro b hb
    obtain ⟨b', hb', rfl⟩ := List.mem_map.mp hb
    obtain ⟨b, hm, s', rfl⟩ := accum_source hb'
    have := hf.bands _ hb'
    exact band_typed (t.bands b hm) this.1 this.2

theorem perception_typed {ts d : Nat} {p : Perception} {s : List Int} (t : PerceptionTyped p)
    (hf : (p.assignIds s).1.StreamFits ts d) : PerceptionTyped (p.assignIds s).1.receivedStream := by
  refine ⟨t.id, t.avatarId, t.modality, priority_typed t.priority, ?_, ?_, ?_, ?_, ?_⟩
  · intro i hi
    cases hi
    cases hs : p.unitExponent with
    | none => show Json.Int32 (p.unitExponent.getD (-3)); rw [hs]; simp [Json.Int32]
    | some m => show Json.Int32 (p.unitExponent.getD (-3)); rw [hs]; exact t.unitExponent m hs
  · intro i hi
    cases hi
    cases hs : p.perceptionUnitExponent with
    | none => show Json.Int32 (p.perceptionUnitExponent.getD 0); rw [hs]; simp [Json.Int32]
    | some m => show Json.Int32 (p.perceptionUnitExponent.getD 0); rw [hs]; exact t.perceptionUnitExponent m hs
  · intro x hx
    obtain ⟨y, hy, rfl⟩ := List.mem_map.mp hx
    exact device_typed (t.devices y hy)
  · intro x hx
    obtain ⟨y, hy, rfl⟩ := List.mem_map.mp hx
    exact library_typed (t.library y hy)
  · intro c hc
    obtain ⟨c', hc', rfl⟩ := List.mem_map.mp hc
    obtain ⟨c, hm, s', rfl⟩ := accum_source hc'
    exact channel_typed (t.channels c hm) (hf.channels _ hc')

/-- What is received has values of the C++ types. -/
theorem received_typed {d : Nat} {h : Experience} (t : Typed h) (hf : h.assignIds.StreamFits d) :
    Typed h.assignIds.receivedStream := by
  refine ⟨t.level, ?_, ?_, ?_, ?_⟩
  · intro n hn
    cases hn
    exact hf.timescale
  · intro a ha
    obtain ⟨b, hb, rfl⟩ := List.mem_map.mp ha
    exact ⟨(t.avatars b hb).id, (t.avatars b hb).lod, (t.avatars b hb).type⟩
  · intro p hp
    obtain ⟨p', hp', rfl⟩ := List.mem_map.mp hp
    obtain ⟨p, hm, s', rfl⟩ := accum_source hp'
    exact perception_typed (t.perceptions p hm) (hf.perceptions _ hp')
  · intro s hs
    rw [List.mem_singleton.mp hs]
    refine ⟨by simp [Json.Int32], ?_⟩
    intro n hn
    cases hn
    exact hf.timescale

/-! ### New identifiers are not kept by a file -/

theorem accum_map {α β σ γ : Type} (f : σ → α → β × σ) (F : α → γ) (G : β → γ) (l : List α)
    (h : ∀ x ∈ l, ∀ s, G (f s x).1 = F x) (s : σ) : (mapAccum f s l).1.map G = l.map F := by
  induction l generalizing s with
  | nil => rfl
  | cons x l ih =>
    simp only [mapAccum, List.map_cons]
    rw [h x List.mem_cons_self, ih (fun y hy => h y (List.mem_cons_of_mem _ hy))]

theorem forall₂_map_eq {α β γ : Type} {R : α → β → Prop} {F : α → γ} {G : β → γ} {l : List α} {m : List β}
    (h : List.Forall₂ R l m) (hR : ∀ a ∈ l, ∀ b, R a b → G b = F a) : m.map G = l.map F := by
  induction h with
  | nil => rfl
  | cons hab _ ih =>
    rw [List.map_cons, List.map_cons, hR _ List.mem_cons_self _ hab, ih (fun a ha => hR a (List.mem_cons_of_mem _ ha))]

theorem keptEffect_id (bt : Nat) {e x : Effect} (hx : x = { e with id := x.id })
    (hr : bt ≠ BandType.WaveletWave → e.id ≠ -1 → x = e) (hid : e.effectType = EffectType.Reference → e.id ≠ -1) :
    keptEffect bt (x.receivedBy bt) = keptEffect bt (e.receivedBy bt) := by
  obtain ⟨id, position, phase, semantic, keyframes, baseSignal, effectType, timeline, w⟩ := e
  obtain ⟨id', position', phase', semantic', keyframes', baseSignal', effectType', timeline', w'⟩ := x
  simp only [Effect.mk.injEq, true_and] at hx hr hid
  obtain ⟨rfl, rfl, rfl, rfl, rfl, rfl, rfl, rfl⟩ := hx
  unfold Effect.receivedBy
  split
  · unfold Effect.receivedWavelet keptEffect
    rfl
  · rename_i hb
    unfold Effect.receivedIn
    dsimp only
    split
    · rename_i hbasis
      unfold keptEffect
      dsimp only
      rw [hbasis]
      rfl
    · by_cases h : effectType' = EffectType.Reference
      · have := hr hb (hid h)
        rw [this.1]
      · unfold keptEffect
        dsimp only
        rw [if_neg h, if_neg h]

theorem keptBand_id {b : Band} (s : List Int)
    (hid : ∀ e ∈ b.effects, e.effectType = EffectType.Reference → e.id ≠ -1) :
    keptBand (b.assignIds s).1.receivedStream = keptBand b.receivedStream := by
  have h : ((identified b.bandType s b.effects).1.map (Effect.receivedBy b.bandType)).map (keptEffect b.bandType) =
      (b.effects.map (Effect.receivedBy b.bandType)).map (keptEffect b.bandType) := by
    rw [List.map_map, List.map_map]
    refine forall₂_map_eq (identified_forall₂ b.bandType b.effects s) ?_
    rintro e he x ⟨h1, h2⟩
    exact keptEffect_id _ h1 h2 (hid e he)
  unfold keptBand Band.receivedStream Band.receivedHeader Band.assignIds
  dsimp only
  rw [h]
  rfl

theorem keptChannel_id {c : Channel} (s : List Int)
    (hid : ∀ b ∈ c.bands, ∀ e ∈ b.effects, e.effectType = EffectType.Reference → e.id ≠ -1) :
    keptChannel (c.assignIds s).1.receivedStream = keptChannel c.receivedStream := by
  have h : ((mapAccum Band.assignIds s c.bands).1.map Band.receivedStream).map keptBand =
      (c.bands.map Band.receivedStream).map keptBand := by
    rw [List.map_map, List.map_map]
    exact accum_map _ _ _ _ (fun b hb s => keptBand_id s (hid b hb)) s
  unfold keptChannel Channel.receivedStream Channel.receivedHeader Channel.assignIds
  dsimp only
  rw [h]

theorem keptPerception_id {p : Perception} (s : List Int)
    (hid : ∀ c ∈ p.channels, ∀ b ∈ c.bands, ∀ e ∈ b.effects, e.effectType = EffectType.Reference → e.id ≠ -1) :
    keptPerception (p.assignIds s).1.receivedStream = keptPerception p.receivedStream := by
  have h : ((mapAccum Channel.assignIds s p.channels).1.map Channel.receivedStream).map keptChannel =
      (p.channels.map Channel.receivedStream).map keptChannel := by
    rw [List.map_map, List.map_map]
    exact accum_map _ _ _ _ (fun b hb s => keptChannel_id s (hid b hb)) s
  unfold keptPerception Perception.receivedStream Perception.receivedHeader Perception.assignIds
  dsimp only
  rw [h]

theorem kept_id (now : Str) {h : Experience} (hid : ∀ p ∈ h.perceptions, ∀ c ∈ p.channels, ∀ b ∈ c.bands, ∀ e ∈ b.effects,
    e.effectType = EffectType.Reference → e.id ≠ -1) :
    kept now h.assignIds.receivedStream = kept now h.receivedStream := by
  have h : ((mapAccum Perception.assignIds (getEffectsId h) h.perceptions).1.map Perception.receivedStream).map keptPerception =
      (h.perceptions.map Perception.receivedStream).map keptPerception := by
    rw [List.map_map, List.map_map]
    exact accum_map _ _ _ _ (fun b hb s => keptPerception_id s (hid b hb)) _
  unfold kept Experience.receivedStream Experience.assignIds
  dsimp only
  rw [h]

/-! ### What comes back conforms -/

theorem keyword_noZero : ∀ x ∈ stringToEffectSemantic, Char.ofNat 0 ∉ x.1.toList := by decide +kernel

theorem received_id (e : Effect) : e.received.id = e.id := by cases e; unfold Effect.received; rfl
theorem received_type (e : Effect) : e.received.effectType = e.effectType := by cases e; unfold Effect.received; rfl

theorem keptEffect_wavelet (e : Effect) : (keptEffect BandType.WaveletWave e).keyframes = [] := by
  unfold keptEffect
  dsimp only
  split
  · rfl
  · split
    · rfl
    · rfl

theorem keptEffect_semantic (bt : Nat) (e : Effect) : (keptEffect bt e).semantic = e.semantic.map keptKeyword := by
  unfold keptEffect
  dsimp only
  split
  · rfl
  · split
    · rfl
    · split
      · rfl
      · split <;> rfl

/-- An effect that comes back is a reference or composite only if it was one. -/
theorem keptEffect_type {bt : Nat} {e : Effect} (h : (keptEffect bt e).effectType ≠ EffectType.Basis) :
    e.effectType = (keptEffect bt e).effectType ∧ (e.effectType = EffectType.Reference → (keptEffect bt e).id = e.id) := by
  unfold keptEffect at h ⊢
  dsimp only at h ⊢
  split
  · rename_i h; exact ⟨h, fun _ => rfl⟩
  · rename_i h1
    rw [if_neg h1] at h
    split
    · rename_i h; exact ⟨h, fun h => absurd h h1⟩
    · rename_i h2
      rw [if_neg h2] at h
      split at h
      · exact absurd rfl h
      · split at h <;> exact absurd rfl h

theorem receivedBy_type {bt : Nat} {e : Effect} (h : (e.receivedBy bt).effectType ≠ EffectType.Basis) :
    e.effectType = (e.receivedBy bt).effectType ∧ (e.receivedBy bt).id = e.id := by
  unfold Effect.receivedBy Effect.receivedWavelet Effect.receivedIn at h ⊢
  split
  · rename_i hb
    rw [if_pos hb] at h
    exact absurd rfl h
  · split <;> exact ⟨rfl, rfl⟩

theorem receivedBy_semantic {bt : Nat} {e : Effect} {s : String} (h : (e.receivedBy bt).semantic = some s) :
    e.semantic = some s := by
  unfold Effect.receivedBy Effect.receivedWavelet Effect.receivedIn at h
  split at h
  · exact h
  · split at h
    · exact h
    · cases h

theorem effect_conformant {h k : Experience} {p q : Perception} {b c : Band} {e : Effect} (he : ConformantEffect h p b e)
    (hp : k.profile = h.profile) (hb : c.bandType = b.bandType)
    (hl : ∀ l ∈ p.effectLibrary, ∃ m ∈ q.effectLibrary, m.id = l.id) :
    ConformantEffect k q c (keptEffect b.bandType (e.receivedBy b.bandType)) := by
  refine ⟨fun hs hc => ?_, fun hw => ?_, fun hr => ?_, fun s hs => ?_⟩
  · have h1 := keptEffect_type (by rw [hc]; decide)
    rw [hc] at h1
    have h2 := receivedBy_type (bt := b.bandType) (e := e) (by rw [h1.1]; decide)
    rw [h1.1] at h2
    exact he.simple (hp ▸ hs) h2.1
  · rw [hb] at hw
    rw [hw]
    exact keptEffect_wavelet _
  · have h1 := keptEffect_type (by rw [hr]; decide)
    rw [hr] at h1
    have h2 := receivedBy_type (bt := b.bandType) (e := e) (by rw [h1.1]; decide)
    rw [h1.1] at h2
    obtain ⟨l, hl', hi⟩ := he.reference h2.1
    obtain ⟨m, hm, hi'⟩ := hl l hl'
    exact ⟨m, hm, by rw [hi', hi, h1.2 h1.1, h2.2]⟩
  · rw [keptEffect_semantic] at hs
    obtain ⟨t, ht, rfl⟩ := Option.map_eq_some_iff.mp hs
    obtain ⟨n, hn⟩ := he.semantic t (receivedBy_semantic ht)
    rw [(keptKeyword_iff t).mpr (keyword_noZero _ hn)]
    exact ⟨n, hn⟩

theorem band_conformant {h k : Experience} {p q : Perception} {b : Band} (hb : ConformantBand h p b)
    (hp : k.profile = h.profile) (hl : ∀ l ∈ p.effectLibrary, ∃ m ∈ q.effectLibrary, m.id = l.id) :
    ConformantBand k q (keptBand b.prune.receivedStream) := by
  refine ⟨fun hc => if_neg hc, fun hw => ?_, fun hs => hb.simple (hp ▸ hs), hb.limits, fun f hf => ?_⟩
  · obtain ⟨n, hn⟩ := hb.block hw
    refine ⟨n, ?_⟩
    have hw : b.bandType = BandType.WaveletWave := hw
    simp [keptBand, Band.receivedStream, Band.receivedHeader, Band.prune, hw, Band.blockLengthOrDefault, hn]
  · obtain ⟨x, hx, rfl⟩ := List.mem_map.mp hf
    obtain ⟨e, he, rfl⟩ := List.mem_map.mp hx
    exact effect_conformant (b := b) (hb.effects e (List.mem_filter.mp he).1) hp rfl hl

theorem channel_conformant {h k : Experience} {p q : Perception} {c : Channel} (hc : ConformantChannel h p c)
    (hp : k.profile = h.profile) (hv : k.level = h.level)
    (hl : ∀ l ∈ p.effectLibrary, ∃ m ∈ q.effectLibrary, m.id = l.id)
    (hd : ∀ l ∈ p.referenceDevices, ∃ m ∈ q.referenceDevices, m.id = l.id) :
    ConformantChannel k q (keptChannel c.prune.receivedStream) := by
  have hlen : (keptChannel c.prune.receivedStream).bands.length ≤ c.bands.length := by
    simp only [keptChannel, Channel.receivedStream, Channel.prune, List.length_map]
    exact (List.length_filter_le _ _).trans (by rw [List.length_map])
  refine ⟨fun id hid => ?_, hc.direction, ⟨fun h1 => ?_, fun h1 => ?_⟩, hc.resolution, fun l hl' => ?_, fun b hb => ?_⟩
  · obtain ⟨d, hd', hi⟩ := hc.device id hid
    obtain ⟨m, hm, hi'⟩ := hd d hd'
    exact ⟨m, hm, hi'.trans hi⟩
  · exact hlen.trans (hc.bandCount.1 (hv ▸ h1))
  · exact hlen.trans (hc.bandCount.2 (hv ▸ h1))
  · change (if c.actuatorResolution.isSome then some (c.actuatorTarget.getD []) else none) = some l at hl'
    cases hr : c.actuatorResolution with
    | none => rw [hr] at hl'; cases hl'
    | some r =>
      rw [hr] at hl'
      cases ht : c.actuatorTarget with
      | none =>
        rw [ht] at hl'
        cases hl'
        exact ⟨r, hr, fun t ht => absurd ht (by simp)⟩
      | some m =>
        rw [ht] at hl'
        cases hl'
        exact hc.targets m ht
  · obtain ⟨x, hx, rfl⟩ := List.mem_map.mp hb
    obtain ⟨y, hy, rfl⟩ := List.mem_map.mp hx
    obtain ⟨z, hz, rfl⟩ := List.mem_map.mp (List.mem_filter.mp hy).1
    exact band_conformant (hc.bands z hz) hp hl

theorem device_conformant {d : ReferenceDevice} (hd : ConformantDevice d) : ConformantDevice (keptDevice d.received) := by
  have hm : (0 : ℚ) < MAX_FREQUENCY := by norm_num [MAX_FREQUENCY]
  refine ⟨fun lo hi h1 h2 => ?_, fun lo f h1 h2 => ?_, fun hi f h1 h2 => ?_⟩
  all_goals
    obtain ⟨a, ha, rfl⟩ := Option.map_eq_some_iff.mp h1
    obtain ⟨b, hb, rfl⟩ := Option.map_eq_some_iff.mp h2
    apply c05_monotone _ hm
  · exact hd.order a b ha hb
  · exact hd.above a b ha hb
  · exact hd.below a b ha hb

theorem perception_conformant {h k : Experience} {p : Perception} (hc : ConformantPerception h p)
    (hp : k.profile = h.profile) (hv : k.level = h.level) (ha : ∀ a ∈ h.avatars, ∃ b ∈ k.avatars, b.id = a.id) :
    ConformantPerception k (keptPerception p.prune.receivedStream) := by
  have hlen : (keptPerception p.prune.receivedStream).channels.length ≤ p.channels.length := by
    simp only [keptPerception, Perception.receivedStream, Perception.prune, List.length_map]
    exact (List.length_filter_le _ _).trans (by rw [List.length_map])
  have hdev : (keptPerception p.prune.receivedStream).referenceDevices.map (·.id) = p.referenceDevices.map (·.id) := by
    simp only [keptPerception, Perception.receivedStream, Perception.receivedHeader, Perception.prune, List.map_map]
    rfl
  have hlib : (keptPerception p.prune.receivedStream).effectLibrary.map (·.id) = p.effectLibrary.map (·.id) := by
    simp only [keptPerception, Perception.receivedStream, Perception.receivedHeader, Perception.prune, List.map_map]
    exact List.map_congr_left (fun e _ => received_id e)
  have hch : ((keptPerception p.prune.receivedStream).channels.map (·.id)).Sublist (p.channels.map (·.id)) := by
    have h1 : (keptPerception p.prune.receivedStream).channels.map (·.id) =
        ((p.channels.map Channel.prune).filter (fun c => !c.bands.isEmpty)).map (·.id) := by
      simp only [keptPerception, Perception.receivedStream, Perception.prune, List.map_map]
      rfl
    rw [h1]
    have h2 := (List.filter_sublist (l := p.channels.map Channel.prune) (p := fun c => !c.bands.isEmpty)).map (·.id)
    rw [List.map_map] at h2
    exact h2
  have mem_of : ∀ {α : Type} {l m : List α} {f : α → Int}, m.map f = l.map f → ∀ x ∈ l, ∃ y ∈ m, f y = f x := by
    intro α l m f hm x hx
    have := List.mem_map_of_mem (f := f) hx
    rw [← hm] at this
    obtain ⟨y, hy, he⟩ := List.mem_map.mp this
    exact ⟨y, hy, he⟩
  refine ⟨fun h1 h2 => hc.modality (hp ▸ h1) (hv ▸ h2), ?_, ?_, ⟨fun h1 => ?_, fun h1 => ?_⟩, ?_, fun d hd => ?_, ?_,
    fun c hcm => ?_, ?_, fun h1 f hf => ?_⟩
  · rcases hc.avatar with h | ⟨a, ham, hi⟩
    · exact .inl h
    · obtain ⟨b, hb, hi'⟩ := ha a ham
      exact .inr ⟨b, hb, hi'.trans hi⟩
  · show p.effectSemanticScheme.map keptText = none
    rw [hc.scheme]; rfl
  · exact hlen.trans (hc.channelCount.1 (hv ▸ h1))
  · exact hlen.trans (hc.channelCount.2 (hv ▸ h1))
  · rw [hdev]; exact hc.deviceIds
  · obtain ⟨x, hx, rfl⟩ := List.mem_map.mp hd
    obtain ⟨y, hy, rfl⟩ := List.mem_map.mp hx
    exact device_conformant (hc.devices y hy)
  · exact hch.nodup hc.channelIds
  · obtain ⟨x, hx, rfl⟩ := List.mem_map.mp hcm
    obtain ⟨y, hy, rfl⟩ := List.mem_map.mp hx
    obtain ⟨z, hz, rfl⟩ := List.mem_map.mp (List.mem_filter.mp hy).1
    exact channel_conformant (hc.channels z hz) hp hv (mem_of hlib) (mem_of hdev)
  · rw [hlib]; exact hc.libraryIds
  · obtain ⟨x, hx, rfl⟩ := List.mem_map.mp hf
    obtain ⟨y, hy, rfl⟩ := List.mem_map.mp hx
    show y.received.effectType ≠ _
    rw [received_type]
    exact hc.library (hp ▸ h1) y hy

/-- What comes back from a stream and a file conforms if the experience did. -/
theorem transcoded_conformant (now : Str) {h : Experience} (hc : Conformant h) (ht : CheckedTexts h) :
    Conformant (h.transcoded now) := by
  have hprof : keptText h.profile = h.profile := by
    rcases hc.profile with h | h <;> rw [h] <;> decide +kernel
  have hdate : (h.transcoded now).date = h.date := by
    have : (h.transcoded now).date = keptText h.date := congrArg keptText (if_pos hc.date)
    rw [this]
    exact (keptText_iff _).mpr ht.date
  have hver : (h.transcoded now).version = h.version := if_pos hc.version
  have hav : (h.transcoded now).avatars.map (·.id) = h.avatars.map (·.id) := by
    simp only [Experience.transcoded, kept, Experience.receivedStream, Experience.prune, List.map_map]
    rfl
  have hpi : ((h.transcoded now).perceptions.map (·.id)).Sublist (h.perceptions.map (·.id)) := by
    have h1 : (h.transcoded now).perceptions.map (·.id) =
        ((h.perceptions.map Perception.prune).filter (fun c => !c.channels.isEmpty)).map (·.id) := by
      simp only [Experience.transcoded, kept, Experience.receivedStream, Experience.prune, List.map_map]
      rfl
    rw [h1]
    have h2 := (List.filter_sublist (l := h.perceptions.map Perception.prune) (p := fun c => !c.channels.isEmpty)).map (·.id)
    rw [List.map_map] at h2
    exact h2
  have hp : (h.transcoded now).profile = h.profile := hprof
  refine ⟨hver ▸ hc.version, hdate ▸ hc.date, hp ▸ hc.profile, hc.level, fun t hts => ?_, ?_, fun a ha => ?_, ?_, fun p hpm => ?_⟩
  · rw [hp]
    have hts : some (h.timescale.getD 1000) = some t := hts
    cases hts
    cases hs : h.timescale with
    | none => exact ⟨fun _ => rfl, fun _ => by decide⟩
    | some t => exact hc.timescale t hs
  · rw [hav]; exact hc.avatarIds
  · obtain ⟨x, hx, rfl⟩ := List.mem_map.mp ha
    obtain ⟨y, hy, rfl⟩ := List.mem_map.mp hx
    have := hc.avatars y hy
    refine ⟨this.1, fun hm => ?_⟩
    have hm : (if y.type = 0 then (if y.type = 0 then y.mesh else none).map keptText else none) = some [] := hm
    split at hm
    · rw [(keptText_opt y.mesh).mpr (ht.meshes y hy)] at hm
      exact this.2 hm
    · cases hm
  · exact hpi.nodup hc.perceptionIds
  · obtain ⟨x, hx, rfl⟩ := List.mem_map.mp hpm
    obtain ⟨y, hy, rfl⟩ := List.mem_map.mp hx
    obtain ⟨z, hz, rfl⟩ := List.mem_map.mp (List.mem_filter.mp hy).1
    refine perception_conformant (hc.perceptions z hz) hp rfl (fun a ha => ?_)
    have := List.mem_map_of_mem (f := fun a : Avatar => a.id) ha
    rw [← hav] at this
    obtain ⟨y, hy, he⟩ := List.mem_map.mp this
    exact ⟨y, hy, he⟩

end Haptics.Transcoded
