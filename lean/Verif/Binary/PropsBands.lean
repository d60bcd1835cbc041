import Verif.Binary.Bands
import Verif.Binary.SpecBands
import Verif.Stream.PropsMeta

/-
C07, C09, C10: bands in the binary file format.
-/
namespace Haptics.Binary

theorem frdU_w {n : Nat} {v : Int} (h : U n v) (r : Bits) :
    frdU n (writeNBits n v ++ r) = .ok (v.toNat, r) := by
  obtain ⟨k, rfl⟩ := Int.eq_ofNat_of_zero_le h.1
  exact frdU_writeNBits n k r (by exact_mod_cast h.2)

theorem U.toNat {n : Nat} {v : Int} (h : U n v) : ((v.toNat : Nat) : Int) = v := Int.toNat_of_nonneg h.1

theorem U.getD {n : Nat} {o : Option Int} (h : ∀ v ∈ o, U n v) : U n (o.getD 0) := by
  cases o with
  | none => exact ⟨le_refl _, by positivity⟩
  | some v => exact h v rfl

/-! ## C07 – keyframes and effects are read back -/

theorem frOptF_w (n : Nat) (hn : n ≤ 52) (mn mx : ℚ) (o : Option ℚ) (r : Bits) :
    frOptF n mn mx o.isSome (wOptF n mn mx o ++ r) = .ok (o.map (quantF n mn mx), r) := by
  cases o with
  | none => rfl
  | some v =>
    simp only [frOptF, wOptF, Option.isSome_some, if_true, Rd.bind_apply, freadFloatNBits_write n hn,
      Rd.pure_apply, Option.map_some]

theorem frOptI_w (n : Nat) (o : Option Int) (h : ∀ v ∈ o, U n v) (r : Bits) :
    frOptI n o.isSome (wOptI n o ++ r) = .ok (o, r) := by
  cases o with
  | none => rfl
  | some v =>
    simp only [frOptI, wOptI, Option.isSome_some, if_true, Rd.bind_apply, frdU_w (h v rfl),
      Rd.pure_apply, U.toNat (h v rfl)]

theorem readTransientKf_w (k : Keyframe) (h : k.Fits) : ∃ b, writeTransientKf k = .ok b ∧
    ∀ r, readTransientKf (b ++ r) = .ok (k.stored BandType.Transient, r) := by
  refine ⟨_, rfl, fun r => ?_⟩
  have h1 := U.getD h.position
  have h2 := U.getD h.frequency
  unfold readTransientKf
  simp only [List.append_assoc, Rd.bind_apply, freadFloatNBits_write KEYFRAME_AMPLITUDE (by decide),
    frdU_w h1, frdU_w h2, Rd.pure_apply, U.toNat h1, U.toNat h2]
  rfl

theorem readCurveKf_w (k : Keyframe) (h : k.Fits) : ∃ b, writeCurveKf k = .ok b ∧
    ∀ r, readCurveKf (b ++ r) = .ok (k.stored BandType.Curve, r) := by
  refine ⟨_, rfl, fun r => ?_⟩
  have h1 := U.getD h.position
  unfold readCurveKf
  simp only [List.append_assoc, Rd.bind_apply, freadFloatNBits_write KEYFRAME_AMPLITUDE (by decide),
    frdU_w h1, Rd.pure_apply, U.toNat h1]
  rfl

theorem readVectorialKf_w (k : Keyframe) (h : k.FileFits BandType.VectorialWave) :
    ∃ b, writeVectorialKf k = .ok b ∧
      ∀ r, readVectorialKf (b ++ r) = .ok (k.stored BandType.VectorialWave, r) := by
  obtain ⟨⟨hp, hf⟩, hv⟩ := h
  obtain ⟨kp, ka, kf⟩ := k
  obtain ⟨p, rfl⟩ := Option.isSome_iff_exists.mp (hv rfl)
  have hm : vectorialMask ⟨some p, ka, kf⟩ < 2 ^ 3 := by
    cases ka <;> cases kf <;> simp [vectorialMask]
  have e1 : (vectorialMask ⟨some p, ka, kf⟩ % 2 != 0) = ka.isSome := by
    cases ka <;> cases kf <;> simp [vectorialMask]
  have e2 : (vectorialMask ⟨some p, ka, kf⟩ / 2 % 2 != 0) = kf.isSome := by
    cases ka <;> cases kf <;> simp [vectorialMask]
  have hpu := hp p rfl
  refine ⟨_, rfl, fun r => ?_⟩
  unfold readVectorialKf
  simp only [List.append_assoc, Rd.bind_apply, frdU_writeNBits KEYFRAME_MASK _ _ hm, e1, e2,
    frOptF_w KEYFRAME_AMPLITUDE (by decide), frdU_w hpu, frOptI_w KEYFRAME_FREQUENCY kf hf, Rd.pure_apply,
    U.toNat hpu]
  rfl

theorem readKeyframes_w (w : Keyframe → Except Err Bits) (p : Rd Keyframe) (q : Keyframe → Keyframe)
    (e e' : Effect) (hn : e.keyframes.length < 65536) (he : e'.keyframes = [])
    (h : ∀ k ∈ e.keyframes, ∃ b, w k = .ok b ∧ ∀ r, p (b ++ r) = .ok (q k, r)) :
    ∃ b, writeKeyframes w e = .ok b ∧
      ∀ r, readKeyframes p e' (b ++ r) = .ok ({ e' with keyframes := e.keyframes.map q }, r) := by
  have hmod : e.keyframes.length % 65536 = e.keyframes.length := Nat.mod_eq_of_lt hn
  obtain ⟨b, h1, h2⟩ := wList_ok h
  refine ⟨writeNBits EFFECT_KEYFRAME_COUNT (e.keyframes.length : Nat) ++ b, ?_, fun r => ?_⟩
  · unfold writeKeyframes
    rw [hmod, List.take_length, h1]
  · unfold readKeyframes
    simp only [List.append_assoc, Rd.bind_apply, frdU_writeNBits EFFECT_KEYFRAME_COUNT _ _ hn, h2 _ _ rfl,
      Rd.pure_apply, he, List.nil_append]

theorem readBasis_w (bandType : Nat) (hbt : bandType ≤ BandType.WaveletWave) (e : Effect)
    (he : e.effectType = EffectType.Basis) (h : e.FileFits bandType) :
    ∃ b, writeBasisEffect bandType e = .ok b ∧
      ∀ r, readBasisEffect bandType { effectType := e.effectType } (b ++ r)
        = .ok (e.stored bandType, r) := by
  have hnr : e.effectType ≠ EffectType.Reference := by rw [he]; decide
  have hnc : e.effectType ≠ EffectType.Composite := by rw [he]; decide
  have hbs : e.baseSignalOrDefault < 2 ^ 4 := by
    unfold Effect.baseSignalOrDefault
    cases hm : e.baseSignal with
    | none => simp
    | some m => exact h.baseSignal m hm
  unfold Effect.stored
  rw [if_neg hnr, if_neg hnc]
  obtain rfl | rfl | rfl | rfl : bandType = 0 ∨ bandType = 1 ∨ bandType = 2 ∨ bandType = 3 := by
    change bandType ≤ 3 at hbt; omega
  · rw [if_neg (by decide), if_neg (by decide), if_neg (by decide)]
    exact readKeyframes_w writeTransientKf readTransientKf _ e { effectType := e.effectType } h.keyframeCount rfl
      (fun k hk => readTransientKf_w k (h.keyframes k hk).toFits)
  · rw [if_neg (by decide), if_neg (by decide), if_neg (by decide)]
    exact readKeyframes_w writeCurveKf readCurveKf _ e { effectType := e.effectType } h.keyframeCount rfl
      (fun k hk => readCurveKf_w k (h.keyframes k hk).toFits)
  · rw [if_neg (by decide), if_pos rfl, if_pos rfl]
    obtain ⟨b, h1, h2⟩ := readKeyframes_w writeVectorialKf readVectorialKf _ e
      { effectType := e.effectType, phase := some (quantF 16 0 MAX_PHASE (e.phase.getD 0))
        baseSignal := some (e.baseSignal.getD 0) } h.keyframeCount rfl
      (fun k hk => readVectorialKf_w k (h.keyframes k hk))
    refine ⟨writeFloatNBits EFFECT_PHASE e.phaseOrDefault 0 MAX_PHASE
      ++ (writeNBits EFFECT_BASE_SIGNAL e.baseSignalOrDefault ++ b), ?_, fun r => ?_⟩
    · change writeVectorialEffect e = _
      unfold writeVectorialEffect
      rw [h1]
    · change readVectorialEffect _ _ = _
      unfold readVectorialEffect
      simp only [List.append_assoc, Rd.bind_apply, freadFloatNBits_write EFFECT_PHASE (by decide),
        frdU_writeNBits EFFECT_BASE_SIGNAL _ _ hbs]
      exact h2 r
  · rw [if_pos rfl]
    refine ⟨writeWaveletBytes e, rfl, fun r => ?_⟩
    have hw := h.wavelet
    have hmod : e.waveletBitstream.length % 65536 = e.waveletBitstream.length := Nat.mod_eq_of_lt hw
    change readWaveletBytesF _ _ = _
    unfold readWaveletBytesF writeWaveletBytes
    rw [hmod]
    have hstr := rdList_append (do let v ← frdU 8; pure (UInt8.ofNat v)) byteBits id e.waveletBitstream
      (by intro x _ r; simp [Rd.bind_apply, frdU_append _ _ _ (byteBits_length x), bitsVal_byteBits,
        Rd.pure_apply]) r _ rfl
    simp only [List.append_assoc, Rd.bind_apply, frdU_writeNBits EFFECT_WAVELET_SIZE _ _ hw]
    unfold strBits
    rw [hstr]
    simp [Rd.pure_apply]

/-- Where the reader puts the effect of index `i`: a basis effect of a wavelet band has no position in the
file. -/
def readerPosition (timescale : Nat) (hdr : Band) (i : Nat) (e : Effect) : Int :=
  if e.effectType = EffectType.Basis ∧ hdr.bandType = BandType.WaveletWave then
    ((i : Int) * hdr.blockLengthOrDefault * timescale).tdiv hdr.upperFrequencyLimit
  else e.position

theorem readBody_w (bandType : Nat) (hbt : bandType ≤ BandType.WaveletWave) (stack : Nat) (e : Effect)
    (h : e.FileFits bandType) :
    ∃ b, (if e.effectType = EffectType.Reference then .ok (writeNBits EFFECT_ID e.id)
          else if e.effectType = EffectType.Composite then writeTimelineEffect (stack + 1) e
          else writeBasisEffect bandType e) = .ok b ∧
      ∀ r, readBody bandType { effectType := e.effectType } (b ++ r) = .ok (e.stored bandType, r) := by
  rcases h.type with ht | ht | ⟨ht, htl⟩
  · have hnr : e.effectType ≠ EffectType.Reference := by rw [ht]; decide
    have hnc : e.effectType ≠ EffectType.Composite := by rw [ht]; decide
    obtain ⟨b, h1, h2⟩ := readBasis_w bandType hbt e ht h
    refine ⟨b, by rw [if_neg hnr, if_neg hnc, h1], fun r => ?_⟩
    unfold readBody
    rw [if_neg hnr, if_neg hnc]
    exact h2 r
  · refine ⟨writeNBits EFFECT_ID e.id, by rw [if_pos ht], fun r => ?_⟩
    unfold readBody Effect.stored
    rw [if_pos ht, if_pos ht]
    simp only [Rd.bind_apply, frdU_w (h.id ht), Rd.pure_apply, U.toNat (h.id ht)]
  · have hnr : e.effectType ≠ EffectType.Reference := by rw [ht]; decide
    refine ⟨writeNBits EFFECT_TIMELINE_COUNT (0 : Nat), ?_, fun r => ?_⟩
    · rw [if_neg hnr, if_pos ht]
      unfold writeTimelineEffect
      rw [htl]
      rfl
    · unfold readBody Effect.stored
      rw [if_neg hnr, if_neg hnr, if_pos ht, if_pos ht]
      unfold readTimeline readTimelineEffect
      simp only [Rd.bind_apply, frdU_writeNBits EFFECT_TIMELINE_COUNT 0 _ (by decide), timelineLoop,
        Rd.pure_apply]

theorem readEffects_w (timescale stack : Nat) (hdr : Band) (hbt : hdr.bandType ≤ BandType.WaveletWave)
    (hup : hdr.bandType = BandType.WaveletWave → hdr.upperFrequencyLimit ≠ 0) (l : List Effect) :
    (∀ e ∈ l, e.FileFits hdr.bandType) → ∃ b, writeEffects (stack + 1) hdr.bandType l = .ok b ∧
      ∀ i r, readEffects timescale hdr i (List.replicate l.length {}) (b ++ r) =
        .ok (l.mapIdx (fun j e => { e.stored hdr.bandType with
          position := readerPosition timescale hdr (i + j) e }), r) := by
  induction l with
  | nil => exact fun _ => ⟨[], rfl, fun _ _ => rfl⟩
  | cons e l ih =>
    intro h
    obtain ⟨bs, h1, h2⟩ := ih (fun x hx => h x (by simp [hx]))
    have he := h e (by simp)
    obtain ⟨b, h3, h4⟩ := readBody_w hdr.bandType hbt stack e he
    have htl : e.effectType < 2 ^ 2 := by
      rcases he.type with ht | ht | ⟨ht, -⟩ <;> rw [ht] <;> decide
    refine ⟨(writeNBits EFFECT_TYPE e.effectType
      ++ (if e.effectType ≠ EffectType.Basis ∨ hdr.bandType ≠ BandType.WaveletWave
          then writeNBits EFFECT_POSITION e.position else [])) ++ (b ++ bs), ?_, fun i r => ?_⟩
    · simp only [writeEffects, h1]
      by_cases hr : e.effectType = EffectType.Reference
      · rw [if_pos hr] at h3 ⊢; cases h3; rfl
      · rw [if_neg hr] at h3 ⊢
        by_cases hc : e.effectType = EffectType.Composite
        · rw [if_pos hc] at h3 ⊢; rw [h3]
        · rw [if_neg hc] at h3 ⊢; rw [if_pos hbt, h3]
    · have hpos : ∀ r, readPosition timescale hdr i e.effectType
          ((if e.effectType ≠ EffectType.Basis ∨ hdr.bandType ≠ BandType.WaveletWave
            then writeNBits EFFECT_POSITION e.position else []) ++ r)
          = .ok (readerPosition timescale hdr i e, r) := by
        intro r
        unfold readPosition readerPosition
        by_cases hw : e.effectType = EffectType.Basis ∧ hdr.bandType = BandType.WaveletWave
        · rw [if_pos hw, if_pos hw, if_neg (hup hw.2), if_neg (by tauto)]
          rfl
        · rw [if_neg hw, if_neg hw, if_pos (by tauto)]
          simp only [Rd.bind_apply, frdU_w he.position, Rd.pure_apply, U.toNat he.position]
      simp only [List.length_cons, List.replicate_succ, readEffects, List.append_assoc, Rd.bind_apply,
        frdU_writeNBits EFFECT_TYPE e.effectType _ htl, hpos]
      rw [h4]
      simp only [h2 (i + 1) r, Rd.pure_apply, List.mapIdx_cons, Nat.add_zero]
      congr 4
      funext j x
      rw [show i + 1 + j = i + (j + 1) by omega]

/-- **C07** The effects of a transient, curve or vectorial band that fit the format are written, and read
back into a band with the same header: the same effects (values quantised, what the format has no room for
left out), each where it was. -/
theorem c07_body (timescale stack : Nat) (b hdr : Band) (hbt : b.bandType < BandType.WaveletWave)
    (hb : hdr.bandType = b.bandType) (hn : hdr.effects = List.replicate b.effects.length {})
    (h : ∀ e ∈ b.effects, e.FileFits b.bandType) :
    ∃ bits, writeBandBody (stack + 1) b = .ok bits ∧
      ∀ rest, readBandBody timescale hdr (bits ++ rest)
        = .ok ({ hdr with effects := b.storedEffects }, rest) := by
  have hne : hdr.bandType ≠ BandType.WaveletWave := by rw [hb]; omega
  obtain ⟨bits, h1, h2⟩ := readEffects_w timescale stack hdr (by omega) (fun h => absurd h hne) b.effects
    (by rw [hb]; exact h)
  refine ⟨bits, by unfold writeBandBody; rw [← hb]; exact h1, fun rest => ?_⟩
  unfold readBandBody
  simp only [Rd.bind_apply, hn, h2 0 rest, Rd.pure_apply]
  congr 3
  unfold Band.storedEffects
  have : ∀ (j : Nat) (e : Effect), ({ e.stored hdr.bandType with
      position := readerPosition timescale hdr (0 + j) e } : Effect)
      = { e.stored b.bandType with position := e.position } := by
    intro j e
    rw [hb]
    unfold readerPosition
    rw [if_neg (fun h => hne h.2)]
  simp only [this]
  apply List.ext_getElem?
  intro i
  rw [List.getElem?_mapIdx, List.getElem?_map]

/-- Non-vacuity: effects of all kinds that fit a vectorial band. -/
example : ∀ e ∈ ([{ position := 5, phase := some 1, baseSignal := some 3, keyframes :=
      [{ relativePosition := some 0, amplitudeModulation := some (1 / 2) },
       { relativePosition := some 9, frequencyModulation := some 80 }] },
    { id := 3, position := 70, effectType := EffectType.Reference },
    { position := 90, effectType := EffectType.Composite }] : List Effect),
    e.FileFits BandType.VectorialWave := by
  intro e he
  simp only [List.mem_cons, List.not_mem_nil, or_false] at he
  rcases he with rfl | rfl | rfl
  · refine ⟨.inl rfl, by decide, by decide, by simp, by simp, ?_, by simp⟩
    intro k hk
    simp only [List.mem_cons, List.not_mem_nil, or_false] at hk
    rcases hk with rfl | rfl
    · exact ⟨⟨by simp [U], by simp⟩, by simp⟩
    · exact ⟨⟨by simp [U], by simp [U]⟩, by simp⟩
  · exact ⟨.inr (.inl rfl), by decide, by decide, by simp, by simp, by simp, by simp⟩
  · exact ⟨.inr (.inr ⟨rfl, rfl⟩), by decide, by decide, by simp, by simp, by simp, by simp⟩

/-- **C07 (partial)** The effects of a wavelet band are read back, each where it was, if they are where the
reader assumes them to be: the effect of index `i` at `i * blockLength * timescale / upperFrequencyLimit`.
Missing: other positions, among them those of the encoder, see `c07_wavelet_negation`. -/
theorem c07_wavelet_partial (timescale stack : Nat) (b hdr : Band)
    (hbt : b.bandType = BandType.WaveletWave) (hb : hdr.bandType = b.bandType)
    (hl : hdr.blockLength = b.blockLength) (hu : hdr.upperFrequencyLimit = b.upperFrequencyLimit)
    (hup : b.upperFrequencyLimit ≠ 0) (hn : hdr.effects = List.replicate b.effects.length {})
    (h : ∀ e ∈ b.effects, e.FileFits b.bandType)
    (hpos : ∀ (i : Nat) e, b.effects[i]? = some e → e.effectType = EffectType.Basis →
      e.position = ((i : Int) * b.blockLength.getD 0 * timescale).tdiv b.upperFrequencyLimit) :
    ∃ bits, writeBandBody (stack + 1) b = .ok bits ∧
      ∀ rest, readBandBody timescale hdr (bits ++ rest)
        = .ok ({ hdr with effects := b.storedEffects }, rest) := by
  obtain ⟨bits, h1, h2⟩ := readEffects_w timescale stack hdr (by rw [hb, hbt]) (fun _ => by rw [hu]; exact hup)
    b.effects (by rw [hb]; exact h)
  refine ⟨bits, by unfold writeBandBody; rw [← hb]; exact h1, fun rest => ?_⟩
  unfold readBandBody
  simp only [Rd.bind_apply, hn, h2 0 rest, Rd.pure_apply]
  congr 3
  unfold Band.storedEffects
  apply List.ext_getElem?
  intro i
  rw [List.getElem?_mapIdx, List.getElem?_map]
  cases hi : b.effects[i]? with
  | none => rfl
  | some e =>
    simp only [Option.map_some, Nat.zero_add]
    congr 1
    rw [hb]
    have : readerPosition timescale hdr i e = e.position := by
      unfold readerPosition
      by_cases hw : e.effectType = EffectType.Basis ∧ hdr.bandType = BandType.WaveletWave
      · rw [if_pos hw, hpos i e hi hw.1, hu]
        unfold Band.blockLengthOrDefault
        rw [hl]
      · rw [if_neg hw]
    rw [this]

/-- Non-vacuity: three blocks of 32 ticks; the upper frequency equals the timescale. -/
example : ∃ (b hdr : Band), b.bandType = BandType.WaveletWave ∧ hdr.bandType = b.bandType ∧
    hdr.blockLength = b.blockLength ∧ hdr.upperFrequencyLimit = b.upperFrequencyLimit ∧
    b.upperFrequencyLimit ≠ 0 ∧ hdr.effects = List.replicate b.effects.length {} ∧
    (∀ e ∈ b.effects, e.FileFits b.bandType) ∧
    (∀ (i : Nat) e, b.effects[i]? = some e → e.effectType = EffectType.Basis →
      e.position = ((i : Int) * b.blockLength.getD 0 * (1000 : Nat)).tdiv b.upperFrequencyLimit) ∧
    b.effects.length = 3 := by
  refine ⟨{ bandType := BandType.WaveletWave, blockLength := some 32, upperFrequencyLimit := 1000
            effects := [{ waveletBitstream := [1] }, { position := 32, waveletBitstream := [2, 3] },
              { position := 64 }] },
    { bandType := BandType.WaveletWave, blockLength := some 32, upperFrequencyLimit := 1000
      effects := List.replicate 3 {} }, rfl, rfl, rfl, rfl, by decide, rfl, ?_, ?_, rfl⟩
  · intro e he
    simp only [List.mem_cons, List.not_mem_nil, or_false] at he
    rcases he with rfl | rfl | rfl <;>
      exact ⟨.inl rfl, by decide, by decide, by simp, by simp, by simp, by simp⟩
  · intro i e hi _
    match i, hi with
    | 0, hi => simp at hi; subst hi; decide
    | 1, hi => simp at hi; subst hi; decide
    | 2, hi => simp at hi; subst hi; decide
    | (n + 3), hi => simp at hi

/-- **C07, violated for wavelet bands.**  The encoder puts the blocks of a wavelet band one after the
other: with a block length of 32 ticks, a timescale of 1000 and an upper frequency of 500, the second
effect is at 32.  Reading the band back puts it at 64. -/
theorem c07_wavelet_negation :
    let b : Band := { bandType := BandType.WaveletWave, blockLength := some 32, upperFrequencyLimit := 500
                      effects := [{ waveletBitstream := [1] }, { position := 32, waveletBitstream := [2] }] }
    ∃ bits, writeBandBody 1 b = .ok bits ∧
      ((readBandBody 1000 { b with effects := List.replicate 2 {} } bits).map
        (fun x => x.1.effects.map (·.position))) = .ok [0, 64] := by
  refine ⟨_, rfl, ?_⟩
  decide +kernel

/-! ## C09 – writing a band terminates -/

/-- The composite effects of a band can be written: their timelines are empty. -/
theorem writeTimelineEffect_stack (stack : Nat) (e : Effect) (h : e.timeline.length % 65536 = 0) :
    writeTimelineEffect (stack + 1) e = .ok (writeNBits EFFECT_TIMELINE_COUNT (0 : Nat)) := by
  unfold writeTimelineEffect
  rw [h, List.take_zero]
  rfl

theorem wList_error {α : Type} {w : α → Except Err Bits} {x : Err} {a : α} {l : List α}
    (h : w a = .error x) : wList w (a :: l) = .error x := by
  simp only [wList, h]

/-- **C09, violated.**  Writing a composite effect whose timeline is not empty does not come to an end,
however large the stack: `writeTimelineEffect` calls itself with the effect it was called with. -/
theorem c09_negation (stack : Nat) (e : Effect) (h : e.timeline.length % 65536 ≠ 0) :
    writeTimelineEffect stack e = .error .diverge := by
  induction stack with
  | zero => rfl
  | succ n ih =>
    unfold writeTimelineEffect
    obtain ⟨t, l, ht⟩ : ∃ t l, e.timeline.take (e.timeline.length % 65536) = t :: l := by
      cases hl : e.timeline.take (e.timeline.length % 65536) with
      | nil =>
        rw [List.take_eq_nil_iff] at hl
        rcases hl with hl | hl
        · exact absurd hl h
        · rw [hl] at h; simp at h
      | cons t l => exact ⟨t, l, rfl⟩
    rw [ht, wList_error (x := .diverge) (by rw [ih])]

example : ({ effectType := EffectType.Composite, timeline := [{}] } : Effect).timeline.length % 65536 ≠ 0 := by
  decide

theorem wList_not_diverge {α : Type} {w : α → Except Err Bits} (l : List α)
    (h : ∀ x ∈ l, w x ≠ .error .diverge) : wList w l ≠ .error .diverge := by
  induction l with
  | nil => simp [wList]
  | cons a l ih =>
    have h1 := h a (by simp)
    have h2 := ih (fun x hx => h x (by simp [hx]))
    unfold wList
    cases hw : w a with
    | error e => rw [hw] at h1; simpa using h1
    | ok b =>
      cases hl : wList w l with
      | error e => rw [hl] at h2; simpa using h2
      | ok r => simp

theorem writeBasisEffect_not_diverge (bandType : Nat) (e : Effect) :
    writeBasisEffect bandType e ≠ .error .diverge := by
  have key : ∀ w : Keyframe → Except Err Bits, (∀ k, w k ≠ .error .diverge) →
      writeKeyframes w e ≠ .error .diverge := by
    intro w hw
    unfold writeKeyframes
    have := wList_not_diverge (e.keyframes.take (e.keyframes.length % 65536)) (fun k _ => hw k)
    split
    · rename_i x hx; rw [hx] at this; simpa using this
    · simp
  unfold writeBasisEffect
  split
  · exact key _ (fun k => by simp [writeTransientKf])
  · split
    · exact key _ (fun k => by simp [writeCurveKf])
    · split
      · have := key writeVectorialKf (fun k => by unfold writeVectorialKf; split <;> simp)
        unfold writeVectorialEffect
        split
        · rename_i x hx; rw [hx] at this; simpa using this
        · simp
      · simp

/-- **C09 (partial)** Writing the effects of a band terminates if no composite effect has a timeline.
Missing: composite effects with a timeline, see `c09_negation`. -/
theorem c09_terminates_partial (b : Band)
    (h : ∀ e ∈ b.effects, e.effectType = EffectType.Composite → e.timeline = []) :
    writeBandBody 1 b ≠ .error .diverge := by
  unfold writeBandBody
  generalize b.bandType = bt
  generalize b.effects = l at h
  induction l with
  | nil => simp [writeEffects]
  | cons e l ih =>
    have ih := ih (fun x hx => h x (by simp [hx]))
    have hnext : ∀ (head : Bits) (body : Except Err Bits), body ≠ .error .diverge →
        (match body with
          | .error x => Except.error x
          | .ok b => match writeEffects 1 bt l with
            | .error x => Except.error x
            | .ok r => Except.ok (head ++ (b ++ r))) ≠ .error .diverge := by
      intro head body hb
      cases body with
      | error x => simpa using hb
      | ok b =>
        cases hr : writeEffects 1 bt l with
        | error x => rw [hr] at ih; simpa using ih
        | ok r => simp
    unfold writeEffects
    dsimp only
    split
    · exact hnext _ (.ok _) (by simp)
    · split
      · rename_i hc
        refine hnext _ _ ?_
        rw [writeTimelineEffect_stack 0 e (by rw [h e (by simp) hc]; rfl)]
        simp
      · split
        · exact hnext _ _ (writeBasisEffect_not_diverge bt e)
        · simp

example : ∀ e ∈ ([{ position := 5, keyframes := [{}] }, { effectType := EffectType.Composite }] : List Effect),
    e.effectType = EffectType.Composite → e.timeline = [] := by simp

end Haptics.Binary
