import Verif.Binary.SpecTimeline
import Verif.Binary.PropsBands

/-
The reader of composite effects.  The writer never ends on them (`c09_negation`), so the bits here are those
of the format: for each part its type and position, then what the writer writes for a part of that type
outside of a timeline, and for composite parts again a timeline.
-/
namespace Haptics.Binary

/-- The bits of a composite effect. -/
def timelineBits (bandType : Nat) : Nat → Effect → Except Err Bits
  | 0, _ => .error .diverge
  | depth + 1, e =>
    match wList (fun t =>
        match (if t.effectType = EffectType.Reference then .ok (writeNBits EFFECT_ID t.id)
          else if t.effectType = EffectType.Composite then timelineBits bandType depth t
          else writeBasisEffect bandType t) with
        | .error x => .error x
        | .ok b => .ok (writeNBits EFFECT_TYPE t.effectType ++ (writeNBits EFFECT_POSITION t.position ++ b)))
      e.timeline with
    | .error x => .error x
    | .ok b => .ok (writeNBits EFFECT_TIMELINE_COUNT e.timeline.length ++ b)

/-- Reading a basis effect leaves its position alone. -/
theorem readBasis_position (bandType : Nat) (e : Effect) (p : Int) (s r : Bits) (e' : Effect)
    (h : readBasisEffect bandType e s = .ok (e', r)) :
    readBasisEffect bandType { e with position := p } s = .ok ({ e' with position := p }, r) := by
  have key : ∀ (kf : Rd Keyframe) (e e' : Effect) (s : Bits), readKeyframes kf e s = .ok (e', r) →
      readKeyframes kf { e with position := p } s = .ok ({ e' with position := p }, r) := by
    intro kf e e' s h
    unfold readKeyframes at h ⊢
    simp only [Rd.bind_apply] at h ⊢
    split at h
    · split at h
      · cases h; rfl
      · cases h
    · cases h
  unfold readBasisEffect at h ⊢
  split at h
  · rename_i hb; rw [if_pos hb]; exact key _ _ _ _ h
  · rename_i hb; rw [if_neg hb]
    split at h
    · rename_i hb; rw [if_pos hb]; exact key _ _ _ _ h
    · rename_i hb; rw [if_neg hb]
      split at h
      · rename_i hb; rw [if_pos hb]
        unfold readVectorialEffect at h ⊢
        simp only [Rd.bind_apply] at h ⊢
        split at h
        · split at h
          · exact key _ _ _ _ h
          · cases h
        · cases h
      · rename_i hb; rw [if_neg hb]
        split at h
        · rename_i hb; rw [if_pos hb]
          unfold readWaveletBytesF at h ⊢
          simp only [Rd.bind_apply] at h ⊢
          split at h
          · split at h
            · cases h; rfl
            · cases h
          · cases h
        · cases h

/-- C09, reading: the parts of a composite effect are read back, all of them, in order, nested as they
were, for every depth of nesting. -/
theorem c09_reader (bandType : Nat) (hbt : bandType ≤ BandType.WaveletWave) (depth : Nat) (e : Effect)
    (h : e.TimelineFits bandType depth) :
    ∃ b, timelineBits bandType depth e = .ok b ∧ ∀ fuel r, depth ≤ fuel →
      readTimelineEffect bandType fuel { effectType := e.effectType, position := e.position } (b ++ r)
        = .ok (e.storedTimeline bandType depth, r) := by
  induction depth generalizing e with
  | zero => exact absurd h id
  | succ depth ih =>
    obtain ⟨hn, hparts⟩ := h
    have main : ∀ l : List Effect, (∀ t ∈ l, U 25 t.position ∧
        ((t.effectType = EffectType.Composite ∧ t.TimelineFits bandType depth) ∨
          (t.effectType ≠ EffectType.Composite ∧ t.FileFits bandType))) →
        ∃ b, wList (fun t =>
          match (if t.effectType = EffectType.Reference then .ok (writeNBits EFFECT_ID t.id)
            else if t.effectType = EffectType.Composite then timelineBits bandType depth t
            else writeBasisEffect bandType t) with
          | .error x => .error x
          | .ok b => .ok (writeNBits EFFECT_TYPE t.effectType ++ (writeNBits EFFECT_POSITION t.position ++ b)))
          l = .ok b ∧ ∀ fuel r e0, depth ≤ fuel →
          timelineLoop bandType (readTimelineEffect bandType fuel) l.length e0 (b ++ r)
            = .ok ({ e0 with timeline := e0.timeline ++ l.map (fun t =>
                if t.effectType = EffectType.Composite then t.storedTimeline bandType depth
                else { t.stored bandType with position := t.position }) }, r) := by
      intro l
      induction l with
      | nil =>
        intro _
        refine ⟨[], rfl, fun fuel r e0 _ => ?_⟩
        cases e0
        simp [timelineLoop, Rd.pure_apply]
      | cons t l ihl =>
        intro hl
        obtain ⟨bs, h1, h2⟩ := ihl (fun x hx => hl x (by simp [hx]))
        obtain ⟨hpos, hkind⟩ := hl t (by simp)
        rcases hkind with ⟨ht, hfit⟩ | ⟨ht, hfit⟩
        · have hnr : t.effectType ≠ EffectType.Reference := by rw [ht]; decide
          obtain ⟨b, h3, h4⟩ := ih t hfit
          refine ⟨(writeNBits EFFECT_TYPE t.effectType ++ (writeNBits EFFECT_POSITION t.position ++ b)) ++ bs,
            ?_, fun fuel r e0 hf => ?_⟩
          · simp only [wList, if_neg hnr, if_pos ht, h3, h1]
          · have h4' := h4 fuel (bs ++ r) hf
            have htl : t.effectType < 2 ^ EFFECT_TYPE := by rw [ht]; decide
            simp only [List.length_cons, timelineLoop, List.append_assoc, Rd.bind_apply,
              frdU_writeNBits EFFECT_TYPE _ _ htl, frdU_w hpos, if_neg hnr, if_pos ht, U.toNat hpos, h4',
              h2 fuel r _ hf]
            simp [ht]
        · rcases hfit.type with hb | hr | ⟨hc, -⟩
          · have hnr : t.effectType ≠ EffectType.Reference := by rw [hb]; decide
            obtain ⟨b, h3, h4⟩ := readBasis_w bandType hbt t hb hfit
            refine ⟨(writeNBits EFFECT_TYPE t.effectType ++ (writeNBits EFFECT_POSITION t.position ++ b)) ++ bs,
              ?_, fun fuel r e0 hf => ?_⟩
            · simp only [wList, if_neg hnr, if_neg ht, h3, h1]
            · have h4' := readBasis_position bandType _ t.position _ _ _ (h4 (bs ++ r))
              have htl : t.effectType < 2 ^ EFFECT_TYPE := by rw [hb]; decide
              simp only [List.length_cons, timelineLoop, List.append_assoc, Rd.bind_apply,
                frdU_writeNBits EFFECT_TYPE _ _ htl, frdU_w hpos, if_neg hnr, if_neg ht, if_pos hbt,
                U.toNat hpos, h4', h2 fuel r _ hf]
              simp [ht]
          · refine ⟨(writeNBits EFFECT_TYPE t.effectType ++ (writeNBits EFFECT_POSITION t.position
                ++ writeNBits EFFECT_ID t.id)) ++ bs, ?_, fun fuel r e0 hf => ?_⟩
            · simp only [wList, if_pos hr, h1]
            · have htl : t.effectType < 2 ^ EFFECT_TYPE := by rw [hr]; decide
              simp only [List.length_cons, timelineLoop, List.append_assoc, Rd.bind_apply,
                frdU_writeNBits EFFECT_TYPE _ _ htl, frdU_w hpos, if_pos hr, U.toNat hpos,
                frdU_w (hfit.id hr), U.toNat (hfit.id hr), h2 fuel r _ hf]
              simp [hr, ht, Effect.stored]
          · exact absurd hc ht
    obtain ⟨b, h1, h2⟩ := main e.timeline hparts
    refine ⟨writeNBits EFFECT_TIMELINE_COUNT e.timeline.length ++ b, by simp only [timelineBits, h1], ?_⟩
    intro fuel r hf
    obtain ⟨fuel, rfl⟩ : ∃ f, fuel = f + 1 := ⟨fuel - 1, by omega⟩
    unfold readTimelineEffect
    simp only [List.append_assoc, Rd.bind_apply,
      frdU_writeNBits EFFECT_TIMELINE_COUNT e.timeline.length (b ++ r) hn, h2 fuel r _ (by omega)]
    simp [Effect.storedTimeline]

/-- A composite of a reference and of a composite of a transient and a reference. -/
def medley : Effect :=
  { effectType := EffectType.Composite, position := 100, timeline :=
    [{ effectType := EffectType.Reference, id := 3, position := 5 },
     { effectType := EffectType.Composite, position := 20, timeline :=
       [{ position := 1, keyframes := [⟨some 0, some 1, some 100⟩] },
        { effectType := EffectType.Reference, id := 4, position := 7 }] }] }

example : medley.TimelineFits BandType.Transient 2 := by
  refine ⟨by decide, ?_⟩
  have hk : (⟨some 0, some 1, some 100⟩ : Keyframe).FileFits BandType.Transient :=
    { position := by simp [U], frequency := by simp [U], vectorial := by decide }
  have hr : ∀ (i p : Int), U 16 i → U 25 p →
      ({ effectType := EffectType.Reference, id := i, position := p } : Effect).FileFits BandType.Transient :=
    fun i p hi hp => ⟨.inr (.inl rfl), fun _ => hi, hp, by simp, by simp, by simp, by simp⟩
  simp only [medley, List.mem_cons, List.not_mem_nil, or_false, forall_eq_or_imp, forall_eq]
  refine ⟨⟨by decide, .inr ⟨by decide, hr _ _ (by decide) (by decide)⟩⟩, by decide, .inl ⟨trivial, by decide, ?_⟩⟩
  simp only [List.mem_cons, List.not_mem_nil, or_false, forall_eq_or_imp, forall_eq]
  refine ⟨⟨by decide, .inr ⟨by decide, ?_⟩⟩, by decide, .inr ⟨by decide, hr _ _ (by decide) (by decide)⟩⟩
  exact ⟨.inl rfl, by decide, by decide, by simp, by decide, by simpa using hk, by decide⟩

end Haptics.Binary
