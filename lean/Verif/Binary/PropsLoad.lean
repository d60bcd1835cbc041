import Verif.Binary.PropsFile

/-
C09 (library), C62: writing and loading files come to an end.
-/
namespace Haptics.Binary

/-! ## C09 – the effect library -/

/-- **C09, violated.**  Writing a library effect whose timeline is not empty does not come to an end,
however large the stack. -/
theorem c09_library_negation (stack : Nat) (e : Effect) (h : e.timeline.length % 65536 ≠ 0) :
    writeLibraryEffect stack e = .error .diverge := by
  induction stack with
  | zero => rfl
  | succ n ih =>
    unfold writeLibraryEffect
    obtain ⟨t, l, ht⟩ : ∃ t l, e.timeline.take (e.timeline.length % 65536) = t :: l := by
      cases hl : e.timeline.take (e.timeline.length % 65536) with
      | nil =>
        rw [List.take_eq_nil_iff] at hl
        rcases hl with hl | hl
        · exact absurd hl h
        · rw [hl] at h; simp at h
      | cons t l => exact ⟨t, l, rfl⟩
    rw [ht, wList_error (x := .diverge) (w := fun _ => writeLibraryEffect n e) ih]

example : ({ effectType := EffectType.Composite, timeline := [{}] } : Effect).timeline.length % 65536 ≠ 0 := by
  decide

/-- **C09, violated for a whole file**: an experience whose first perception has a library that begins with
an effect with a timeline cannot be written. -/
theorem c09_file_negation (stack : Nat) (h : Experience) (p : Perception) (ps : List Perception)
    (e : Effect) (l : List Effect) (hp : h.perceptions = p :: ps) (hl : p.effectLibrary = e :: l)
    (hps : ps.length < 65535) (hll : l.length < 65535) (ht : e.timeline.length % 65536 ≠ 0) :
    writeFile stack h = .error .diverge := by
  have h1 : writeLibrary stack p.effectLibrary = .error .diverge := by
    unfold writeLibrary
    rw [hl, Nat.mod_eq_of_lt (by simp only [List.length_cons]; omega), List.take_length,
      wList_error (x := .diverge) (c09_library_negation stack e ht)]
  have h2 : writePerceptions stack h.perceptions = .error .diverge := by
    unfold writePerceptions
    rw [hp, Nat.mod_eq_of_lt (by simp only [List.length_cons]; omega), List.take_length,
      wList_error (x := .diverge)]
    rw [writePerception, h1]
  rw [writeFile, writeFileHeader, h2]

example : ∀ stack, writeFile stack { perceptions := [{ effectLibrary :=
    [{ effectType := EffectType.Composite, timeline := [{}] }] }] } = .error .diverge :=
  fun stack => c09_file_negation stack _ _ _ _ _ rfl rfl (by decide) (by decide) (by decide)

/-- The goal is a `match` on a writer's result, of which `$h` says that it is not divergence. -/
macro "after " h:term : tactic => `(tactic| (split; (rename_i x hx; intro he; cases he; exact $h hx)))

/-- **C09 (partial)** Writing a file comes to an end if neither library effects nor composite effects have a
timeline.  Missing: effects with a timeline, see `c09_negation` and `c09_file_negation`. -/
theorem c09_file_terminates_partial (h : Experience)
    (hl : ∀ p ∈ h.perceptions, ∀ e ∈ p.effectLibrary, e.timeline = [])
    (hc : ∀ p ∈ h.perceptions, ∀ c ∈ p.channels, ∀ b ∈ c.bands, ∀ e ∈ b.effects,
      e.effectType = EffectType.Composite → e.timeline = []) :
    writeFile 1 h ≠ .error .diverge := by
  have lib : ∀ p ∈ h.perceptions, writeLibrary 1 p.effectLibrary ≠ .error .diverge := by
    intro p hp
    unfold writeLibrary
    after wList_not_diverge _ (fun e he => by
      unfold writeLibraryEffect
      rw [hl p hp e (List.mem_of_mem_take he)]
      simp [wList])
    simp
  have perc : writePerceptions 1 h.perceptions ≠ .error .diverge := by
    unfold writePerceptions
    after wList_not_diverge _ (fun p hp => by
      unfold writePerception
      after lib p (List.mem_of_mem_take hp)
      simp)
    simp
  have hdr : writeFileHeader 1 h ≠ .error .diverge := by
    unfold writeFileHeader
    after perc
    simp
  have block : ∀ (ts : Nat) (b : Band), blockLengthCode ts b ≠ .error .diverge := by
    intro ts b
    unfold blockLengthCode
    split
    · simp
    · split
      · simp
      · dsimp only
        split <;> simp
  have param : ∀ (ts : Nat) (b : Band), writeBandParam ts b ≠ .error .diverge := by
    intro ts b
    unfold writeBandParam
    split
    · simp
    · split
      · after block ts b
        simp
      · simp
  have bhdr : ∀ (ts : Nat) (b : Band), writeBandHeader ts b ≠ .error .diverge := by
    intro ts b
    unfold writeBandHeader
    after param ts b
    simp
  have body : writeFileBody 1 h ≠ .error .diverge := by
    unfold writeFileBody
    refine wList_not_diverge _ (fun p hp => ?_)
    have hp := List.mem_of_mem_take hp
    unfold writePerceptionBody
    refine wList_not_diverge _ (fun c hc' => ?_)
    have hc' := List.mem_of_mem_take hc'
    unfold writeChannelBody
    refine wList_not_diverge _ (fun b hb => ?_)
    have hb := List.mem_of_mem_take hb
    unfold writeBand
    after bhdr _ b
    after c09_terminates_partial b (hc p hp c hc' b hb)
    simp
  unfold writeFile
  after hdr
  after body
  simp

/-! ## C62 – loading any file comes to an end -/

/-- The reader comes to an end on inputs of up to `N` bits, and does not go back in its input. -/
def Ends {α : Type} (N : Nat) (p : Rd α) : Prop :=
  ∀ s, s.length ≤ N → p s ≠ .error .diverge ∧ ∀ x s', p s = .ok (x, s') → s'.length ≤ s.length

theorem ends_pure {α : Type} {N : Nat} (a : α) : Ends N (pure a : Rd α) := by
  intro s _
  rw [Rd.pure_apply]
  exact ⟨by simp, fun x s' h => by cases h; exact le_refl _⟩

theorem ends_error {α : Type} {N : Nat} {e : Err} (h : e ≠ .diverge) : Ends N (Rd.error e : Rd α) := by
  intro s _
  exact ⟨fun h' => by cases h'; exact h rfl, fun x s' h' => by cases h'⟩

theorem ends_bind {α β : Type} {N : Nat} {p : Rd α} {f : α → Rd β} (hp : Ends N p) (hf : ∀ a, Ends N (f a)) :
    Ends N (p >>= f) := by
  intro s hs
  obtain ⟨h1, h2⟩ := hp s hs
  rw [Rd.bind_apply]
  cases hps : p s with
  | error e =>
    rw [hps] at h1
    exact ⟨by simpa using h1, fun x s' h => by cases h⟩
  | ok a =>
    obtain ⟨a, t⟩ := a
    have ht := h2 a t hps
    obtain ⟨h3, h4⟩ := hf a t (le_trans ht hs)
    exact ⟨h3, fun x s' h => le_trans (h4 x s' h) ht⟩

theorem ends_frdU {N : Nat} (n : Nat) : Ends N (frdU n) := by
  intro s _
  refine ⟨by simp [frdU], fun x s' h => ?_⟩
  unfold frdU at h
  cases h
  simp

theorem ends_lift {α : Type} {N : Nat} {x : Except Err α} (h : x ≠ .error .diverge) : Ends N (lift x) := by
  intro s _
  unfold lift
  cases x with
  | error e => exact ⟨by simpa [Except.map] using h, fun x s' h' => by cases h'⟩
  | ok a => exact ⟨by simp [Except.map], fun x s' h' => by cases h'; exact le_refl _⟩

theorem ends_rdList {α : Type} {N : Nat} {p : Rd α} (h : Ends N p) (n : Nat) : Ends N (rdList p n) := by
  induction n with
  | zero => exact ends_pure _
  | succ n ih => exact ends_bind h (fun _ => ends_bind ih (fun _ => ends_pure _))

theorem ends_rdEach {α : Type} {N : Nat} {p : α → Rd α} (h : ∀ a, Ends N (p a)) (l : List α) :
    Ends N (rdEach p l) := by
  induction l with
  | nil => exact ends_pure _
  | cons a l ih => exact ends_bind (h a) (fun _ => ends_bind ih (fun _ => ends_pure _))

theorem ends_ite {α : Type} {N : Nat} {c : Prop} [Decidable c] {p q : Rd α} (hp : Ends N p) (hq : Ends N q) :
    Ends N (if c then p else q) := by
  split
  · exact hp
  · exact hq

/-- Repeatedly apply the closure properties of `Ends`. -/
macro "ends" : tactic => `(tactic| repeat (first
  | exact ends_pure _ | exact ends_frdU _ | assumption | exact ends_error (by decide)
  | apply ends_rdList | apply ends_ite | (apply ends_bind <;> intros)))

theorem ends_frdI8 {N : Nat} : Ends N frdI8 := by unfold frdI8; ends
theorem ends_float {N : Nat} (n : Nat) (mn mx : ℚ) : Ends N (freadFloatNBits n mn mx) := by
  unfold freadFloatNBits; ends
theorem ends_string {N : Nat} : Ends N readStringF := by unfold readStringF; ends
theorem ends_vector {N : Nat} : Ends N readVectorF := by
  have := @ends_frdI8 N
  unfold readVectorF; ends
theorem ends_optF {N : Nat} (n : Nat) (mn mx : ℚ) (b : Bool) : Ends N (frOptF n mn mx b) := by
  have := @ends_float N n mn mx
  unfold frOptF; ends
theorem ends_optI {N : Nat} (n : Nat) (b : Bool) : Ends N (frOptI n b) := by unfold frOptI; ends
theorem ends_optN {N : Nat} (n : Nat) (b : Bool) : Ends N (frOptN n b) := by unfold frOptN; ends
theorem ends_avatar {N : Nat} : Ends N readAvatar := by
  have := @ends_string N
  unfold readAvatar; ends

theorem ends_libKeyframe {N : Nat} : Ends N readLibKeyframe := by
  unfold readLibKeyframe
  repeat (first | exact ends_pure _ | exact ends_frdU _ | exact ends_optF _ _ _ _ | exact ends_optI _ _
                | (apply ends_bind <;> intros))

theorem ends_libBasis {N : Nat} (t : Nat) : Ends N (readLibBasis t) := by
  have := @ends_float N EFFECT_PHASE 0 MAX_PHASE
  unfold readLibBasis; ends

/-- Reading a number of `n > 0` bits from what is left of the file either consumes something, or the file is
at its end and the number is 0. -/
theorem frdU_progress (n : Nat) (hn : 0 < n) (s : Bits) :
    ∃ v s', frdU n s = .ok (v, s') ∧ (s'.length < s.length ∨ (s = [] ∧ v = 0 ∧ s' = [])) := by
  refine ⟨_, _, rfl, ?_⟩
  cases s with
  | nil =>
    right
    refine ⟨rfl, ?_, List.drop_nil⟩
    rw [List.take_nil, List.nil_append, bitsVal_replicate_false]
  | cons b s =>
    left
    simp only [List.length_drop, List.length_cons]
    omega

theorem ends_libraryEffect (fuel : Nat) : ∀ N, N < fuel → Ends N (readLibraryEffect fuel) := by
  induction fuel with
  | zero => intro N h; omega
  | succ fuel ih =>
    intro N hN s hs
    unfold readLibraryEffect
    rw [Rd.bind_apply]
    obtain ⟨id, t, h1, h2⟩ := frdU_progress EFFECT_ID (by decide) s
    rw [h1]
    dsimp only
    rcases h2 with h2 | ⟨rfl, rfl, rfl⟩
    · have e : Ends (N - 1) (readLibraryEffect fuel) := ih (N - 1) (by omega)
      have lb := @ends_libBasis (N - 1)
      have lk := @ends_libKeyframe (N - 1)
      have key : Ends (N - 1) (do
          let position ← frdU EFFECT_POSITION
          let effectType ← frdU EFFECT_TYPE
          let pb ← readLibBasis effectType
          let kfCount ← frdU EFFECT_KEYFRAME_COUNT
          let keyframes ← rdList readLibKeyframe kfCount
          let timelineCount ← frdU EFFECT_TIMELINE_COUNT
          let timeline ← rdList (readLibraryEffect fuel) timelineCount
          pure ({ id := id, position := position, effectType := effectType, phase := pb.1,
                  baseSignal := pb.2, keyframes := keyframes, timeline := timeline } : Effect) : Rd Effect) := by
        exact ends_bind (ends_frdU _) (fun _ => ends_bind (ends_frdU _) (fun _ => ends_bind (lb _)
          (fun _ => ends_bind (ends_frdU _) (fun _ => ends_bind (ends_rdList lk _) (fun _ =>
            ends_bind (ends_frdU _) (fun _ => ends_bind (ends_rdList e _) (fun _ => ends_pure _)))))))
      obtain ⟨g1, g2⟩ := key t (by omega)
      exact ⟨g1, fun x s' hx => by have := g2 x s' hx; omega⟩
    · have z : ∀ n, frdU n [] = .ok (0, []) := by
        intro n
        simp [frdU]
      simp only [Rd.bind_apply, z, readLibBasis, if_true, freadFloatNBits, Rd.pure_apply, rdList]
      exact ⟨by simp, fun x s' h => by cases h; simp⟩

theorem ends_libEffect {N : Nat} : Ends N readLibEffect := by
  intro s _
  exact ends_libraryEffect (s.length + 1) s.length (by omega) s (le_refl _)

theorem ends_transient {N : Nat} : Ends N readTransientKf := by
  have := @ends_float N KEYFRAME_AMPLITUDE (-MAX_AMPLITUDE) MAX_AMPLITUDE
  unfold readTransientKf; ends
theorem ends_curve {N : Nat} : Ends N readCurveKf := by
  have := @ends_float N KEYFRAME_AMPLITUDE (-MAX_AMPLITUDE) MAX_AMPLITUDE
  unfold readCurveKf; ends
theorem ends_vectorial {N : Nat} : Ends N readVectorialKf := by
  unfold readVectorialKf
  repeat (first | exact ends_pure _ | exact ends_frdU _ | exact ends_optF _ _ _ _ | exact ends_optI _ _
                | (apply ends_bind <;> intros))
theorem ends_basisEffect {N : Nat} (bandType : Nat) (e : Effect) : Ends N (readBasisEffect bandType e) := by
  have h1 := @ends_transient N
  have h2 := @ends_curve N
  have h3 := @ends_vectorial N
  have h4 := @ends_float N EFFECT_PHASE 0 MAX_PHASE
  unfold readBasisEffect readVectorialEffect readWaveletBytesF readKeyframes
  ends

theorem ends_timelineLoop {N : Nat} (bandType : Nat) {nested : Effect → Rd Effect}
    (h : ∀ e, Ends N (nested e)) (n : Nat) (e : Effect) : Ends N (timelineLoop bandType nested n e) := by
  induction n generalizing e with
  | zero => exact ends_pure _
  | succ n ih =>
    unfold timelineLoop
    refine ends_bind (ends_frdU _) (fun _ => ends_bind (ends_frdU _) (fun _ => ends_ite ?_ (ends_ite ?_
      (ends_ite ?_ (ends_pure _)))))
    · exact ends_bind (ends_frdU _) (fun _ => ih _)
    · exact ends_bind (h _) (fun _ => ih _)
    · exact ends_bind (ends_basisEffect _ _) (fun _ => ih _)

theorem ends_timelineEffect (bandType fuel : Nat) :
    ∀ N, N < fuel → ∀ e, Ends N (readTimelineEffect bandType fuel e) := by
  induction fuel with
  | zero => intro N h; omega
  | succ fuel ih =>
    intro N hN e s hs
    unfold readTimelineEffect
    rw [Rd.bind_apply]
    obtain ⟨n, t, h1, h2⟩ := frdU_progress EFFECT_TIMELINE_COUNT (by decide) s
    rw [h1]
    dsimp only
    rcases h2 with h2 | ⟨rfl, rfl, rfl⟩
    · obtain ⟨g1, g2⟩ := ends_timelineLoop bandType (ih (N - 1) (by omega)) n e t (by omega)
      exact ⟨g1, fun x s' hx => by have := g2 x s' hx; omega⟩
    · exact ends_pure e [] (Nat.zero_le N)

theorem ends_timeline {N : Nat} (bandType : Nat) (e : Effect) : Ends N (readTimeline bandType e) := by
  intro s _
  exact ends_timelineEffect bandType (s.length + 1) s.length (by omega) e s (le_refl _)

theorem ends_effects {N : Nat} (timescale : Nat) (b : Band) (i : Nat) (l : List Effect) :
    Ends N (readEffects timescale b i l) := by
  induction l generalizing i with
  | nil => exact ends_pure _
  | cons e l ih =>
    unfold readEffects
    refine ends_bind (ends_frdU _) (fun _ => ends_bind ?_ (fun _ => ends_bind ?_ (fun _ =>
      ends_bind (ih _) (fun _ => ends_pure _))))
    · unfold readPosition; ends
    · unfold readBody
      exact ends_ite (ends_bind (ends_frdU _) (fun _ => ends_pure _)) (ends_ite (ends_timeline _ _)
        (ends_basisEffect _ _))

theorem ends_bandHeader {N : Nat} (timescale : Nat) : Ends N (readBandHeader timescale) := by
  unfold readBandHeader
  refine ends_bind (ends_frdU _) (fun t => ends_bind ?_ (fun p => ends_bind (ends_frdU _) (fun _ =>
    ends_bind (ends_frdU _) (fun u => ends_bind (ends_ite (ends_lift ?_) (ends_pure _)) (fun _ =>
      ends_bind (ends_frdU _) (fun _ => ends_pure _))))))
  · unfold readBandParam; ends
  · unfold blockLengthTicks
    split
    · simp
    · split <;> simp

theorem ends_band {N : Nat} (timescale : Nat) (b : Band) : Ends N (readBand timescale b) := by
  unfold readBand readBandBody
  exact ends_bind (ends_bandHeader _) (fun _ => ends_bind (ends_effects _ _ _ _) (fun _ => ends_pure _))

theorem ends_perceptionBody {N : Nat} (timescale : Nat) (p : Perception) :
    Ends N (readPerceptionBody timescale p) := by
  unfold readPerceptionBody readChannelBody
  exact ends_bind (ends_rdEach (fun _ => ends_bind (ends_rdEach (ends_band timescale) _) (fun _ =>
    ends_pure _)) _) (fun _ => ends_pure _)

theorem readFileBody_ends (timescale : Nat) (l : List Perception) (s : Bits) :
    readFileBody timescale l s ≠ .error .diverge := by
  induction l generalizing s with
  | nil => simp [readFileBody]
  | cons p l ih =>
    have hp := (ends_perceptionBody timescale p s (le_refl _)).1
    unfold readFileBody
    split
    · simp
    · rename_i x hx
      intro he
      cases he
      exact hp hx
    · rename_i q t _
      after ih t
      simp

theorem ends_device {N : Nat} : Ends N readReferenceDevice := by
  have := @ends_string N
  unfold readReferenceDevice
  repeat (first | exact ends_pure _ | exact ends_frdU _ | exact ends_optF _ _ _ _ | exact ends_optN _ _
                | assumption | (apply ends_bind <;> intros))

theorem ends_channel {N : Nat} : Ends N readChannel := by
  have h1 := @ends_string N
  have h2 := @ends_vector N
  have h3 := @ends_float N MDCHANNEL_GAIN (-MAX_FLOAT) MAX_FLOAT
  have h4 := @ends_float N MDCHANNEL_MIXING_WEIGHT 0 MAX_FLOAT
  unfold readChannel readBodyParts readSampling readDirection
  ends

theorem ends_perception {N : Nat} : Ends N readPerception := by
  have h1 := @ends_string N
  have h2 := @ends_frdI8 N
  have h3 := @ends_libEffect N
  have h4 := @ends_device N
  have h5 := @ends_channel N
  unfold readPerception readLibrary readReferenceDevices readChannels
  ends

theorem ends_fileHeader {N : Nat} (out : Experience) : Ends N (readFileHeader out) := by
  have h1 := @ends_string N
  have h2 := @ends_avatar N
  have h3 := @ends_perception N
  unfold readFileHeader readAvatars readPerceptions
  ends

/-- **C62** Loading a file comes to an end, whatever the bytes of the file: the recursion for nested
timelines is never deeper than the file is long, because past its end every count reads as 0. -/
theorem c62_load_ends (out : Experience) (bytes : List UInt8) :
    loadFile out bytes ≠ .error .diverge := by
  unfold loadFile
  split
  · simp
  · unfold loadMemory
    after (ends_fileHeader out _ (le_refl _)).1
    rename_i h s _
    after readFileBody_ends _ h.perceptions s
    simp

end Haptics.Binary
