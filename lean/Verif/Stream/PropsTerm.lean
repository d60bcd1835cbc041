import Verif.Stream.Reader
import Verif.Stream.PropsUnit

/-
C55: reading a stream ends, whatever the bytes are.
-/
namespace Haptics

/-- On inputs of at most `N` bits the reader ends and does not lengthen the input. -/
def Rd.Sane (N : Nat) {α : Type} (p : Rd α) : Prop :=
  ∀ s, s.length ≤ N → p s ≠ .error .diverge ∧ ∀ a s', p s = .ok (a, s') → s'.length ≤ s.length

theorem Rd.Sane.pure {N : Nat} {α : Type} (a : α) : Rd.Sane N (pure a : Rd α) := fun s _ => by
  rw [Rd.pure_apply]
  exact ⟨by simp, fun a s' h => by cases h; exact le_refl _⟩

theorem Rd.Sane.error {N : Nat} {α : Type} {e : Err} (h : e ≠ .diverge) :
    Rd.Sane N (Rd.error e : Rd α) :=
  fun s _ => ⟨by simp [Rd.error, h], fun a s' h => by cases h⟩

theorem Rd.Sane.bind {N : Nat} {α β : Type} {p : Rd α} {f : α → Rd β} (hp : p.Sane N)
    (hf : ∀ a, (f a).Sane N) : Rd.Sane N (p >>= f) := fun s hs => by
  rw [Rd.bind_apply]
  obtain ⟨h1, h2⟩ := hp s hs
  cases h : p s with
  | error e => rw [h] at h1; exact ⟨by simpa using h1, fun a s' h => by cases h⟩
  | ok x =>
    have h3 := h2 x.1 x.2 h
    obtain ⟨h4, h5⟩ := hf x.1 x.2 (le_trans h3 hs)
    exact ⟨h4, fun a s' hh => le_trans (h5 a s' hh) h3⟩

theorem rdBits_sane (N n : Nat) : Rd.Sane N (rdBits n) := fun s _ => by
  unfold rdBits
  split
  · exact ⟨by simp, fun a s' h => by cases h; simp⟩
  · exact ⟨by simp, fun a s' h => by cases h⟩

theorem rdU_sane (N n : Nat) : Rd.Sane N (rdU n) := fun s _ => by
  unfold rdU rdBits
  split
  · rename_i h
    split at h
    · cases h
      exact ⟨by simp, fun a s' h => by cases h; simp⟩
    · cases h
  · rename_i h
    split at h
    · cases h
    · cases h
      exact ⟨by simp, fun a s' h => by cases h⟩

theorem readUInt_sane (N n : Nat) : Rd.Sane N (readUInt n) := fun s _ => by
  unfold readUInt rdBits
  split
  · exact ⟨by simp, fun a s' h => by cases h⟩
  · split
    · rename_i h
      split at h
      · cases h
        exact ⟨by simp, fun a s' h => by cases h; simp⟩
      · cases h
    · rename_i h
      split at h
      · cases h
      · cases h
        exact ⟨by simp, fun a s' h => by cases h⟩

/-- Reading at least one bit shortens the input. -/
theorem readUInt_lt (n : Nat) (s s' : Bits) (v : Int) (h : readUInt n s = .ok (v, s')) :
    s'.length < s.length := by
  unfold readUInt rdBits at h
  split at h
  · cases h
  · rename_i hn
    split at h
    · rename_i hh
      split at hh
      · cases hh
        cases h
        rw [List.length_drop]
        omega
      · cases hh
    · cases h

theorem readInt_sane (N n : Nat) : Rd.Sane N (readInt n) := fun s hs => by
  unfold readInt
  split
  · exact ⟨by simp, fun a s' h => by cases h⟩
  · rename_i l
    obtain ⟨h1, h2⟩ := readUInt_sane N n ((true :: l).map not) (by rw [List.length_map]; exact hs)
    split
    · rename_i v s' hh
      refine ⟨by simp, fun a s'' h => ?_⟩
      cases h
      have := h2 _ _ hh
      simpa using this
    · rename_i e hh
      rw [hh] at h1
      exact ⟨by simpa using h1, fun a s' h => by cases h⟩
  · exact readUInt_sane N n _ hs

theorem rdList_sane {N : Nat} {α : Type} {p : Rd α} (hp : p.Sane N) (n : Nat) :
    Rd.Sane N (rdList p n) := by
  induction n with
  | zero => exact Rd.Sane.pure _
  | succ n ih => exact hp.bind fun a => ih.bind fun l => Rd.Sane.pure _

theorem readFloatNBits_sane (N n : Nat) (mn mx : ℚ) : Rd.Sane N (readFloatNBits n mn mx) :=
  (rdU_sane N n).bind fun _ => Rd.Sane.pure _

/-- Applies the lemmas above to a reader built from them. -/
macro "sane" : tactic => `(tactic| repeat first
  | exact Rd.Sane.pure _
  | exact Rd.Sane.error (by decide)
  | exact rdBits_sane _ _
  | exact rdU_sane _ _
  | exact readUInt_sane _ _
  | exact readInt_sane _ _
  | exact readFloatNBits_sane _ _ _ _
  | with_reducible refine Rd.Sane.bind ?_ (fun _ => ?_)
  | with_reducible apply rdList_sane
  | split)

theorem rStr8_sane (N : Nat) : rStr8.Sane N := by unfold rStr8 rdStr; sane
theorem readTiming_sane (N : Nat) : readTiming.Sane N := by unfold readTiming; sane
theorem readInitializationTiming_sane (N : Nat) : readInitializationTiming.Sane N := by
  unfold readInitializationTiming; sane
theorem readAvatar_sane (N : Nat) : readAvatar.Sane N := by unfold readAvatar rdStr; sane
theorem rOptF_sane (N n : Nat) (mn mx : ℚ) (b : Bool) : (rOptF n mn mx b).Sane N := by
  unfold rOptF; sane
theorem rOptN_sane (N n : Nat) (b : Bool) : (rOptN n b).Sane N := by unfold rOptN; sane
theorem rOptI_sane (N n : Nat) (b : Bool) : (rOptI n b).Sane N := by unfold rOptI; sane
theorem rdStr_sane (N n : Nat) : (rdStr n).Sane N := by unfold rdStr; sane
theorem readScheme_sane (N : Nat) : readScheme.Sane N := by unfold readScheme rdStr; sane
theorem rVec8_sane (N : Nat) : rVec8.Sane N := by unfold rVec8; sane

/-- `sane` with the readers of optional fields. -/
macro "sane'" : tactic => `(tactic| repeat first
  | exact rStr8_sane _
  | exact rOptF_sane _ _ _ _ _
  | exact rOptN_sane _ _ _
  | exact rOptI_sane _ _ _
  | exact rdStr_sane _ _
  | exact readScheme_sane _
  | exact rVec8_sane _
  | exact Rd.Sane.pure _
  | exact Rd.Sane.error (by decide)
  | exact rdBits_sane _ _
  | exact rdU_sane _ _
  | exact readUInt_sane _ _
  | exact readInt_sane _ _
  | exact readFloatNBits_sane _ _ _ _
  | with_reducible refine Rd.Sane.bind ?_ (fun _ => ?_)
  | with_reducible apply rdList_sane
  | split)

theorem readMetadataHaptics_sane (N : Nat) (h : Experience) : (readMetadataHaptics h).Sane N := by
  unfold readMetadataHaptics
  sane'
  · exact readAvatar_sane N
  · exact Rd.Sane.pure _
theorem readReferenceDevice_sane (N : Nat) : readReferenceDevice.Sane N := by
  unfold readReferenceDevice; sane'
theorem readMetadataPerception_sane (N : Nat) : readMetadataPerception.Sane N := by
  unfold readMetadataPerception
  sane'
  · exact readReferenceDevice_sane N
  · sane
theorem readBodyParts_sane (N m : Nat) (c : Channel) : (readBodyParts m c).Sane N := by
  unfold readBodyParts; sane'
theorem readSampling_sane (N : Nat) (c : Channel) : (readSampling c).Sane N := by
  unfold readSampling; sane'
theorem readDirection_sane (N m : Nat) (c : Channel) : (readDirection m c).Sane N := by
  unfold readDirection; sane'
theorem readMetadataChannel_sane (N : Nat) (h : Experience) : (readMetadataChannel h).Sane N := by
  unfold readMetadataChannel
  refine (readUInt_sane _ _).bind fun _ => (readUInt_sane _ _).bind fun _ => ?_
  split
  · exact .error (by decide)
  · refine (readUInt_sane _ _).bind fun _ => (readUInt_sane _ _).bind fun _ =>
      (rdStr_sane _ _).bind fun _ => (readUInt_sane _ _).bind fun _ =>
      (readFloatNBits_sane _ _ _ _).bind fun _ => (readFloatNBits_sane _ _ _ _).bind fun _ =>
      (rdU_sane _ _).bind fun _ => (readBodyParts_sane _ _ _).bind fun _ =>
      (readSampling_sane _ _).bind fun _ => (readDirection_sane _ _ _).bind fun _ => ?_
    sane'
theorem readBandParam_sane (N : Nat) (b : Band) : (readBandParam b).Sane N := by
  unfold readBandParam; sane'
theorem readMetadataBand_sane (N : Nat) (h : Experience) : (readMetadataBand h).Sane N := by
  unfold readMetadataBand
  refine (readUInt_sane _ _).bind fun _ => (readUInt_sane _ _).bind fun _ => ?_
  split
  · exact .error (by decide)
  · refine (readUInt_sane _ _).bind fun _ => ?_
    split
    · exact .error (by decide)
    · split
      · exact .error (by decide)
      · refine (readUInt_sane _ _).bind fun _ => (readUInt_sane _ _).bind fun _ =>
          (readBandParam_sane _ _).bind fun _ => ?_
        sane'
theorem readLibKeyframe_sane (N : Nat) : readLibKeyframe.Sane N := by unfold readLibKeyframe; sane'
theorem readSemantic_sane (N : Nat) : readSemantic.Sane N := by unfold readSemantic; sane'
theorem readLibBasis_sane (N : Nat) (t : Int) : (readLibBasis t).Sane N := by
  unfold readLibBasis; sane'

theorem Rd.Sane.bind_lt {N : Nat} {α β : Type} {p : Rd α} {f : α → Rd β} (hp : p.Sane N)
    (hlt : ∀ s a s', p s = .ok (a, s') → s'.length < s.length)
    (hf : 0 < N → ∀ a, (f a).Sane (N - 1)) : Rd.Sane N (p >>= f) := fun s hs => by
  rw [Rd.bind_apply]
  obtain ⟨h1, h2⟩ := hp s hs
  cases h : p s with
  | error e => rw [h] at h1; exact ⟨by simpa using h1, fun a s' h => by cases h⟩
  | ok x =>
    have h3 := hlt s x.1 x.2 h
    obtain ⟨h4, h5⟩ := hf (by omega) x.1 x.2 (by omega)
    exact ⟨h4, fun a s' hh => le_trans (h5 a s' hh) (le_of_lt h3)⟩

/-- The nesting of library effects is no deeper than the number of bits, so this recursion ends. -/
theorem readLibraryEffect_sane (fuel : Nat) : ∀ N, N < fuel → (readLibraryEffect fuel).Sane N := by
  induction fuel with
  | zero => intro N h; omega
  | succ fuel ih =>
    intro N h
    unfold readLibraryEffect
    refine Rd.Sane.bind_lt (readUInt_sane _ _) (fun s a s' => readUInt_lt _ s s' a) fun hN _ => ?_
    refine (readUInt_sane _ _).bind fun _ => (readSemantic_sane _).bind fun _ =>
      (readUInt_sane _ _).bind fun _ => (readLibBasis_sane _ _).bind fun _ =>
      (readUInt_sane _ _).bind fun _ => (rdList_sane (readLibKeyframe_sane _) _).bind fun _ =>
      (readUInt_sane _ _).bind fun _ => (rdList_sane (ih _ (by omega)) _).bind fun _ => Rd.Sane.pure _

theorem readLibraryEffectList_sane (N n : Nat) : (readLibraryEffectList n).Sane N := fun s _ =>
  rdList_sane (readLibraryEffect_sane (s.length + 1) s.length (by omega)) n s (le_refl _)

theorem readLibrary_sane (N : Nat) (h : Experience) : (readLibrary h).Sane N := by
  unfold readLibrary
  refine (readUInt_sane _ _).bind fun _ => ?_
  split
  · exact .error (by decide)
  · exact (readUInt_sane _ _).bind fun _ => (readLibraryEffectList_sane _ _).bind fun _ => .pure _

theorem readKeyframe_sane (N t : Nat) : (readKeyframe t).Sane N := by
  unfold readKeyframe readTransient readCurve readVectorial; sane'
theorem readWave_sane (N t : Nat) : (readWave t).Sane N := by unfold readWave; sane'
theorem readEffect_sane (N t : Nat) : (readEffect t).Sane N := by
  unfold readEffect readEffectBasis
  refine (readUInt_sane _ _).bind fun _ => (readUInt_sane _ _).bind fun _ =>
    (readInt_sane _ _).bind fun _ => ?_
  dsimp only
  split
  · exact (readSemantic_sane _).bind fun _ => (readUInt_sane _ _).bind fun _ =>
      (readWave_sane _ _).bind fun _ => (rdList_sane (readKeyframe_sane _ _) _).bind fun _ => .pure _
  · exact .pure _
theorem readWaveletEffect_sane (N t : Nat) (b : Band) : (readWaveletEffect t b).Sane N := by
  unfold readWaveletEffect readWaveletBytes
  refine (readUInt_sane _ _).bind fun _ => (readUInt_sane _ _).bind fun _ =>
    (readSemantic_sane _).bind fun _ => ?_
  sane'
theorem readEffects_sane (N : Nat) (r : Reader) (b : Band) (n : Nat) : (readEffects r b n).Sane N := by
  unfold readEffects
  split
  · exact (rdList_sane (readEffect_sane _ _) _).bind fun _ => .pure _
  · exact (readWaveletEffect_sane _ _ _).bind fun _ => .pure _
theorem readDataBody_sane (N : Nat) (r : Reader) : (readDataBody r).Sane N := by
  unfold readDataBody
  refine (readUInt_sane _ _).bind fun _ => ?_
  split
  · exact .error (by decide)
  refine (readUInt_sane _ _).bind fun _ => ?_
  split
  · exact .error (by decide)
  split
  · exact .error (by decide)
  refine (readUInt_sane _ _).bind fun _ => ?_
  split
  · exact .error (by decide)
  split
  · exact .error (by decide)
  refine (readUInt_sane _ _).bind fun _ => ?_
  split
  · exact (readEffects_sane _ _ _ _).bind fun _ => .pure _
  · exact .pure _
theorem readCRC_sane (N : Nat) (k : CrcKind) : (readCRC k).Sane N := by
  unfold readCRC; sane'

theorem handle_ends {α : Type} {p : Rd α} {payload : Bits} {r : Reader} {k : α → Except Err Reader}
    (hp : p.Sane payload.length) (hk : ∀ a, k a ≠ .error .diverge) :
    handle p payload r k ≠ .error .diverge := by
  have h1 := (hp payload (le_refl _)).1
  unfold handle
  split
  · simp
  · rename_i e _ he
    rw [he] at h1
    simpa using h1
  · split
    · rename_i e he
      intro hc
      cases hc
      exact hk _ he
    · simp

theorem atPerception_ends (h : Experience) (p : Nat) (f : Perception → Perception) :
    h.atPerception p f ≠ .error .diverge := by
  unfold Experience.atPerception
  split <;> simp

theorem dispatch_ends (t : Nat) (b : Bits) (r : Reader) : dispatch t b r ≠ .error .diverge := by
  unfold dispatch
  split
  · exact handle_ends (readTiming_sane _) fun a => by unfold onTiming; split <;> simp
  split
  · exact handle_ends (readMetadataHaptics_sane _ _) fun a => by simp
  split
  · exact handle_ends (readMetadataPerception_sane _) fun a => by unfold onPerception; split <;> simp
  split
  · exact handle_ends (readLibrary_sane _ _) fun a => by simp [onLibrary]
  split
  · refine handle_ends (readMetadataChannel_sane _ _) fun a => ?_
    unfold onChannel Experience.atPerception
    split <;> split <;> simp [Except.map]
  split
  · refine handle_ends (readMetadataBand_sane _ _) fun a => ?_
    unfold onBand
    split
    · simp
    · dsimp only
      split
      · simp
      · split <;> simp
  split
  · unfold readData
    have h1 := (readUInt_sane b.length DB_AU_TYPE b (le_refl _)).1
    split
    · rename_i e he
      rw [he] at h1
      simpa using h1
    · rename_i v s hs
      split
      · simp
      · dsimp only
        have h2 := (readDataBody_sane s.length { r with waitSync := false } s (le_refl _)).1
        split
        · simp
        · simp
        · rename_i e _ he
          rw [he] at h2
          simpa using h2
  split
  · exact handle_ends (readCRC_sane _ _) fun a => by simp
  · split
    · exact handle_ends (readInitializationTiming_sane _) fun a => by simp [onInitializationTiming]
    · simp

theorem readUnits_ends (d : Dispatch) (hd : ∀ t b r, d t b r ≠ .error .diverge) (all us : List Bits) :
    ∀ r, readUnits d all us r ≠ .error .diverge := by
  induction us with
  | nil => intro r; simp [readUnits]
  | cons u us ih =>
    intro r
    unfold readUnits
    have h := c15_terminates d hd u r
    split
    · rename_i e he
      rw [he] at h
      simpa using h
    · simp
    · split
      · exact ih _
      · exact ih _

theorem loadLoop_ends (length : Nat) : ∀ fuel byteCount file, 0 < fuel → length < byteCount + fuel →
    loadLoop length fuel byteCount file ≠ .error .diverge := by
  intro fuel
  induction fuel with
  | zero => intro byteCount file h0; omega
  | succ fuel ih =>
    intro byteCount file _ h
    unfold loadLoop
    split
    · dsimp only
      have h1 := (readUInt_sane ((readNBytes 9 file).1.drop 36).length UNIT_LENGTH
        ((readNBytes 9 file).1.drop 36) (le_refl _)).1
      split
      · rename_i e he
        rw [he] at h1
        simpa using h1
      · split
        · simp
        · rename_i v _ _ _
          have h2 := ih (byteCount + 9 + v.toNat)
            (readNBytes v.toNat (readNBytes 9 file).2).2 (by omega) (by omega)
          split
          · rename_i e he
            rw [he] at h2
            simpa using h2
          · simp
    · simp

/-- **C55** Reading a stream ends, whatever the bytes of the file. -/
theorem c55_reading_ends (file : List UInt8) : readStream file ≠ .error .diverge := by
  unfold readStream readFile loadFile
  have h := loadLoop_ends file.length (file.length + 1) 0 file (by omega) (by omega)
  split
  · rename_i e he
    rw [he] at h
    simpa using h
  · rename_i units _
    have h2 := readUnits_ends dispatch dispatch_ends units units {}
    split
    · rename_i e he
      rw [he] at h2
      simpa using h2
    · simp
    · simp

/-- It ends in different ways: with a result for a unit cut off in the middle, with an exception for a
unit whose announced length is negative as an `int`. -/
example : (readStream [0, 0, 0, 0, 0, 0, 0, 12, 0, 0, 0]).isOk = true ∧
    (readStream [0, 0, 0, 0, 8, 0, 0, 0, 0]).isOk = false := ⟨by decide +kernel, by decide +kernel⟩

end Haptics
