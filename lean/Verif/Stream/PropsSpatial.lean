import Verif.Stream.PropsResend
import Verif.Stream.SpecSpatial
import Verif.Binary.PropsBands

/-
C60: perceptions of a spatial modality in a stream.
-/
namespace Haptics

theorem dataLoop_spatial (pd : Int) : ∀ (xs : List AddressedBand) (ps buf : List Bits) (ids : List Int),
    List.Forall₂ (fun x p => x.spatial = true ∧ writeSpatialData x = .ok p) xs ps →
    dataLoop pd xs buf ids = .ok ((List.range ps.length).map (fun i => buf ++ ps.take (i + 1))) := by
  intro xs
  induction xs with
  | nil => intro ps buf ids h; cases h; rfl
  | cons x xs ih =>
    intro ps buf ids h
    cases h with
    | @cons _ p _ ps hx h =>
      unfold dataLoop
      rw [if_pos hx.1, hx.2]
      simp only [ih ps (buf ++ [p]) ids h, List.length_cons, List.range_succ_eq_map, List.map_cons,
        List.map_map, Function.comp_def, List.take_succ_cons, List.append_assoc, List.singleton_append,
        List.take_zero]

/-- **C60, negation.** In an experience whose perceptions are all spatial, every band's packet is sent again
with every later band: with `n` bands the first packet is sent `n` times. -/
theorem c60_repeated_negation (pd : Int) (h : Experience) (ps : List Bits)
    (hb : List.Forall₂ (fun x p => x.spatial = true ∧ writeSpatialData x = .ok p) (bandsOf h) ps) :
    writeData pd h = sortPacket ((List.range ps.length).map (fun i => ps.take (i + 1))) := by
  unfold writeData
  rw [dataLoop_spatial pd _ ps [] _ hb]
  simp

/-- **C60, partial.** A packet of a band of a spatial modality carries the address of the band and all its effects:
a reader that took the effects for what they are would have them. -/
theorem c60_packet_partial (timescale : Nat) (x : AddressedBand) (hbt : x.band.bandType < BandType.WaveletWave)
    (hap : U 8 x.addr.perceId) (hac : U 16 x.addr.channelId) (hab : U 8 x.addr.bandId)
    (hn : x.band.effects.length < 65536) (hf : ∀ e ∈ x.band.effects, e.FileFits x.band.bandType) :
    ∃ bits, writeSpatialData x = .ok bits ∧ ∀ rest,
      readSpatial timescale x.band.bandType (bits ++ rest)
        = .ok (⟨0, false, x.addr, { bandType := x.band.bandType, effects := x.band.storedEffects }⟩, rest) := by
  obtain ⟨body, h1, h2⟩ := Binary.c07_body timescale 0 x.band
    { bandType := x.band.bandType, effects := List.replicate x.band.effects.length {} } hbt rfl rfl hf
  refine ⟨_, by unfold writeSpatialData; rw [h1], fun rest => ?_⟩
  have hr : Binary.readBandBody timescale
      { bandType := x.band.bandType, effects := List.replicate x.band.effects.length {} } (body ++ rest)
        = .ok ({ bandType := x.band.bandType, effects := x.band.storedEffects }, rest) := h2 rest
  unfold readSpatial writeEffectHeader
  have hu : ∀ {n : Nat} {v : Int} (_ : U n v) (s : Bits), rdU n (writeNBits n v ++ s) = .ok (v.toNat, s) := by
    intro n v hv s
    rw [rdU_writeNBits_emod, Int.emod_eq_of_lt hv.1 hv.2]
  have hc : ∀ {n : Nat} {v : Int} (_ : U n v), ((v.toNat : Nat) : Int) = v := fun hv => Int.toNat_of_nonneg hv.1
  simp only [List.append_assoc, Rd.bind_apply, DB_DURATION, DB_AU_TYPE, MDPERCE_ID, MDCHANNEL_ID, MDBAND_ID,
    DB_EFFECT_COUNT, hu hap, hu hac, hu hab, rdU_writeNBits 16 x.band.effects.length _ hn,
    show ∀ s, rdU 32 (writeNBits 32 (0 : Int) ++ s) = .ok (0, s) from fun s => rdU_writeNBits 32 0 s (by decide),
    show ∀ s, rdU 1 (writeNBits 1 ((0 : Nat) : Int) ++ s) = .ok (0, s) from fun s => rdU_writeNBits 1 0 s (by decide),
    hr, Rd.pure_apply, hc hap, hc hac, hc hab]
  rfl

/-- Non-vacuity: the force curve below fits. -/
example : ∀ e ∈ ([{ id := 5, position := 0
                    keyframes := [{ relativePosition := some 0, amplitudeModulation := some (1 / 2) },
                      { relativePosition := some 10, amplitudeModulation := some 1 }] }] : List Effect),
    e.FileFits BandType.Curve := by
  intro e he
  simp only [List.mem_singleton] at he
  subst he
  refine ⟨.inl rfl, by decide, by decide, by simp, by simp, ?_, by simp⟩
  intro k hk
  simp only [List.mem_cons, List.not_mem_nil, or_false] at hk
  rcases hk with rfl | rfl
  · exact ⟨⟨by simp [U], by simp⟩, by simp⟩
  · exact ⟨⟨by simp [U], by simp⟩, by simp⟩

/-- A perception of stiffness with one channel and these bands. -/
def stiffness (bands : List Band) : Experience :=
  { perceptions := [{ id := 0, perceptionModality := 11, channels := [{ id := 0, bands := bands }] }] }

/-- A force curve: a half at 0, full at 10. -/
def exampleForce : Band :=
  { bandType := BandType.Curve
    effects := [{ id := 5, position := 0
                  keyframes := [{ relativePosition := some 0, amplitudeModulation := some (1 / 2) },
                    { relativePosition := some 10, amplitudeModulation := some 1 }] }] }

/-- Non-vacuity: two bands. -/
example : ∃ ps : List Bits, ps.length = 2 ∧ List.Forall₂
    (fun x p => x.spatial = true ∧ writeSpatialData x = .ok p)
    (bandsOf (stiffness [exampleForce, { bandType := BandType.Curve }])) ps := by
  have hb : bandsOf (stiffness [exampleForce, { bandType := BandType.Curve }])
      = [⟨⟨0, 0, 0⟩, true, exampleForce⟩, ⟨⟨0, 0, 1⟩, true, { bandType := BandType.Curve }⟩] := rfl
  obtain ⟨p, hp⟩ : ∃ p, writeSpatialData ⟨⟨0, 0, 0⟩, true, exampleForce⟩ = .ok p := by
    have h : (writeSpatialData ⟨⟨0, 0, 0⟩, true, exampleForce⟩).toOption.isSome = true := by
      decide +kernel
    cases hw : writeSpatialData ⟨⟨0, 0, 0⟩, true, exampleForce⟩ with
    | ok p => exact ⟨p, rfl⟩
    | error e => rw [hw] at h; simp [Except.toOption] at h
  rw [hb]
  exact ⟨[p, _], rfl, .cons ⟨rfl, hp⟩ (.cons ⟨rfl, rfl⟩ .nil)⟩

/-- **C60, negation.** The writer accepts this force curve and the reader, given the units written, throws:
the effects are written in the layout of the binary file, without identifiers, and are read in the layout of
a stream. -/
theorem c60_negation :
    (match writeUnits (stiffness [exampleForce]) 128 with
      | .error _ => false
      | .ok units => match readUnits dispatch units units {} with
        | .error .throw => true
        | _ => false) = true := by
  decide +kernel

end Haptics
