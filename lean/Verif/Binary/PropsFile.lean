import Verif.Binary.File
import Verif.Binary.SpecFile
import Verif.Binary.PropsHeader

/-
C06, C08, C09: the binary file format.
-/
namespace Haptics.Binary

/-! ## C06 – the header of a file is read back -/

theorem readAvatar_w (a : Avatar) (h : a.FileFits) (r : Bits) :
    readAvatar (writeAvatar a ++ r) = .ok (a.stored, r) := by
  unfold readAvatar writeAvatar Avatar.stored
  simp only [List.append_assoc, Rd.bind_apply, frdU_w (n := AVATAR_ID) h.id, frdU_w (n := AVATAR_LOD) h.lod,
    frdU_writeNBits AVATAR_TYPE a.type _ h.type]
  by_cases ht : a.type = 0
  · rw [if_pos ht, if_pos ht, if_pos ht, Rd.bind_apply,
      c04_string_roundtrip_partial _ (by have := h.mesh; omega)]
    simp only [Rd.pure_apply, U.toNat h.id, U.toNat h.lod]
  · rw [if_neg ht, if_neg ht, if_neg ht]
    simp only [Rd.pure_apply, U.toNat h.id, U.toNat h.lod, List.nil_append]

theorem readAvatars_w (l : List Avatar) (hn : l.length < 256) (h : ∀ a ∈ l, a.FileFits) (r : Bits) :
    readAvatars (writeAvatars l ++ r) = .ok (l.map Avatar.stored, r) := by
  unfold readAvatars writeAvatars
  rw [Nat.mod_eq_of_lt (by omega), List.take_length, List.append_assoc, Rd.bind_apply,
    frdU_writeNBits MDEXP_AVATAR_COUNT l.length _ hn]
  exact rdList_append readAvatar writeAvatar Avatar.stored l (fun a ha r => readAvatar_w a (h a ha) r) r _ rfl

theorem readLibKeyframe_w (k : Keyframe) (h : k.Fits) (r : Bits) :
    readLibKeyframe (writeLibKeyframe k ++ r) = .ok (k.received, r) := by
  have hm : keyframeMask k < 2 ^ KEYFRAME_MASK := by unfold keyframeMask; split_ifs <;> decide
  have e0 : (keyframeMask k % 2 != 0) = k.relativePosition.isSome := by
    unfold keyframeMask
    cases k.relativePosition <;> cases k.amplitudeModulation <;> cases k.frequencyModulation <;>
      simp only [Option.isSome_none, Option.isSome_some, if_true, Bool.false_eq_true, if_false] <;> decide
  have e1 : (keyframeMask k / 2 % 2 != 0) = k.amplitudeModulation.isSome := by
    unfold keyframeMask
    cases k.relativePosition <;> cases k.amplitudeModulation <;> cases k.frequencyModulation <;>
      simp only [Option.isSome_none, Option.isSome_some, if_true, Bool.false_eq_true, if_false] <;> decide
  have e2 : (keyframeMask k / 4 % 2 != 0) = k.frequencyModulation.isSome := by
    unfold keyframeMask
    cases k.relativePosition <;> cases k.amplitudeModulation <;> cases k.frequencyModulation <;>
      simp only [Option.isSome_none, Option.isSome_some, if_true, Bool.false_eq_true, if_false] <;> decide
  unfold readLibKeyframe writeLibKeyframe Keyframe.received
  simp only [List.append_assoc, Rd.bind_apply, frdU_writeNBits KEYFRAME_MASK (keyframeMask k) _ hm, e0, e1, e2,
    frOptI_w KEYFRAME_POSITION k.relativePosition h.position, frOptF_w KEYFRAME_AMPLITUDE (by decide),
    frOptI_w KEYFRAME_FREQUENCY k.frequencyModulation h.frequency, Rd.pure_apply]

theorem readLibBasis_w (e : Effect) (h : ∀ v ∈ e.baseSignal, v < 16) (r : Bits) :
    readLibBasis e.effectType (writeLibBasis e ++ r) =
      .ok ((if e.effectType = EffectType.Basis then some (quantF 16 0 MAX_PHASE (e.phase.getD 0)) else none,
            if e.effectType = EffectType.Basis then some (e.baseSignal.getD 0) else none), r) := by
  unfold readLibBasis writeLibBasis
  have hb : e.baseSignalOrDefault < 2 ^ EFFECT_BASE_SIGNAL := by
    unfold Effect.baseSignalOrDefault
    cases hs : e.baseSignal with
    | none => decide
    | some v => exact h v hs
  by_cases ht : e.effectType = 0
  · simp only [if_pos ht, List.append_assoc, Rd.bind_apply, freadFloatNBits_write EFFECT_PHASE (by decide),
      frdU_writeNBits EFFECT_BASE_SIGNAL e.baseSignalOrDefault _ hb, Rd.pure_apply]
    rfl
  · simp only [if_neg ht, Rd.pure_apply, List.nil_append]

theorem readLibraryEffect_w (stack : Nat) (e : Effect) (h : e.LibFileFits) :
    ∃ b, writeLibraryEffect (stack + 1) e = .ok b ∧
      ∀ r, readLibEffect (b ++ r) = .ok (e.libStored, r) := by
  refine ⟨writeLibHead e, ?_, fun r => ?_⟩
  · unfold writeLibraryEffect
    rw [h.timeline]
    simp only [List.length_nil, Nat.zero_mod, List.take_zero, wList, List.append_nil]
  · unfold readLibEffect readLibraryEffect writeLibHead Effect.libStored
    rw [h.timeline, Nat.mod_eq_of_lt h.keyframeCount, List.take_length]
    simp only [List.append_assoc, Rd.bind_apply, frdU_w (n := EFFECT_ID) h.id,
      frdU_w (n := EFFECT_POSITION) h.position, frdU_writeNBits EFFECT_TYPE e.effectType _ h.type,
      readLibBasis_w e h.baseSignal, frdU_writeNBits EFFECT_KEYFRAME_COUNT e.keyframes.length _ h.keyframeCount,
      rdList_append readLibKeyframe writeLibKeyframe Keyframe.received e.keyframes
        (fun k hk r => readLibKeyframe_w k (h.keyframes k hk) r) _ _ rfl, List.length_nil, Nat.zero_mod,
      frdU_writeNBits EFFECT_TIMELINE_COUNT 0 _ (by decide), rdList, Rd.pure_apply, U.toNat h.id,
      U.toNat h.position]

theorem readLibrary_w (stack : Nat) (l : List Effect) (hn : l.length < 65536) (h : ∀ e ∈ l, e.LibFileFits) :
    ∃ b, writeLibrary (stack + 1) l = .ok b ∧
      ∀ r, readLibrary (b ++ r) = .ok (l.map Effect.libStored, r) := by
  obtain ⟨b, h1, h2⟩ := wList_ok (w := writeLibraryEffect (stack + 1)) (p := readLibEffect)
    (q := Effect.libStored) (l := l) (fun e he => readLibraryEffect_w stack e (h e he))
  refine ⟨writeNBits MDPERCE_LIBRARY_COUNT (l.length : Nat) ++ b, ?_, fun r => ?_⟩
  · unfold writeLibrary
    rw [Nat.mod_eq_of_lt hn, List.take_length, h1]
  · unfold readLibrary
    rw [List.append_assoc, Rd.bind_apply, frdU_writeNBits MDPERCE_LIBRARY_COUNT l.length _ hn]
    exact h2 r _ rfl

theorem maskOf_lt (l : List Bool) : maskOf l < 2 ^ l.length := by
  induction l with
  | nil => decide
  | cons b l ih =>
    rw [maskOf, List.length_cons, pow_succ]
    have : b.toNat ≤ 1 := Bool.toNat_le b
    omega

theorem maskBit_maskOf (l : List Bool) (i : Nat) : maskBit (maskOf l) i = l.getD i false := by
  induction l generalizing i with
  | nil => simp [maskOf, maskBit]
  | cons b l ih =>
    have hb : b.toNat ≤ 1 := Bool.toNat_le b
    cases i with
    | zero =>
      unfold maskBit maskOf
      rw [pow_zero, Nat.div_one, Nat.add_mul_mod_self_left]
      cases b <;> rfl
    | succ i =>
      rw [List.getD_cons_succ, ← ih i]
      unfold maskBit
      rw [maskOf, pow_succ', ← Nat.div_div_eq_div_mul]
      congr 3
      omega

theorem frOptN_w (n : Nat) (o : Option Nat) (h : ∀ v ∈ o, v < 2 ^ n) (r : Bits) :
    frOptN n o.isSome (wOptN n o ++ r) = .ok (o, r) := by
  cases o with
  | none => rfl
  | some v =>
    simp only [frOptN, wOptN, Option.isSome_some, if_true, Rd.bind_apply, frdU_writeNBits n v _ (h v rfl),
      Rd.pure_apply]

theorem readReferenceDevice_w (d : ReferenceDevice) (h : d.Fits) (r : Bits) :
    readReferenceDevice (writeReferenceDevice d ++ r) = .ok (d.received, r) := by
  have hm : deviceMask d < 2 ^ REFDEV_OPT_FIELDS := maskOf_lt _
  have hb : ∀ i, maskBit (deviceMask d) i = _ := fun i => maskBit_maskOf _ i
  have hbp : d.bodyPartMask.getD 0 < 2 ^ REFDEV_BODY_PART_MASK := by
    cases hs : d.bodyPartMask with
    | none => decide
    | some v => exact h.bodyPartMask v hs
  unfold readReferenceDevice writeReferenceDevice ReferenceDevice.received
  simp only [List.append_assoc, Rd.bind_apply, frdU_w (n := REFDEV_ID) h.id,
    c04_string_roundtrip_partial _ (Nat.le_of_lt_succ h.name),
    frdU_writeNBits REFDEV_BODY_PART_MASK _ _ hbp, frdU_writeNBits REFDEV_OPT_FIELDS _ _ hm, hb,
    List.getD_cons_zero, List.getD_cons_succ, frOptF_w _ (show 32 ≤ 52 by decide),
    frOptN_w REFDEV_TYPE d.type h.type, Rd.pure_apply, U.toNat h.id]

theorem readReferenceDevices_w (l : List ReferenceDevice) (hn : l.length < 256) (h : ∀ d ∈ l, d.Fits)
    (r : Bits) :
    readReferenceDevices (writeReferenceDevices l ++ r) = .ok (l.map ReferenceDevice.received, r) := by
  unfold readReferenceDevices writeReferenceDevices
  rw [Nat.mod_eq_of_lt (by omega), List.take_length, List.append_assoc, Rd.bind_apply,
    frdU_writeNBits MDPERCE_REFDEVICE_COUNT l.length _ hn]
  exact rdList_append readReferenceDevice writeReferenceDevice ReferenceDevice.received l
    (fun a ha r => readReferenceDevice_w a (h a ha) r) r _ rfl

theorem readVectorF_w (v : Vector3) (h : v.Fits) (r : Bits) : readVectorF (writeVector v ++ r) = .ok (v, r) :=
  c01_vector_roundtrip v h.X h.Y h.Z r

theorem readBodyParts_w (c c0 : Channel) (h : c.FileFits) (h0 : c0.bodyPartMask = 0)
    (h1 : c0.actuatorResolution = none) (h2 : c0.bodyPartTarget = none) (h3 : c0.actuatorTarget = none)
    (r : Bits) :
    readBodyParts (channelMask c) c0 (writeBodyParts c ++ r) =
      .ok ({ c0 with
        actuatorResolution := c.actuatorResolution
        bodyPartMask := if c.actuatorResolution.isSome then 0 else c.bodyPartMask
        bodyPartTarget := if c.actuatorResolution.isSome then some (c.bodyPartTarget.getD []) else none
        actuatorTarget := if c.actuatorResolution.isSome then some (c.actuatorTarget.getD []) else none }, r) := by
  unfold readBodyParts channelMask writeBodyParts
  cases hr : c.actuatorResolution with
  | none =>
    have e : ((if (none : Option Vector3).isSome = true then 2 else 1)
        + (if c.direction.isSome = true then 4 else 0)) % 2 ≠ 0 := by
      cases c.direction <;>
        simp only [Option.isSome_none, Option.isSome_some, if_true, Bool.false_eq_true, if_false] <;> decide
    rw [if_pos e]
    simp only [Rd.bind_apply, frdU_writeNBits MDCHANNEL_BODY_PART_MASK _ _ h.bodyPartMask, Rd.pure_apply]
    cases c0
    simp only at h1 h2 h3
    subst h1 h2 h3
    rfl
  | some v =>
    have e : ¬ ((if (some v : Option Vector3).isSome = true then 2 else 1)
        + (if c.direction.isSome = true then 4 else 0)) % 2 ≠ 0 := by
      cases c.direction <;>
        simp only [Option.isSome_none, Option.isSome_some, if_true, Bool.false_eq_true, if_false] <;> decide
    have e2 : ((if (some v : Option Vector3).isSome = true then 2 else 1)
        + (if c.direction.isSome = true then 4 else 0)) / 2 % 2 ≠ 0 := by
      cases c.direction <;>
        simp only [Option.isSome_none, Option.isSome_some, if_true, Bool.false_eq_true, if_false] <;> decide
    rw [if_neg e, if_pos e2]
    dsimp only
    rw [Nat.mod_eq_of_lt h.bodyPartTargetCount, Nat.mod_eq_of_lt h.actuatorTargetCount, List.take_length,
      List.take_length]
    simp only [List.append_assoc, Rd.bind_apply, readVectorF_w v (h.resolution v hr),
      frdU_writeNBits MDCHANNEL_BODY_PART_TARGET_COUNT _ _ h.bodyPartTargetCount,
      rdList_append (frdU MDCHANNEL_BODY_PART_TARGET) (fun t : Nat => writeNBits MDCHANNEL_BODY_PART_TARGET t)
        id _ (fun x hx r => frdU_writeNBits MDCHANNEL_BODY_PART_TARGET x r (h.bodyPartTarget x hx)) _ _ rfl,
      frdU_writeNBits MDCHANNEL_ACTUATOR_TARGET_COUNT _ _ h.actuatorTargetCount,
      rdList_append readVectorF writeVector id _ (fun x hx r => readVectorF_w x (h.actuatorTarget x hx) r)
        _ _ rfl, List.map_id, Rd.pure_apply]
    cases c0
    simp only at h0
    subst h0
    rfl

theorem readSampling_w (c c0 : Channel) (h : c.FileFits) (h1 : c0.frequencySampling = none)
    (h2 : c0.sampleCount = none) (r : Bits) : readSampling c0 (writeSampling c ++ r) =
      .ok ({ c0 with frequencySampling := c.frequencySampling.filter (· ≠ 0),
                     sampleCount := if 0 < c.frequencySampling.getD 0
                       then some (c.sampleCount.getD 0) else none }, r) := by
  have hf : c.frequencySampling.getD 0 < 2 ^ 32 := by
    cases hm : c.frequencySampling with
    | none => simp
    | some m => exact h.frequencySampling m hm
  have hs : c.sampleCount.getD 0 < 2 ^ 32 := by
    cases hm : c.sampleCount with
    | none => simp
    | some m => exact h.sampleCount m hm
  have hfil : c.frequencySampling.filter (· ≠ 0) =
      if 0 < c.frequencySampling.getD 0 then some (c.frequencySampling.getD 0) else none := by
    cases hm : c.frequencySampling with
    | none => simp
    | some m => by_cases hm0 : m = 0 <;> simp [Option.filter, hm0, Nat.pos_iff_ne_zero]
  unfold readSampling writeSampling
  rw [hfil]
  generalize c.frequencySampling.getD 0 = f at hf
  simp only [Rd.bind_apply, List.append_assoc, frdU_writeNBits MDCHANNEL_FREQ_SAMPLING f _ hf]
  by_cases h0 : f = 0
  · subst h0
    simp only [ne_eq, not_true_eq_false, if_false, Rd.pure_apply, List.nil_append, lt_self_iff_false]
    cases c0; cases h1; cases h2; rfl
  · simp only [ne_eq, h0, not_false_eq_true, if_true, Rd.bind_apply,
      frdU_writeNBits MDCHANNEL_SAMPLE_COUNT _ _ hs, Rd.pure_apply, Nat.pos_of_ne_zero h0]

theorem readDirection_w (c c0 : Channel) (h : c.FileFits) (h1 : c0.direction = none) (r : Bits) :
    readDirection (channelMask c) c0 (writeDirection c ++ r) =
      .ok ({ c0 with direction := c.direction }, r) := by
  unfold readDirection channelMask writeDirection
  cases hd : c.direction with
  | none =>
    have e : ¬ ((if c.actuatorResolution.isSome = true then 2 else 1) + 0) / 4 % 2 ≠ 0 := by
      split <;> decide
    simp only [Option.isSome_none, Bool.false_eq_true, if_false, if_neg e, Rd.pure_apply,
      List.nil_append]
    cases c0; cases h1; rfl
  | some d =>
    have e : ((if c.actuatorResolution.isSome = true then 2 else 1) + 4) / 4 % 2 ≠ 0 := by
      split <;> decide
    simp only [Option.isSome_some, if_true, if_pos e, Rd.bind_apply, readVectorF_w d (h.direction d hd),
      Rd.pure_apply]

theorem readVertex_w (v : Int) (h : -2 ^ 31 ≤ v ∧ v < 2 ^ 31) (r : Bits) :
    (do let v ← frdU MDCHANNEL_VERT; pure (toSigned 32 v) : Rd Int) (writeNBits MDCHANNEL_VERT v ++ r)
      = .ok (v, r) := by
  simp only [Rd.bind_apply, frdU_writeNBits_emod, Rd.pure_apply]
  rw [toSigned_emod 32 (by norm_num) v h.1 h.2]

theorem readChannel_w (c : Channel) (h : c.FileFits) (r : Bits) :
    readChannel (writeChannel c ++ r) = .ok (c.storedWith (List.replicate c.bands.length {}), r) := by
  obtain ⟨v, hv, hU⟩ := h.referenceDeviceId
  have hm : channelMask c < 2 ^ MDCHANNEL_OPT_FIELDS := by unfold channelMask; split_ifs <;> decide
  have hb : c.bands.length < 2 ^ MDCHANNEL_BANDS_COUNT := h.bandCount
  unfold readChannel writeChannel Channel.storedWith
  rw [hv, Option.getD_some, Nat.mod_eq_of_lt (by have := h.bandCount; omega)]
  simp only [List.append_assoc, Rd.bind_apply, frdU_writeNBits_emod MDCHANNEL_ID c.id,
    c04_string_roundtrip_partial _ (Nat.le_of_lt_succ h.description), frdU_w (n := MDCHANNEL_DEVICE_ID) hU,
    freadFloatNBits_write MDCHANNEL_GAIN (by decide), freadFloatNBits_write MDCHANNEL_MIXING_WEIGHT (by decide),
    frdU_writeNBits MDCHANNEL_OPT_FIELDS _ _ hm]
  rw [readBodyParts_w c _ h rfl rfl rfl rfl]
  simp only
  rw [readSampling_w c _ h rfl rfl]
  simp only
  rw [readDirection_w c _ h rfl]
  simp only [Rd.bind_apply, frdU_writeNBits MDCHANNEL_VERT_COUNT _ _ h.vertexCount,
    rdList_append _ (writeNBits MDCHANNEL_VERT) id c.vertices
      (fun x hx r => readVertex_w x (h.vertices x hx) r) _ _ rfl,
    frdU_writeNBits MDCHANNEL_BANDS_COUNT _ _ hb, Rd.pure_apply, List.map_id, U.toNat hU]
  rw [toSigned_emod 16 (by norm_num) c.id h.id.1 h.id.2]

theorem readChannels_w (l : List Channel) (hn : l.length < 65536) (h : ∀ d ∈ l, d.FileFits) (r : Bits) :
    readChannels (writeChannels l ++ r) =
      .ok (l.map (fun c => c.storedWith (List.replicate c.bands.length {})), r) := by
  unfold readChannels writeChannels
  rw [Nat.mod_eq_of_lt hn, List.take_length, List.append_assoc, Rd.bind_apply,
    frdU_writeNBits MDPERCE_CHANNEL_COUNT l.length _ hn]
  exact rdList_append readChannel writeChannel _ l (fun a ha r => readChannel_w a (h a ha) r) r _ rfl

theorem frdI8_w {v : Int} (h : I8 v) (r : Bits) : frdI8 (writeNBits 8 v ++ r) = .ok (v, r) := by
  unfold frdI8
  rw [Rd.bind_apply, frdU_writeNBits_emod]
  simp only [Rd.pure_apply]
  rw [toSigned_emod 8 (by norm_num) v h.1 h.2]

/-- A perception as the header leaves it: bands are empty. -/
def placeholder (p : Perception) : Perception :=
  p.storedWith (p.channels.map (fun c => c.storedWith (List.replicate c.bands.length {})))

theorem readPerception_w (stack : Nat) (p : Perception) (h : p.FileFits) :
    ∃ b, writePerception (stack + 1) p = .ok b ∧
      ∀ r, readPerception (b ++ r) = .ok (placeholder p, r) := by
  obtain ⟨lib, h1, h2⟩ := readLibrary_w stack p.effectLibrary h.libraryCount h.library
  refine ⟨_, by rw [writePerception, h1], fun r => ?_⟩
  have hu : I8 p.unitExponentOrDefault := by
    unfold Perception.unitExponentOrDefault
    cases hs : p.unitExponent with
    | none => decide
    | some v => exact h.unitExponent v hs
  have hpu : I8 p.perceptionUnitExponentOrDefault := by
    unfold Perception.perceptionUnitExponentOrDefault
    cases hs : p.perceptionUnitExponent with
    | none => decide
    | some v => exact h.perceptionUnitExponent v hs
  unfold readPerception placeholder Perception.storedWith
  simp only [List.append_assoc, Rd.bind_apply, frdU_w (n := MDPERCE_ID) h.id,
    frdU_writeNBits MDPERCE_MODALITY _ _ h.modality,
    c04_string_roundtrip_partial _ (Nat.le_of_lt_succ h.description), frdU_w (n := AVATAR_ID) h.avatarId,
    frdI8_w hu, frdI8_w hpu, h2, readReferenceDevices_w _ h.deviceCount h.devices,
    readChannels_w _ h.channelCount h.channels, Rd.pure_apply, U.toNat h.id, U.toNat h.avatarId]
  rfl

/-- **C06 (partial)** Writing the header of an experience that fits the format and reading it back restores
it: version, profile, level, date, description, avatars, perceptions with their library, reference devices
and channels (floats quantised; see `Experience.storedHeader`).  Missing: channels without reference device
(see `c06_device_negation`), library effects with a timeline (see `c09_library_negation`), channel ids of
32768 and more. -/
theorem c06_header_partial (stack : Nat) (h out : Experience) (hf : h.FileFits) :
    ∃ bits, writeFileHeader (stack + 1) h = .ok bits ∧
      ∀ rest, readFileHeader out (bits ++ rest) = .ok (h.storedHeader out, rest) := by
  obtain ⟨b, h1, h2⟩ := wList_ok (w := writePerception (stack + 1)) (p := readPerception)
    (q := placeholder) (l := h.perceptions) (fun p hp => readPerception_w stack p (hf.perceptions p hp))
  have hn := hf.perceptionCount
  refine ⟨writeString h.version ++ (writeString h.profile ++ (writeNBits LEVEL h.level
      ++ (writeString h.date ++ (writeString h.description ++ (writeAvatars h.avatars
      ++ (writeNBits MDEXP_PERC_COUNT h.perceptions.length ++ b)))))), ?_, fun rest => ?_⟩
  · rw [writeFileHeader, writePerceptions, Nat.mod_eq_of_lt (by omega), List.take_length, h1]
  · unfold readFileHeader readPerceptions
    simp only [List.append_assoc, Rd.bind_apply, c04_string_roundtrip_partial _ (Nat.le_of_lt_succ hf.version),
      c04_string_roundtrip_partial _ (Nat.le_of_lt_succ hf.profile), frdU_writeNBits LEVEL _ _ hf.level,
      c04_string_roundtrip_partial _ (Nat.le_of_lt_succ hf.date),
      c04_string_roundtrip_partial _ (Nat.le_of_lt_succ hf.description),
      readAvatars_w _ hf.avatarCount hf.avatars, frdU_writeNBits MDEXP_PERC_COUNT _ _ hn, h2 _ _ rfl,
      Rd.pure_apply]
    rfl

/-- A channel in the file without a reference device comes back with reference device 255. -/
theorem c06_device_negation (c : Channel) (h : ({ c with referenceDeviceId := some 0 }).FileFits)
    (hd : c.referenceDeviceId = none) (r : Bits) :
    ∃ c', readChannel (writeChannel c ++ r) = .ok (c', r) ∧ c'.referenceDeviceId = some 255 := by
  have e : writeChannel c = writeChannel { c with referenceDeviceId := some 255 } := by
    unfold writeChannel
    rw [hd]
    rfl
  rw [e]
  refine ⟨_, readChannel_w { c with referenceDeviceId := some 255 } ?_ r, rfl⟩
  exact ⟨h.id, h.description, ⟨255, rfl, by decide, by decide⟩, h.bodyPartMask, h.resolution,
    h.bodyPartTargetCount, h.bodyPartTarget, h.actuatorTargetCount, h.actuatorTarget, h.frequencySampling,
    h.sampleCount, h.direction, h.vertexCount, h.vertices, h.bandCount⟩

/-- A channel with an identifier from 32768 to 65535 comes back with that identifier minus 65536, although
the identifier fits the 16 bits of its field. -/
theorem c06_channel_id_negation (c : Channel) (h : ({ c with id := 0 }).FileFits)
    (h1 : 2 ^ 15 ≤ c.id) (h2 : c.id < 2 ^ 16) (r : Bits) :
    ∃ c', readChannel (writeChannel c ++ r) = .ok (c', r) ∧ c'.id = c.id - 2 ^ 16 := by
  have e : writeChannel c = writeChannel { c with id := c.id - 2 ^ 16 } := by
    have : writeNBits MDCHANNEL_ID c.id = writeNBits MDCHANNEL_ID (c.id - 2 ^ 16) := by
      rw [← writeNBits_emod, ← writeNBits_emod MDCHANNEL_ID (c.id - 2 ^ 16)]
      congr 1
      show (c.id - 2 ^ 16) % 2 ^ 16 = c.id % 2 ^ 16
      omega
    unfold writeChannel
    rw [this]
    rfl
  rw [e]
  refine ⟨_, readChannel_w { c with id := c.id - 2 ^ 16 } ?_ r, rfl⟩
  exact ⟨⟨by dsimp only; omega, by dsimp only; omega⟩, h.description, h.referenceDeviceId, h.bodyPartMask,
    h.resolution, h.bodyPartTargetCount, h.bodyPartTarget, h.actuatorTargetCount, h.actuatorTarget,
    h.frequencySampling, h.sampleCount, h.direction, h.vertexCount, h.vertices, h.bandCount⟩

/-! ## C08 – a whole file is read back -/

theorem wList_each {α : Type} {w : α → Except Err Bits} {p : α → Rd α} {ph q : α → α} {l : List α}
    (hw : ∀ x ∈ l, ∃ b, w x = .ok b ∧ ∀ r, p (ph x) (b ++ r) = .ok (q x, r)) :
    ∃ b, wList w l = .ok b ∧ ∀ r, rdEach p (l.map ph) (b ++ r) = .ok (l.map q, r) := by
  induction l with
  | nil => exact ⟨[], rfl, fun r => rfl⟩
  | cons a l ih =>
    obtain ⟨b, hb, hp⟩ := hw a (by simp)
    obtain ⟨c, hc, hq⟩ := ih (fun x hx => hw x (by simp [hx]))
    refine ⟨b ++ c, by simp [wList, hb, hc], fun r => ?_⟩
    simp only [List.map_cons, rdEach, Rd.bind_apply, List.append_assoc, hp, hq, Rd.pure_apply]

theorem readBandHeader_timescale (ts ts' : Nat) (b : Band) (hb : b.bandType ≠ BandType.WaveletWave) :
    writeBandHeader ts b = writeBandHeader ts' b := by
  unfold writeBandHeader writeBandParam
  rw [if_neg hb, if_neg hb]

theorem readBand_w (ts ts' stack : Nat) (b : Band) (h : b.FileFits ts)
    (hts : b.bandType = BandType.WaveletWave → ts' = ts) :
    ∃ bits, writeBand ts (stack + 1) b = .ok bits ∧
      ∀ r, readBand ts' {} (bits ++ r) = .ok (b.stored, r) := by
  have hdr : ∃ bits, writeBandHeader ts b = .ok bits ∧
      ∀ rest, readBandHeader ts' (bits ++ rest) = .ok (b.storedHeader, rest) := by
    by_cases hb : b.bandType = BandType.WaveletWave
    · obtain ⟨k, hk⟩ := h.block hb
      rw [hts hb]
      exact c10_block_length_partial ts k b hb h.header hk (h.reciprocal hb)
    · rw [readBandHeader_timescale ts ts' b hb]
      exact c07_header ts' b h.header hb
  have body : ∃ bits, writeBandBody (stack + 1) b = .ok bits ∧
      ∀ rest, readBandBody ts' b.storedHeader (bits ++ rest)
        = .ok ({ b.storedHeader with effects := b.storedEffects }, rest) := by
    by_cases hb : b.bandType = BandType.WaveletWave
    · obtain ⟨k, hk⟩ := h.block hb
      rw [hts hb]
      refine c07_wavelet_partial ts stack b b.storedHeader hb rfl ?_ rfl (Int.ne_of_gt hk.up) rfl h.effects
        (h.positions hb)
      show (if b.bandType = BandType.WaveletWave then b.blockLength else some 0) = b.blockLength
      rw [if_pos hb]
    · exact c07_body ts' stack b b.storedHeader (lt_of_le_of_ne h.type hb) rfl rfl h.effects
  obtain ⟨x, hx, hx'⟩ := hdr
  obtain ⟨y, hy, hy'⟩ := body
  refine ⟨x ++ y, by rw [writeBand, hx, hy], fun r => ?_⟩
  unfold readBand
  rw [List.append_assoc, Rd.bind_apply, hx']
  exact hy' r

theorem readChannelBody_w (ts ts' stack : Nat) (c : Channel) (hn : c.bands.length < 65536)
    (h : ∀ b ∈ c.bands, b.FileFits ts)
    (hts : ∀ b ∈ c.bands, b.bandType = BandType.WaveletWave → ts' = ts) :
    ∃ bits, writeChannelBody ts (stack + 1) c = .ok bits ∧
      ∀ r, readChannelBody ts' (c.storedWith (List.replicate c.bands.length {})) (bits ++ r)
        = .ok (c.storedWith (c.bands.map Band.stored), r) := by
  obtain ⟨b, h1, h2⟩ := wList_each (w := writeBand ts (stack + 1)) (p := readBand ts') (ph := fun _ => {})
    (q := Band.stored) (l := c.bands) (fun b hb => readBand_w ts ts' stack b (h b hb) (hts b hb))
  refine ⟨b, ?_, fun r => ?_⟩
  · rw [writeChannelBody, Nat.mod_eq_of_lt hn, List.take_length, h1]
  · unfold readChannelBody
    have e : (c.storedWith (List.replicate c.bands.length {})).bands = c.bands.map (fun _ => {}) := by
      rw [List.map_const']
      rfl
    rw [e, Rd.bind_apply, h2]
    rfl

theorem readPerceptionBody_w (ts ts' stack : Nat) (p : Perception) (hn : p.channels.length < 65536)
    (hb : ∀ c ∈ p.channels, c.bands.length < 65536)
    (h : ∀ c ∈ p.channels, ∀ b ∈ c.bands, b.FileFits ts)
    (hts : ∀ c ∈ p.channels, ∀ b ∈ c.bands, b.bandType = BandType.WaveletWave → ts' = ts) :
    ∃ bits, writePerceptionBody ts (stack + 1) p = .ok bits ∧
      ∀ r, readPerceptionBody ts' (placeholder p) (bits ++ r)
        = .ok (p.storedWith (p.channels.map (fun c => c.storedWith (c.bands.map Band.stored))), r) := by
  obtain ⟨b, h1, h2⟩ := wList_each (w := writeChannelBody ts (stack + 1)) (p := readChannelBody ts')
    (ph := fun c => c.storedWith (List.replicate c.bands.length {}))
    (q := fun c => c.storedWith (c.bands.map Band.stored)) (l := p.channels)
    (fun c hc => readChannelBody_w ts ts' stack c (hb c hc) (h c hc) (hts c hc))
  refine ⟨b, ?_, fun r => ?_⟩
  · rw [writePerceptionBody, Nat.mod_eq_of_lt hn, List.take_length, h1]
  · unfold readPerceptionBody
    rw [Rd.bind_apply]
    erw [h2]
    rfl

theorem readFileBody_w (ts ts' stack : Nat) (l : List Perception)
    (hn : ∀ p ∈ l, p.channels.length < 65536)
    (hb : ∀ p ∈ l, ∀ c ∈ p.channels, c.bands.length < 65536)
    (h : ∀ p ∈ l, ∀ c ∈ p.channels, ∀ b ∈ c.bands, b.FileFits ts)
    (hts : ∀ p ∈ l, ∀ c ∈ p.channels, ∀ b ∈ c.bands, b.bandType = BandType.WaveletWave → ts' = ts) :
    ∃ bits, wList (writePerceptionBody ts (stack + 1)) l = .ok bits ∧
      ∀ r, readFileBody ts' (l.map placeholder) (bits ++ r) = .ok (l.map (fun p =>
        p.storedWith (p.channels.map (fun c => c.storedWith (c.bands.map Band.stored)))), r) := by
  induction l with
  | nil => exact ⟨[], rfl, fun r => rfl⟩
  | cons p l ih =>
    obtain ⟨b, h1, h2⟩ := readPerceptionBody_w ts ts' stack p (hn p (by simp)) (hb p (by simp))
      (h p (by simp)) (hts p (by simp))
    obtain ⟨c, h3, h4⟩ := ih (fun x hx => hn x (by simp [hx])) (fun x hx => hb x (by simp [hx]))
      (fun x hx => h x (by simp [hx])) (fun x hx => hts x (by simp [hx]))
    refine ⟨b ++ c, by simp [wList, h1, h3], fun r => ?_⟩
    simp only [List.map_cons, readFileBody, List.append_assoc, h2, h4]

theorem writeFileHeader_length {stack : Nat} {h : Experience} {bits : Bits}
    (hw : writeFileHeader stack h = .ok bits) : 0 < bits.length := by
  unfold writeFileHeader at hw
  split at hw
  · cases hw
  · cases hw
    simp only [List.length_append, writeNBits_length, LEVEL]
    omega

/-- **C08 (partial)** An experience that fits the format is written to a file, and loading that file into an
experience `out` without perceptions gives the experience back (as far as the format keeps it: see
`Experience.stored`), header and bands.  If there are wavelet bands `out` must have the timescale of the
experience that was written.  Missing: see `c06_header_partial`, composite effects that are not empty
(`c09_negation`), wavelet bands with other block lengths or effects elsewhere (`c10_negation`,
`c07_wavelet_negation`), and the timescale, which is not stored (`c08_timescale_negation`). -/
theorem c08_file_partial (stack : Nat) (h out : Experience) (hf : h.FileFits)
    (hb : ∀ p ∈ h.perceptions, ∀ c ∈ p.channels, ∀ b ∈ c.bands, b.FileFits h.ticksPerSecond)
    (ho : out.perceptions = [])
    (hts : ∀ p ∈ h.perceptions, ∀ c ∈ p.channels, ∀ b ∈ c.bands, b.bandType = BandType.WaveletWave →
      out.ticksPerSecond = h.ticksPerSecond) :
    ∃ bytes, writeFile (stack + 1) h = .ok bytes ∧ loadFile out bytes = .ok (h.stored out) := by
  obtain ⟨x, hx, hx'⟩ := c06_header_partial stack h out hf
  obtain ⟨y, hy, hy'⟩ := readFileBody_w h.ticksPerSecond out.ticksPerSecond stack h.perceptions
    (fun p hp => (hf.perceptions p hp).channelCount)
    (fun p hp c hc => lt_trans ((hf.perceptions p hp).channels c hc).bandCount (by decide)) hb hts
  have hy2 : writeFileBody (stack + 1) h = .ok y := by
    rw [writeFileBody, Nat.mod_eq_of_lt (by have := hf.perceptionCount; omega), List.take_length]
    exact hy
  refine ⟨writeBitset (fillBitset (x ++ y)), by rw [writeFile, hx, hy2], ?_⟩
  have hbits : (writeBitset (fillBitset (x ++ y))).flatMap byteBits =
      x ++ (y ++ (List.replicate ((8 - (x ++ y).length % 8) % 8) false
        ++ List.replicate ((8 - (fillBitset (x ++ y)).length % 8) % 8) false)) := by
    rw [c01_packing, fillBitset]
    simp only [List.append_assoc]
  have hne : writeBitset (fillBitset (x ++ y)) ≠ [] := by
    intro e
    rw [e] at hbits
    have := writeFileHeader_length hx
    have h0 := congrArg List.length hbits
    simp only [List.flatMap_nil, List.length_nil, List.length_append] at h0
    omega
  have hp : (h.storedHeader out).perceptions = h.perceptions.map placeholder := by
    show out.perceptions ++ _ = _
    rw [ho]
    rfl
  unfold loadFile loadMemory
  rw [if_neg hne, hbits, hx']
  dsimp only
  rw [hp, show timescaleOrDefault (h.storedHeader out) = out.ticksPerSecond from rfl, hy']
  unfold Experience.stored
  rw [ho]
  rfl

/-- Whatever the experience, the timescale found after loading is that of the experience the file is loaded
into: files do not hold it. -/
theorem c08_timescale_negation (stack : Nat) (h out : Experience) (hf : h.FileFits)
    (hb : ∀ p ∈ h.perceptions, ∀ c ∈ p.channels, ∀ b ∈ c.bands, b.FileFits h.ticksPerSecond)
    (ho : out.perceptions = [])
    (hts : ∀ p ∈ h.perceptions, ∀ c ∈ p.channels, ∀ b ∈ c.bands, b.bandType ≠ BandType.WaveletWave)
    (hne : out.timescale ≠ h.timescale) :
    ∃ bytes h', writeFile (stack + 1) h = .ok bytes ∧ loadFile out bytes = .ok h' ∧
      h'.timescale ≠ h.timescale := by
  obtain ⟨bytes, h1, h2⟩ := c08_file_partial stack h out hf hb ho
    (fun p hp c hc b hb' e => absurd e (hts p hp c hc b hb'))
  exact ⟨bytes, _, h1, h2, hne⟩

/-- An experience with an avatar, a library, a reference device and a channel with a transient band and a
wavelet band. -/
def fileExample : Experience :=
  { version := [1, 2], profile := [3], level := 2, date := [], description := [7], timescale := some 1000
    avatars := [{ id := 1, lod := 2, type := 0, mesh := some [5] }]
    perceptions := [{ id := 4, avatarId := 1, perceptionModality := 2
                      effectLibrary := [{ id := 9, keyframes := [{}] }]
                      referenceDevices := [{ id := 3, type := some 7 }]
                      channels := [{ id := 6, referenceDeviceId := some 3, bands :=
                        [{ bandType := BandType.Transient, upperFrequencyLimit := 500, effects :=
                            [{ position := 20, keyframes := [{ amplitudeModulation := some (1 / 2) }] }] },
                         { bandType := BandType.WaveletWave, upperFrequencyLimit := 1000
                           blockLength := some 32, effects :=
                            [{ position := 0, waveletBitstream := [1, 2, 3] },
                             { position := 32, waveletBitstream := [4] }] }] }] }] }

theorem fileExample_fits : fileExample.FileFits where
  version := by decide
  profile := by decide
  level := by decide
  date := by decide
  description := by decide
  avatarCount := by decide
  avatars := by
    intro a ha
    simp only [fileExample, List.mem_cons, List.not_mem_nil, or_false] at ha
    subst ha
    exact ⟨by decide, by decide, by decide, by decide⟩
  perceptionCount := by decide
  perceptions := by
    intro p hp
    simp only [fileExample, List.mem_cons, List.not_mem_nil, or_false] at hp
    subst hp
    refine ⟨by decide, by decide, by decide, by decide, by simp, by simp, by decide, ?_, by decide, ?_,
      by decide, ?_⟩
    · intro e he
      simp only [List.mem_cons, List.not_mem_nil, or_false] at he
      subst he
      exact ⟨by decide, by decide, by decide, by simp, by decide, by
        simp only [List.mem_cons, List.not_mem_nil, or_false]
        rintro k rfl
        exact ⟨by simp; decide, by simp⟩, rfl⟩
    · intro d hd
      simp only [List.mem_cons, List.not_mem_nil, or_false] at hd
      subst hd
      exact ⟨by decide, by decide, by simp, by simp⟩
    · intro c hc
      simp only [List.mem_cons, List.not_mem_nil, or_false] at hc
      subst hc
      exact ⟨by decide, by decide, ⟨3, rfl, by decide⟩, by decide, by simp, by decide, by simp, by decide,
        by simp, by simp, by simp, by simp, by decide, by simp, by decide⟩

example : ∃ bytes, writeFile 1 fileExample = .ok bytes ∧
    loadFile { timescale := some 1000 } bytes = .ok (fileExample.stored { timescale := some 1000 }) := by
  refine c08_file_partial 0 fileExample _ fileExample_fits ?_ rfl (fun _ _ _ _ _ _ _ => rfl)
  intro p hp c hc b hb
  simp only [fileExample, List.mem_cons, List.not_mem_nil, or_false] at hp
  subst hp
  simp only [List.mem_cons, List.not_mem_nil, or_false] at hc
  subst hc
  simp only [List.mem_cons, List.not_mem_nil, or_false] at hb
  rcases hb with rfl | rfl
  · refine ⟨by decide, ⟨by decide, by decide, by decide, by decide, by decide⟩, ?_, fun h => absurd h (by decide),
      fun h => absurd h (by decide), fun h => absurd h (by decide)⟩
    intro e he
    simp only [List.mem_cons, List.not_mem_nil, or_false] at he
    subst he
    refine ⟨.inl rfl, fun h => absurd h (by decide), by decide, by simp, by decide, ?_, by decide⟩
    simp only [List.mem_cons, List.not_mem_nil, or_false]
    rintro k rfl
    exact ⟨⟨by simp; decide, by simp⟩, fun h => absurd h (by decide)⟩
  · refine ⟨by decide, ⟨by decide, by decide, by decide, by decide, by decide⟩, ?_,
      fun _ => ⟨5, by decide, by decide, by decide, ⟨32, rfl, by decide, by decide⟩, by decide, by decide⟩,
      fun _ => by decide +kernel, fun _ => ?_⟩
    · intro e he
      simp only [List.mem_cons, List.not_mem_nil, or_false] at he
      rcases he with rfl | rfl
      · exact ⟨.inl rfl, fun h => absurd h (by decide), by decide, by simp, by decide, by simp, by decide⟩
      · exact ⟨.inl rfl, fun h => absurd h (by decide), by decide, by simp, by decide, by simp, by decide⟩
    · intro i e he _
      match i with
      | 0 => cases he; rfl
      | 1 => cases he; rfl
      | i + 2 => simp at he

end Haptics.Binary
