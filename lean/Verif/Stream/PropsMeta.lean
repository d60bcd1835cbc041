import Verif.Stream.MetaLemmas

/-
C16 and C17: the metadata packets of the stream round-trip.
`reader (writer x ++ rest) = .ok (x.received, rest)`: the reader succeeds, delivers what `SpecMeta` says
a receiver is entitled to, and stops exactly where the packet ends.
-/
namespace Haptics

/-! ## C16 – timing -/

/-- **C16** Timing packets restore the time, for every 32-bit time. -/
theorem c16_timing (t : Nat) (h : t < 2 ^ 32) (rest : Bits) :
    readTiming (writeTiming t ++ rest) = .ok (t, rest) := by
  obtain ⟨w, h1, h2⟩ := readUInt32_toU32 h rest
  simp only [readTiming, writeTiming, Rd.bind_apply, h1, Rd.pure_apply, h2]

example : readTiming (writeTiming 3000000000 ++ [true]) = .ok (3000000000, [true]) :=
  c16_timing 3000000000 (by norm_num) [true]

/-- **C16** Initialization timing packets restore all five fields. -/
theorem c16_initTiming (t : InitTiming) (h1 : -2 ^ 31 ≤ t.time) (h1' : t.time < 2 ^ 31)
    (h2 : t.timescale < 2 ^ 32) (h3 : t.nominalDuration < 2 ^ 24) (h4 : t.durationDeviation < 2 ^ 24)
    (rest : Bits) :
    readInitializationTiming (writeInitializationTiming t ++ rest) = .ok (t, rest) := by
  obtain ⟨time, timescale, nom, dev, ov⟩ := t
  simp only at h1 h1' h2 h3 h4
  have hov : (if ov = true then (1 : Int) else 0) = ((if ov then 1 else 0 : Nat) : Int) := by
    cases ov <;> rfl
  have hn : ((nom : Int) % 2 ^ 32).toNat = nom := by omega
  have hd : ((dev : Int) % 2 ^ 32).toNat = dev := by omega
  simp only [readInitializationTiming, writeInitializationTiming, List.append_assoc, Rd.bind_apply,
    c03_readUInt32 time h1 h1', hov]
  obtain ⟨w, e1, e2⟩ := readUInt32_toU32 h2 (writeNBits INITTIMING_NOMINALDURATION nom
    ++ (writeNBits INITTIMING_DURATIONDEVIATION dev
    ++ (writeNBits INITTIMING_OVERLAPPING ((if ov then 1 else 0 : Nat) : Int) ++ rest)))
  unfold toU32 at e2 ⊢
  simp only [e1, e2, readUInt_wn h3, readUInt_wn h4, hn, hd]
  rw [readUInt_wn (n := 1) (v := if ov then 1 else 0) (by cases ov <;> decide)]
  simp only [Rd.pure_apply]
  cases ov <;> simp

example : readInitializationTiming (writeInitializationTiming ⟨5, 1000, 96, 7, true⟩ ++ [true]) =
    .ok (⟨5, 1000, 96, 7, true⟩, [true]) :=
  c16_initTiming _ (by norm_num) (by norm_num) (by norm_num) (by norm_num) (by norm_num) _

/-! ## C17 – metadata -/

/-- **C17** Avatars. -/
theorem c17_avatar (a : Avatar) (h : a.Fits) :
    ∃ b, writeAvatar a = .ok b ∧ ∀ rest, readAvatar (b ++ rest) = .ok (a.received, rest) := by
  by_cases ht : a.type = 0
  · obtain ⟨m, hm, hl⟩ := h.mesh ht
    refine ⟨_, by simp only [writeAvatar, ht, hm, if_true]; rfl, fun rest => ?_⟩
    simp only [readAvatar, List.append_assoc, Rd.bind_apply, readUInt_w h.id, readUInt_w h.lod,
      readUInt_w (n := AVATAR_TYPE) (v := 0) (by decide), Nat.cast_zero, if_true,
      readUInt_wn (n := AVATAR_MESH_COUNT) hl, Int.toNat_natCast, rdStr_strBits m rest _ rfl,
      Rd.pure_apply, Avatar.received, ht, hm, Int.toNat_zero]
  · refine ⟨_, by simp only [writeAvatar, ht, if_false]; rfl, fun rest => ?_⟩
    have : ¬ ((a.type : Int) = 0) := by exact_mod_cast ht
    simp only [readAvatar, List.append_assoc, Rd.bind_apply, readUInt_w h.id, readUInt_w h.lod,
      readUInt_wn (n := AVATAR_TYPE) h.type, this, if_false, Int.toNat_natCast,
      Rd.pure_apply, Avatar.received, ht]

example : Avatar.Fits { id := 1, lod := 2, type := 0, mesh := some [104, 105] } :=
  ⟨by decide, by decide, by decide, fun _ => ⟨_, rfl, by decide⟩⟩

/-- **C17** The experience header and its avatars. -/
theorem c17_experience (h old : Experience) (hf : h.HeaderFits) :
    ∃ b, writeMetadataHaptics h = .ok b ∧
      ∀ rest, readMetadataHaptics old (b ++ rest) = .ok (h.receivedHeader old, rest) := by
  obtain ⟨b, hb, hr⟩ := wList_ok (w := writeAvatar) (p := readAvatar) (q := Avatar.received)
    (l := h.avatars) (fun a ha => c17_avatar a (hf.avatars a ha))
  refine ⟨_, by simp only [writeMetadataHaptics, hb]; rfl, fun rest => ?_⟩
  have hl : ((h.level : Int) % 256).toNat = h.level := by have := hf.level; omega
  simp only [readMetadataHaptics, List.append_assoc, Rd.bind_apply, rStr8_w hf.version,
    rStr8_w hf.profile, readUInt_wn (n := MDEXP_LEVEL) hf.level, rStr8_w hf.date,
    rStr8_w hf.description, readUInt_any (n := MDEXP_PERC_COUNT) h.perceptions.length,
    readUInt_wn (n := MDEXP_AVATAR_COUNT) hf.avatarCount, Int.toNat_natCast, hr _ _ rfl, Rd.pure_apply,
    hl, Experience.receivedHeader]

/-- **C17** Reference devices: every optional field is present exactly when it was, and quantised. -/
theorem c17_referenceDevice (d : ReferenceDevice) (h : d.Fits) (rest : Bits) :
    readReferenceDevice (writeReferenceDevice d ++ rest) = .ok (d.received, rest) := by
  have hb : d.bodyPartMask.getD 0 < 2 ^ 32 := by
    cases hm : d.bodyPartMask with
    | none => simp
    | some m => exact h.bodyPartMask m hm
  have hlen : (refDevMask d).length = REFDEV_OPT_FIELDS := rfl
  unfold readReferenceDevice writeReferenceDevice
  simp only [List.append_assoc, Rd.bind_apply, readUInt_w h.id,
    readUInt_wn (n := REFDEV_NAME_LENGTH) h.name, Int.toNat_natCast, rdStr_strBits d.name _ _ rfl]
  obtain ⟨w, e1, e2⟩ := readUInt32_toU32 hb _
  rw [e1]
  simp only [rdBits_append _ _ _ hlen, e2]
  simp only [refDevMask, List.getD_cons_zero, List.getD_cons_succ,
    rOptF_w 32 (by norm_num), rOptN_w 4 d.type (fun t ht => h.type t ht), Rd.pure_apply]
  rfl

example : ReferenceDevice.Fits { id := 3, name := [65], weight := some 5, type := some 2 } :=
  ⟨by decide, by decide, by simp, by simp⟩

/-- **C17** Perception headers with their reference devices. -/
theorem c17_perception (p : Perception) (h : p.HeaderFits) (rest : Bits) :
    readMetadataPerception (writeMetadataPerception p ++ rest) = .ok (p.receivedHeader, rest) := by
  have hu : I8 p.unitExponentOrDefault := by
    unfold Perception.unitExponentOrDefault
    cases hm : p.unitExponent with
    | none => exact ⟨by decide, by decide⟩
    | some m => exact h.unitExponent m hm
  have hpu : I8 p.perceptionUnitExponentOrDefault := by
    unfold Perception.perceptionUnitExponentOrDefault
    cases hm : p.perceptionUnitExponent with
    | none => exact ⟨by decide, by decide⟩
    | some m => exact h.perceptionUnitExponent m hm
  unfold readMetadataPerception writeMetadataPerception
  simp only [List.append_assoc, Rd.bind_apply, readUInt_w h.id,
    readUInt_w (n := MDPERCE_PRIORITY) (U_priority h.priority),
    readUInt_wn (n := MDPERCE_DESC_SIZE) h.description, Int.toNat_natCast,
    rdStr_strBits p.description _ _ rfl, readUInt_wn (n := MDPERCE_MODALITY) h.modality,
    readUInt_w h.avatarId, readUInt_any (n := MDPERCE_LIBRARY_COUNT) p.effectLibrary.length, prioOf_w]
  have hd := rdList_append readReferenceDevice writeReferenceDevice ReferenceDevice.received
    p.referenceDevices (fun d hd r => c17_referenceDevice d (h.devices d hd) r)
  simp only [readScheme_w _ h.scheme, readUInt_any (n := MDPERCE_UNIT_EXP) p.unitExponentOrDefault,
    readUInt_any (n := MDPERCE_UNIT_EXP) p.perceptionUnitExponentOrDefault,
    readUInt_wn (n := MDPERCE_REFDEVICE_COUNT) h.deviceCount, Int.toNat_natCast, hd _ _ rfl,
    readUInt_any (n := MDPERCE_CHANNEL_COUNT) p.channels.length, Rd.pure_apply, toI8_emod hu, toI8_emod hpu]
  rfl

example : Perception.HeaderFits
    { id := 1, avatarId := 0, description := [65], priority := some 3,
      referenceDevices := [{ id := 3, name := [65], weight := some 5, type := some 2 }],
      unitExponent := some (-6), effectSemanticScheme := some [66] } :=
  ⟨by decide, by simp; decide, by decide, by decide, by decide, by simp, by simp; decide, by simp,
   by decide, by simp; exact ⟨by decide, by decide, by simp, by simp⟩⟩

theorem readBodyParts_w (c c0 : Channel) (h : c.HeaderFits) (hc0 : c0.bodyPartMask = 0)
    (h1 : c0.actuatorResolution = none) (h2 : c0.bodyPartTarget = none) (h3 : c0.actuatorTarget = none)
    (r : Bits) : readBodyParts (channelOptMask c) c0 (writeBodyParts c ++ r) =
      .ok ({ c0 with bodyPartMask := if c.actuatorResolution.isSome then 0 else c.bodyPartMask,
                     actuatorResolution := c.actuatorResolution,
                     bodyPartTarget := if c.actuatorResolution.isSome
                       then some (c.bodyPartTarget.getD []) else none,
                     actuatorTarget := if c.actuatorResolution.isSome
                       then some (c.actuatorTarget.getD []) else none }, r) := by
  unfold readBodyParts channelOptMask writeBodyParts
  cases hr : c.actuatorResolution with
  | none =>
    have e : (1 + if c.direction.isSome = true then 4 else 0) % 2 ≠ 0 := by split <;> decide
    simp only [Option.isSome_none, Bool.false_eq_true, if_false, if_pos e, Rd.bind_apply]
    obtain ⟨w, e1, e2⟩ := readUInt32_toU32 h.bodyPartMask r
    rw [e1]
    simp only [e2, Rd.pure_apply]
    cases c0; cases h1; cases h2; cases h3; rfl
  | some v =>
    have e : ¬ (2 + if c.direction.isSome = true then 4 else 0) % 2 ≠ 0 := by split <;> decide
    have e' : (2 + if c.direction.isSome = true then 4 else 0) / 2 % 2 ≠ 0 := by split <;> decide
    have hl1 := Nat.mod_eq_of_lt h.bodyPartTargetCount
    have hl2 := Nat.mod_eq_of_lt h.actuatorTargetCount
    simp only [Option.isSome_some, if_true, if_neg e, if_pos e', Rd.bind_apply, List.append_assoc,
      rVec8_w v (h.resolution v hr), hl1, hl2, List.take_length]
    rw [readUInt_wn (n := 8) h.bodyPartTargetCount]
    simp only [Int.toNat_natCast]
    rw [rdList_append (rdU 8) (fun t => writeNBits 8 (t : Nat)) id _
      (fun x hx r => rdU_writeNBits 8 x r (h.bodyPartTarget x hx)) _ _ rfl]
    simp only [Rd.bind_apply]
    rw [readUInt_wn (n := 8) h.actuatorTargetCount]
    simp only [Int.toNat_natCast]
    rw [rdList_append rVec8 writeVector id _
      (fun x hx r => rVec8_w x (h.actuatorTarget x hx) r) _ _ rfl]
    simp only [List.map_id, Rd.pure_apply]
    cases c0; cases hc0; rfl

theorem readSampling_w (c c0 : Channel) (h : c.HeaderFits) (h1 : c0.frequencySampling = none)
    (h2 : c0.sampleCount = none) (r : Bits) : readSampling c0 (writeSampling c ++ r) =
      .ok ({ c0 with frequencySampling := c.frequencySampling.filter (· ≠ 0),
                     sampleCount := if 0 < c.frequencySampling.getD 0
                       then some (c.sampleCount.getD 0) else none }, r) := by
  have hf : c.frequencySampling.getD 0 < 2 ^ 31 := by
    cases hm : c.frequencySampling with
    | none => simp
    | some m => exact h.frequencySampling m hm
  have hs : c.sampleCount.getD 0 < 2 ^ 32 := by
    cases hm : c.sampleCount with
    | none => simp
    | some m => exact h.sampleCount m hm
  have hfil : c.frequencySampling.filter (· ≠ 0) =
      if 0 < c.frequencySampling.getD 0 then some (c.frequencySampling.getD 0) else none := by
    cases hm : c.frequencySampling with
    | none => simp
    | some m => by_cases hm0 : m = 0 <;> simp [Option.filter, hm0, Nat.pos_iff_ne_zero]
  have hsg : toSigned 32 (c.frequencySampling.getD 0) = (c.frequencySampling.getD 0 : Nat) := by
    unfold toSigned; rw [if_pos hf]
  unfold readSampling writeSampling
  rw [hsg, hfil]
  generalize c.frequencySampling.getD 0 = f at hf
  simp only [Rd.bind_apply, List.append_assoc]
  obtain ⟨w, e1, e2⟩ := readUInt32_toU32 (v := f) (by omega) ((if 0 < (f : Int) then
    writeNBits MDCHANNEL_SAMPLE_COUNT (c.sampleCount.getD 0 : Nat) else []) ++ r)
  simp only [e1, e2]
  by_cases h0 : 0 < f
  · simp only [gt_iff_lt, h0, if_true, Int.natCast_pos, Rd.bind_apply]
    obtain ⟨w', e3, e4⟩ := readUInt32_toU32 hs r
    rw [e3]
    simp only [e4, Rd.pure_apply]
  · simp only [gt_iff_lt, h0, if_false, Int.natCast_pos, Rd.pure_apply, List.nil_append]
    cases c0; cases h1; cases h2; rfl

theorem readDirection_w (c c0 : Channel) (h : c.HeaderFits) (h1 : c0.direction = none) (r : Bits) :
    readDirection (channelOptMask c) c0 (writeDirection c ++ r) =
      .ok ({ c0 with direction := c.direction }, r) := by
  unfold readDirection channelOptMask writeDirection
  cases hd : c.direction with
  | none =>
    have e : ¬ ((if c.actuatorResolution.isSome = true then 2 else 1) + 0) / 4 % 2 ≠ 0 := by
      split <;> decide
    simp only [Option.isSome_none, Bool.false_eq_true, if_false, if_neg e, Rd.pure_apply,
      List.nil_append]
    cases c0; cases h1; rfl
  | some d =>
    have e : ((if c.actuatorResolution.isSome = true then 2 else 1) + 4) / 4 % 2 ≠ 0 := by
      split <;> decide
    have hf := h.direction d hd
    simp only [Option.isSome_some, if_true, if_pos e, Rd.bind_apply, List.append_assoc,
      readUInt_any (n := 8), Rd.pure_apply, toI8_emod hf.X, toI8_emod hf.Y, toI8_emod hf.Z]

/-- **C17** Channel headers: the channel is delivered together with the place of the first perception
that carries the announced id. -/
theorem c17_channel (h : Experience) (perceId : Int) (c : Channel) (hp : U 8 perceId) (i : Nat)
    (hi : h.perceptions.findIdx? (fun p => p.id == perceId) = some i) (hc : c.HeaderFits) (rest : Bits) :
    readMetadataChannel h (writeMetadataChannel perceId c ++ rest) =
      .ok ((i, c.receivedHeader), rest) := by
  have hdev : U 8 (c.referenceDeviceId.getD (-1) % 2 ^ 8) :=
    ⟨Int.emod_nonneg _ (by norm_num), Int.emod_lt_of_pos _ (by norm_num)⟩
  have hdev2 : (if c.referenceDeviceId.getD (-1) % 2 ^ 8 < (255 : Nat) then
      some (c.referenceDeviceId.getD (-1) % 2 ^ 8) else none) = c.referenceDeviceId := by
    cases hm : c.referenceDeviceId with
    | none => simp
    | some v =>
      obtain ⟨h1, h2⟩ := hc.referenceDeviceId v hm
      have : v % 2 ^ 8 = v := Int.emod_eq_of_lt h1 (by omega)
      simp only [Option.getD_some, this]
      rw [if_pos (by exact_mod_cast h2)]
  have hmask : channelOptMask c < 2 ^ 8 := by
    unfold channelOptMask; split <;> split <;> decide
  have hv := rdList_append (readUInt 32) (fun v => writeNBits MDCHANNEL_VERT v) id c.vertices
    (fun v hv r => c03_readUInt32 v (hc.vertices v hv).1 (hc.vertices v hv).2 r)
  unfold readMetadataChannel writeMetadataChannel searchPerceptionInHaptic
  simp only [List.append_assoc, Rd.bind_apply, readUInt_w hc.id, readUInt_w hp, hi,
    readUInt_w (n := MDCHANNEL_PRIORITY) (U_priority hc.priority),
    readUInt_wn (n := MDCHANNEL_DESC_LENGTH) hc.description, Int.toNat_natCast,
    rdStr_strBits c.description _ _ rfl, readUInt_any (n := REFDEV_ID) (c.referenceDeviceId.getD (-1)),
    readFloatNBits_write 32 (by norm_num), rdU_writeNBits 8 (channelOptMask c) _ hmask, prioOf_w]
  rw [readBodyParts_w c _ hc rfl rfl rfl rfl]
  simp only []
  rw [readSampling_w c _ hc rfl rfl]
  simp only []
  rw [readDirection_w c _ hc rfl]
  simp only [readUInt_wn (n := MDCHANNEL_VERT_COUNT) hc.vertexCount, Int.toNat_natCast, hv _ _ rfl,
    readUInt_any (n := MDCHANNEL_BANDS_COUNT) c.bands.length, Rd.pure_apply, List.map_id, hdev2]
  rfl

/-- **C17** Band headers: delivered with the band id and with the places of the perception and of the
channel.  `j` is the place of the channel in the first perception of the experience that has a channel
with this id. -/
theorem c17_band (h : Experience) (bandId perceId channelId : Int) (b : Band) (hb : U 8 bandId)
    (hp : U 8 perceId) (hc : U 16 channelId) (i j : Nat) (p : Perception) (c : Channel)
    (hi : h.perceptions.findIdx? (fun p => p.id == perceId) = some i)
    (hj : h.perceptions.findSome? (fun p => p.channels.findIdx? (fun c => c.id == channelId)) = some j)
    (hpi : h.perceptions[i]? = some p) (hcj : p.channels[j]? = some c) (hf : b.HeaderFits)
    (rest : Bits) :
    readMetadataBand h (writeMetadataBand bandId perceId channelId b ++ rest) =
      .ok ((bandId, i, j, b.receivedHeader), rest) := by
  have hpc : (h.perceptions[i]?.bind (fun p => p.channels[j]?)) = some c := by
    rw [hpi]; exact hcj
  have hparam : ∀ r, readBandParam { bandType := b.bandType, priority := receivedPriority b.priority }
      (writeBandParam b ++ r) = .ok
      ({ bandType := b.bandType, priority := receivedPriority b.priority,
         curveType := if b.bandType = BandType.Curve then some b.curveTypeOrDefault else none,
         blockLength := if b.bandType = BandType.WaveletWave then some b.blockLengthOrDefault
           else some 0 }, r) := by
    intro r
    unfold readBandParam writeBandParam
    by_cases h1 : b.bandType = BandType.Curve
    · have h2 : ¬ b.bandType = BandType.WaveletWave := by rw [h1]; decide
      simp only [if_pos h1, if_neg h2, Rd.bind_apply, readUInt_wn (n := MDBAND_CURVE_TYPE)
        (hf.curveType h1), Rd.pure_apply, Int.toNat_natCast]
    · by_cases h2 : b.bandType = BandType.WaveletWave
      · simp only [if_pos h2, if_neg h1, Rd.bind_apply, readUInt_w (n := MDBAND_BLK_LEN)
          (hf.blockLength h2), Rd.pure_apply]
      · simp only [if_neg h2, if_neg h1, Rd.pure_apply, List.nil_append]
  unfold readMetadataBand writeMetadataBand searchPerceptionInHaptic searchChannelInHaptic
  simp only [List.append_assoc, Rd.bind_apply, readUInt_w hb, readUInt_w hp, hi, readUInt_w hc, hj, hpc,
    readUInt_w (n := MDBAND_PRIORITY) (U_priority hf.priority),
    readUInt_wn (n := MDBAND_BAND_TYPE) hf.bandType, Int.toNat_natCast, prioOf_w, hparam,
    readUInt_w hf.low, readUInt_w hf.up, readUInt_any (n := MDBAND_EFFECT_COUNT) b.effects.length,
    Rd.pure_apply]
  rfl

/-- An experience with one perception and one channel, and a wavelet band for it: the hypotheses of
`c17_channel` and `c17_band` are met. -/
example : ∃ (h : Experience) (p : Perception) (c : Channel) (b : Band),
    h.perceptions.findIdx? (fun p => p.id == 7) = some 0 ∧ h.perceptions[0]? = some p ∧
    p.channels[0]? = some c ∧ c.HeaderFits ∧ b.HeaderFits ∧
    h.perceptions.findSome? (fun p => p.channels.findIdx? (fun c => c.id == 300)) = some 0 := by
  refine ⟨{ perceptions := [{ id := 7, channels := [{ id := 300, actuatorResolution := some ⟨2, 2, 1⟩,
                                                      actuatorTarget := some [⟨1, 0, 0⟩] }] }] },
    _, _, { bandType := 3, blockLength := some 64, upperFrequencyLimit := 1000 }, rfl, rfl, rfl, ?_, ?_,
    rfl⟩
  · exact ⟨by decide, by simp, by decide, by simp, by decide, by simp; exact ⟨by decide, by decide,
      by decide⟩, by decide, by simp, by decide, by simp; exact ⟨by decide, by decide, by decide⟩,
      by simp, by simp, by simp, by decide, by simp⟩
  · exact ⟨by decide, by decide, by intro _; decide, by simp, by decide, by decide⟩

/-! ### Effect library -/

/-- The two keyword tables are inverse to each other. -/
theorem semantic_inv (s : String) (c : Nat) (h : semanticCode s = some c) :
    semanticName c = some s ∧ c < 2 ^ 12 := by
  have key : ∀ x ∈ stringToEffectSemantic, semanticName x.2 = some x.1 ∧ x.2 < 2 ^ 12 := by
    decide +kernel
  unfold semanticCode at h
  have : (s, c) ∈ stringToEffectSemantic := by
    revert h
    generalize stringToEffectSemantic = l
    intro h
    induction l with
    | nil => simp at h
    | cons a l ih =>
      rw [List.lookup_cons] at h
      split at h
      · rename_i he
        have := Option.some.inj h
        have he := eq_of_beq he
        subst this; subst he
        simp
      · exact List.mem_cons_of_mem _ (ih h)
  exact key (s, c) this

theorem writeSemantic_w (x : Option String) (h : ∀ s ∈ x, (semanticCode s).isSome) :
    ∃ b, writeSemantic x = .ok b ∧ ∀ r, readSemantic (b ++ r) = .ok (x, r) := by
  cases x with
  | none =>
    refine ⟨_, rfl, fun r => ?_⟩
    simp only [readSemantic, Rd.bind_apply,
      readUInt_w (n := EFFECT_FLAG_SEMANTIC) (v := 0) (by decide)]
    rfl
  | some s =>
    obtain ⟨c, hc⟩ := Option.isSome_iff_exists.mp (h s rfl)
    obtain ⟨h1, h2⟩ := semantic_inv s c hc
    refine ⟨_, by simp only [writeSemantic, hc]; rfl, fun r => ?_⟩
    simp only [readSemantic, Rd.bind_apply, List.append_assoc,
      readUInt_w (n := EFFECT_FLAG_SEMANTIC) (v := 1) (by decide), if_true,
      readUInt_wn (n := EFFECT_SEMANTIC_LAYER_1 + EFFECT_SEMANTIC_LAYER_2) h2, Int.toNat_natCast, h1,
      Rd.pure_apply]

theorem readLibKeyframe_w (k : Keyframe) (h : k.Fits) (r : Bits) :
    readLibKeyframe (writeLibKeyframe k ++ r) = .ok (k.received, r) := by
  obtain ⟨p, a, f⟩ := k
  have hm : keyframeMask ⟨p, a, f⟩ < 2 ^ 3 := by
    cases p <;> cases a <;> cases f <;> simp [keyframeMask]
  have e1 : ((keyframeMask ⟨p, a, f⟩ : Int) % 2 != 0) = p.isSome := by
    cases p <;> cases a <;> cases f <;> simp [keyframeMask]
  have e2 : ((keyframeMask ⟨p, a, f⟩ : Int) / 2 % 2 != 0) = a.isSome := by
    cases p <;> cases a <;> cases f <;> simp [keyframeMask]
  have e3 : ((keyframeMask ⟨p, a, f⟩ : Int) / 4 % 2 != 0) = f.isSome := by
    cases p <;> cases a <;> cases f <;> simp [keyframeMask]
  unfold readLibKeyframe writeLibKeyframe
  simp only [Rd.bind_apply, List.append_assoc, readUInt_wn (n := KEYFRAME_MASK) hm, e1, e2, e3,
    rOptI_w 16 p h.position, rOptF_w 8 (by norm_num), rOptI_w 16 f h.frequency, Rd.pure_apply]
  rfl

theorem readLibBasis_w (e : Effect) (ht : ∀ v ∈ e.baseSignal, v < 16) (r : Bits) :
    readLibBasis (e.effectType : Int) (writeLibBasis e ++ r) =
      .ok ((if e.effectType = EffectType.Basis then some (quantF 16 0 MAX_PHASE (e.phase.getD 0))
              else none,
            if e.effectType = EffectType.Basis then some (e.baseSignal.getD 0) else none), r) := by
  have hb : e.baseSignalOrDefault < 2 ^ 4 := by
    unfold Effect.baseSignalOrDefault
    cases hm : e.baseSignal with
    | none => simp
    | some m => exact ht m hm
  unfold readLibBasis writeLibBasis
  by_cases h0 : e.effectType = 0
  · simp only [h0, Nat.cast_zero, if_true, Rd.bind_apply, List.append_assoc,
      readFloatNBits_write 16 (by norm_num), readUInt_wn (n := EFFECT_BASE_SIGNAL) hb, Rd.pure_apply,
      Int.toNat_natCast]
    rfl
  · have : ¬ ((e.effectType : Int) = 0) := by exact_mod_cast h0
    simp only [h0, this, if_false, List.nil_append, Rd.pure_apply]

/-- **C17** A library effect and all the effects nested in its timelines, to any depth: the writer
succeeds and the reader – with recursion depth at most the number of bits – restores the tree. -/
theorem c17_libraryEffect (e : Effect) (h : e.LibFits) :
    ∃ b, writeLibraryEffect e = .ok b ∧
      ∀ fuel, b.length < fuel → ∀ rest, readLibraryEffect fuel (b ++ rest) = .ok (e.received, rest) := by
  induction e using Effect.induct with
  | h e ih =>
  obtain ⟨_, hid, htype, hpos, hsem, hbase, hkc, hkf, htc, htl⟩ := h
  obtain ⟨sb, hs1, hs2⟩ := writeSemantic_w e.semantic hsem
  have hk := rdList_append readLibKeyframe writeLibKeyframe Keyframe.received e.keyframes
    (fun k hk r => readLibKeyframe_w k (hkf k hk) r)
  -- the timeline
  have tl : ∀ l : List Effect, (∀ t ∈ l, t ∈ e.timeline) → ∃ b, writeLibraryEffects l.length l = .ok b ∧
      ∀ fuel, b.length < fuel → ∀ rest, rdList (readLibraryEffect fuel) l.length (b ++ rest) =
        .ok (l.map Effect.received, rest) := by
    intro l hl
    induction l with
    | nil => exact ⟨[], rfl, by intros; rfl⟩
    | cons a l ihl =>
      obtain ⟨b, hb1, hb2⟩ := ih a (hl a (by simp)) (htl a (hl a (by simp)))
      obtain ⟨c, hc1, hc2⟩ := ihl (fun t ht => hl t (by simp [ht]))
      refine ⟨b ++ c, by simp [writeLibraryEffects, hb1, hc1], fun fuel hf rest => ?_⟩
      rw [List.length_append] at hf
      simp only [List.length_cons, rdList, Rd.bind_apply, List.append_assoc, hb2 fuel (by omega),
        hc2 fuel (by omega), Rd.pure_apply, List.map_cons]
  obtain ⟨tb, ht1, ht2⟩ := tl e.timeline (fun _ h => h)
  have hmod : e.timeline.length % 65536 = e.timeline.length := Nat.mod_eq_of_lt htc
  refine ⟨writeLibHead e sb ++ tb, ?_, fun fuel hf rest => ?_⟩
  · cases e
    simp only [writeLibraryEffect, hs1, hmod, ht1]
  · obtain ⟨fuel, rfl⟩ : ∃ k, fuel = k + 1 := ⟨fuel - 1, by omega⟩
    have hlen : tb.length < fuel := by
      have : 16 ≤ (writeLibHead e sb).length := by
        simp only [writeLibHead, List.length_append, writeNBits_length, EFFECT_ID]; omega
      rw [List.length_append] at hf
      omega
    rw [readLibraryEffect]
    simp only [writeLibHead, List.append_assoc, Rd.bind_apply, readUInt_w hid,
      readUInt_wn (n := EFFECT_TYPE) htype, hs2, readUInt_w hpos, readLibBasis_w e hbase,
      readUInt_wn (n := EFFECT_KEYFRAME_COUNT) hkc, Int.toNat_natCast, hk _ _ rfl, hmod,
      readUInt_wn (n := EFFECT_TIMELINE_COUNT) htc, ht2 fuel hlen, Rd.pure_apply]
    cases e
    simp only [Effect.received]

/-- **C17** The whole library of a perception; the reader's own depth bound suffices. -/
theorem c17_library (h : Experience) (p : Perception) (i : Nat) (hid : U 8 p.id)
    (hi : h.perceptions.findIdx? (fun q => q.id == p.id) = some i)
    (hn : p.effectLibrary.length < 65536) (hf : ∀ e ∈ p.effectLibrary, e.LibFits) :
    ∃ b, writeLibrary p = .ok b ∧
      ∀ rest, readLibrary h (b ++ rest) = .ok ((i, p.effectLibrary.map Effect.received), rest) := by
  have key : ∀ l : List Effect, (∀ e ∈ l, e.LibFits) → ∃ b, wList writeLibraryEffect l = .ok b ∧
      ∀ fuel, b.length < fuel → ∀ rest, rdList (readLibraryEffect fuel) l.length (b ++ rest) =
        .ok (l.map Effect.received, rest) := by
    intro l hl
    induction l with
    | nil => exact ⟨[], rfl, by intros; rfl⟩
    | cons a l ihl =>
      obtain ⟨b, hb1, hb2⟩ := c17_libraryEffect a (hl a (by simp))
      obtain ⟨c, hc1, hc2⟩ := ihl (fun t ht => hl t (by simp [ht]))
      refine ⟨b ++ c, by simp [wList, hb1, hc1], fun fuel hf rest => ?_⟩
      rw [List.length_append] at hf
      simp only [List.length_cons, rdList, Rd.bind_apply, List.append_assoc, hb2 fuel (by omega),
        hc2 fuel (by omega), Rd.pure_apply, List.map_cons]
  obtain ⟨b, h1, h2⟩ := key p.effectLibrary hf
  refine ⟨_, by simp only [writeLibrary, h1]; rfl, fun rest => ?_⟩
  unfold readLibrary searchPerceptionInHaptic
  simp only [List.append_assoc, Rd.bind_apply, readUInt_w hid, hi,
    readUInt_wn (n := MDPERCE_LIBRARY_COUNT) hn, Int.toNat_natCast, readLibraryEffectList]
  rw [h2 _ (by rw [List.length_append]; omega)]
  rfl

/-- A composite effect with a nested basis effect fits. -/
example : Effect.LibFits
    { id := 4, position := 10, effectType := 2, semantic := some "UX/Click",
      timeline := [{ id := 5, keyframes := [⟨some 3, some (1 / 2), none⟩] }] } := by
  refine .mk _ (by decide) (by decide) (by decide) (by intro s hs; cases hs; decide) (by simp)
    (by decide) (by simp) (by decide) ?_
  simp only [List.mem_singleton, forall_eq]
  exact .mk _ (by decide) (by decide) (by decide) (by simp) (by simp) (by decide)
    (by simp; exact ⟨by simp; decide, by simp⟩) (by decide) (by simp)

/-! ### What does not survive

Full C17 would need no size conditions.  These are the losses of the code as it is. -/

/-- A perception without avatar (`avatarId = -1`, the default) is received as attached to avatar 255. -/
theorem c17_no_avatar_becomes_255 :
    readMetadataPerception (writeMetadataPerception { id := 0 }) =
      .ok ({ id := 0, avatarId := 255, unitExponent := some (-3), perceptionUnitExponent := some 0 },
        []) := by
  rfl

/-- The block length of a wavelet band is transmitted modulo 256. -/
theorem c17_blockLength_wraps (b b' : Band) (hb : b.bandType = BandType.WaveletWave) (hb' : b'.bandType = BandType.WaveletWave)
    (r : Bits) :
    readBandParam b' (writeBandParam b ++ r) = .ok ({ b' with blockLength := some (b.blockLengthOrDefault % 256) }, r) := by
  unfold readBandParam writeBandParam
  have h1 : ¬ b.bandType = BandType.Curve := by rw [hb]; decide
  have h2 : ¬ b'.bandType = BandType.Curve := by rw [hb']; decide
  simp only [if_pos hb, if_pos hb', if_neg h1, if_neg h2, Rd.bind_apply, readUInt_any (n := MDBAND_BLK_LEN), Rd.pure_apply]
  rfl

/-- Non-vacuity: a block length of 512 is received as 0. -/
example : ∃ b : Band, b.bandType = BandType.WaveletWave ∧ b.blockLengthOrDefault = 512 ∧ b.blockLengthOrDefault % 256 = 0 :=
  ⟨{ bandType := 3, blockLength := some 512 }, rfl, rfl, rfl⟩

/-- A custom avatar without mesh makes the writer throw. -/
theorem c17_meshless_avatar_throws (a : Avatar) (h : a.type = 0) (hm : a.mesh = none) :
    writeAvatar a = .error .throw := by
  simp [writeAvatar, h, hm]

/-- A description of 256 bytes desynchronises the packet: it is received as empty, and the modality and
everything after it are taken from its characters. -/
theorem c17_long_description_corrupts :
    ∃ p : Perception, p.description.length = 256 ∧ p.perceptionModality = 2 ∧
      ∃ q rest, readMetadataPerception (writeMetadataPerception p) = .ok (q, rest) ∧
        q.description = [] ∧ q.perceptionModality = 0 := by
  refine ⟨{ id := 0, description := List.replicate 256 0, perceptionModality := 2 },
    List.length_replicate, rfl, ?_⟩
  have key : (match readMetadataPerception (writeMetadataPerception
      { id := 0, description := List.replicate 256 0, perceptionModality := 2 }) with
    | .ok (q, _) => decide (q.description = [] ∧ q.perceptionModality = 0)
    | .error _ => false) = true := by decide +kernel
  split at key
  · rename_i q rest heq
    exact ⟨q, rest, heq, (of_decide_eq_true key).1, (of_decide_eq_true key).2⟩
  · cases key

end Haptics
