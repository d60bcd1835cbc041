import Verif.Stream.SpecData
import Verif.Stream.Reader
import Verif.Stream.Packetize
import Verif.Stream.PropsUnit
import Verif.Stream.PropsMeta

/-
C56: the content of data packets is read back.
-/
namespace Haptics

/-! ## C56 – what is in a data packet is read back -/

theorem readKeyframe_w (bandType : Nat) (hb : KeyframeBand bandType) (k : Keyframe)
    (h : k.DataFits bandType) :
    ∃ b, writeKeyframe bandType k = .ok b ∧
      ∀ rest, readKeyframe bandType (b ++ rest) = .ok (k.receivedIn bandType, rest) := by
  obtain ⟨⟨p, hp, hpu⟩, hf, htr, hcu⟩ := h
  obtain ⟨kp, ka, kf⟩ := k
  simp only at hp hf htr hcu
  subst hp
  rcases hb with rfl | rfl | rfl
  · obtain ⟨ha, hff⟩ := htr rfl
    obtain ⟨a, rfl⟩ := Option.isSome_iff_exists.mp ha
    obtain ⟨f, rfl⟩ := Option.isSome_iff_exists.mp hff
    refine ⟨_, rfl, fun rest => ?_⟩
    rw [show readKeyframe BandType.Transient = readTransient from rfl]
    simp only [readTransient, List.append_assoc, Rd.bind_apply,
      readFloatNBits_write 8 (by norm_num), readUInt_w hpu, readUInt_w (hf f rfl), Rd.pure_apply]
    rfl
  · obtain ⟨a, rfl⟩ := Option.isSome_iff_exists.mp (hcu rfl)
    refine ⟨_, rfl, fun rest => ?_⟩
    rw [show readKeyframe BandType.Curve = readCurve from rfl]
    simp only [readCurve, List.append_assoc, Rd.bind_apply,
      readFloatNBits_write 8 (by norm_num), readUInt_w hpu, Rd.pure_apply]
    rfl
  · have hm : vectorialMask ⟨some p, ka, kf⟩ < 2 ^ 2 := by
      cases ka <;> cases kf <;> simp [vectorialMask]
    have e1 : ((vectorialMask ⟨some p, ka, kf⟩ : Int) % 2 != 0) = ka.isSome := by
      cases ka <;> cases kf <;> simp [vectorialMask]
    have e2 : ((vectorialMask ⟨some p, ka, kf⟩ : Int) / 2 % 2 != 0) = kf.isSome := by
      cases ka <;> cases kf <;> simp [vectorialMask]
    refine ⟨_, rfl, fun rest => ?_⟩
    rw [show readKeyframe BandType.VectorialWave = readVectorial from rfl]
    simp only [readVectorial, List.append_assoc, Rd.bind_apply,
      readUInt_wn (n := KEYFRAME_VECTORIAL_MASK) hm, e1, e2,
      rOptF_w 8 (by norm_num), readUInt_w hpu, rOptI_w 16 kf hf, Rd.pure_apply]
    rfl

theorem readWave_w (bandType : Nat) (e : Effect) (ht : ∀ v ∈ e.baseSignal, v < 16) (r : Bits) :
    readWave bandType (writeWave bandType e ++ r) =
      .ok ((if bandType = BandType.VectorialWave then some (quantF 16 0 MAX_PHASE (e.phase.getD 0))
              else none,
            if bandType = BandType.VectorialWave then some (e.baseSignal.getD 0) else none), r) := by
  have hb : e.baseSignalOrDefault < 2 ^ 4 := by
    unfold Effect.baseSignalOrDefault
    cases hm : e.baseSignal with
    | none => simp
    | some m => exact ht m hm
  unfold readWave writeWave
  by_cases h0 : bandType = BandType.VectorialWave
  · simp only [h0, if_true, Rd.bind_apply, List.append_assoc,
      readFloatNBits_write 16 (by norm_num), readUInt_wn (n := EFFECT_BASE_SIGNAL) hb, Rd.pure_apply,
      Int.toNat_natCast]
    rfl
  · simp only [h0, if_false, List.nil_append, Rd.pure_apply]

/-- The keyframes of an effect, as they are written in a data packet (none for a reference). -/
def dataKeyframes (bandType : Nat) (e : Effect) : Except Err Bits :=
  if e.effectType = EffectType.Basis then wList (writeKeyframe bandType) e.keyframes else .ok []

/-- **C56** An effect of a data packet sent at `time` is read back, at a position relative to `time`. -/
theorem c56_effect (bandType : Nat) (hb : KeyframeBand bandType) (time : Int) (e : Effect)
    (h : e.DataFits bandType time) :
    ∃ kb b, dataKeyframes bandType e = .ok kb ∧
      writeEffect bandType time e e.keyframes.length kb = .ok b ∧
      ∀ rest, readEffect bandType (b ++ rest) =
        .ok ({ e.receivedIn bandType with position := e.position - time }, rest) := by
  obtain ⟨⟨hid, htype, hsem, hbase, hkc, hkf⟩, hp1, hp2⟩ := h
  obtain ⟨sb, hs1, hs2⟩ := writeSemantic_w e.semantic hsem
  have hpos := c03_readInt EFFECT_POSITION (by decide) (by decide) (e.position - time) hp1 hp2
  rcases htype with ht | ht
  · obtain ⟨kb, hk1, hk2⟩ := wList_ok (p := readKeyframe bandType) (q := Keyframe.receivedIn bandType)
      (fun k hk => readKeyframe_w bandType hb k (hkf k hk))
    refine ⟨kb, _, by rw [dataKeyframes, if_pos ht, hk1], by rw [writeEffect, if_pos ht, hs1],
      fun rest => ?_⟩
    have htl : e.effectType < 2 ^ 2 := by rw [ht]; decide
    unfold readEffect
    simp only [List.append_assoc, Rd.bind_apply, readUInt_w hid, readUInt_wn (n := EFFECT_TYPE) htl,
      hpos, Int.toNat_natCast]
    rw [if_pos (by exact_mod_cast ht)]
    unfold readEffectBasis
    simp only [List.append_assoc, Rd.bind_apply, hs2, readUInt_wn (n := EFFECT_KEYFRAME_COUNT) hkc,
      readWave_w bandType e hbase, Int.toNat_natCast, hk2 _ _ rfl, Rd.pure_apply]
    simp only [Effect.receivedIn, if_pos ht]
  · have hnb : ¬ e.effectType = EffectType.Basis := by rw [ht]; decide
    refine ⟨[], _, by rw [dataKeyframes, if_neg hnb], by rw [writeEffect, if_neg hnb],
      fun rest => ?_⟩
    have htl : e.effectType < 2 ^ 2 := by rw [ht]; decide
    unfold readEffect
    simp only [List.append_nil, List.append_assoc, Rd.bind_apply, readUInt_w hid,
      readUInt_wn (n := EFFECT_TYPE) htl, hpos, Int.toNat_natCast]
    rw [if_neg (by exact_mod_cast hnb)]
    simp only [Rd.pure_apply, Effect.receivedIn, if_neg hnb]

/-- The hypotheses are met, e.g. by a transient before the time of the packet. -/
example : Effect.DataFits BandType.Transient 1000 { id := 7, position := 900, keyframes :=
    [{ relativePosition := some 130, amplitudeModulation := some (1 / 2),
       frequencyModulation := some 80 }] } where
  id := by simp [U]
  type := .inl rfl
  semantic := by simp
  baseSignal := by simp
  keyframeCount := by simp
  keyframes := by
    intro k hk
    simp only [List.mem_cons, List.not_mem_nil, or_false] at hk
    subst hk
    exact ⟨⟨130, rfl, by simp [U]⟩, by simp [U], by simp, by simp⟩
  position := by simp

/-- The band a data packet is addressed to: perception and channel are found by their identifiers, the
channel in the perception named, and the band by its stream identifier. -/
structure HasBand (r : Reader) (addr : Address) (p c b : Nat) (band : Band) : Prop where
  perception : r.haptic.perceptions.findIdx? (fun x => x.id == addr.perceId) = some p
  channel : searchChannelInHaptic r.haptic addr.channelId = some c
  stream : (r.bandStreams.find? (fun x => x.1 == addr.bandId)).map (·.2) = some b
  band : ∃ ch, r.haptic.perceptions[p]?.bind (fun x => x.channels[c]?) = some ch ∧ ch.bands[b]? = some band

/-- The entry of a packet under construction stands for the effect `e`. -/
structure Entry.Of (bandType : Nat) (x : Entry) (e : Effect) : Prop where
  bits : dataKeyframes bandType e = .ok x.bits
  count : e.effectType = EffectType.Basis → x.kfCount = e.keyframes.length
  same : { x.effect with keyframes := e.keyframes } = e

theorem writeEffect_of {bandType : Nat} {x : Entry} {e : Effect} (h : x.Of bandType e) (time : Int) :
    writeEffect bandType time x.effect x.kfCount x.bits
      = writeEffect bandType time e e.keyframes.length x.bits := by
  obtain ⟨-, h2, h3⟩ := h
  obtain ⟨xe, n, bits⟩ := x
  simp only at h2 h3
  have e1 : xe.effectType = e.effectType := by rw [← h3]
  have e2 : xe.semantic = e.semantic := by rw [← h3]
  have e3 : xe.id = e.id := by rw [← h3]
  have e4 : xe.position = e.position := by rw [← h3]
  have e5 : writeWave bandType xe = writeWave bandType e := by rw [← h3]; rfl
  unfold writeEffect
  rw [e1, e2, e3, e4, e5]
  by_cases ht : e.effectType = EffectType.Basis
  · rw [if_pos ht, if_pos ht, h2 ht]
  · rw [if_neg ht, if_neg ht]

/-- **C56** A data packet written at `time` for effects that fit is accepted by every reader that knows
the band – unless it waits for a sync point and this is a dependent access unit –, and adds exactly
these effects, shifted by the difference between the reader's clock and `time`. -/
theorem c56_packet (bandType : Nat) (hb : KeyframeBand bandType) (addr : Address)
    (hap : U 8 addr.perceId) (hac : U 16 addr.channelId) (hab : U 8 addr.bandId) (time : Int)
    (a : PacketAcc) (es : List Effect) (hof : List.Forall₂ (Entry.Of bandType) a.entries es)
    (hfit : ∀ e ∈ es, e.DataFits bandType time) (hn : es.length < 65536) (hne : es ≠ [])
    (hau : a.auType < 2) :
    ∃ body, writePayloadPacket bandType addr time a = .ok (writeNBits 32 time ++ body) ∧
      ∀ (rest : Bits) (r : Reader) (p c b : Nat) (band : Band), HasBand r addr p c b band →
        band.bandType = bandType → ¬ (r.waitSync = true ∧ a.auType = 1) →
        readData (body ++ rest) r = .ok (true, { r with
          waitSync := false
          haptic := addEffectToHaptic r.haptic p c b (es.map (fun e =>
            { e.receivedIn bandType with position := e.position - time + toSigned 32 r.time })) }) := by
  have key : ∀ (xs : List Entry) (es : List Effect), List.Forall₂ (Entry.Of bandType) xs es →
      (∀ e ∈ es, e.DataFits bandType time) →
      ∃ eb, writeEntries bandType time xs = .ok eb ∧ ∀ rest,
        rdList (readEffect bandType) es.length (eb ++ rest) = .ok (es.map (fun e =>
          { e.receivedIn bandType with position := e.position - time }), rest) := by
    intro xs es h
    induction h with
    | nil => exact fun _ => ⟨[], rfl, fun _ => rfl⟩
    | @cons x e xs es hx _ ih =>
      intro hf
      obtain ⟨kb, b1, hk, hw, hr⟩ := c56_effect bandType hb time e (hf e (by simp))
      obtain ⟨b2, hw2, hr2⟩ := ih (fun e' he' => hf e' (by simp [he']))
      have hkb : kb = x.bits := by
        have := hx.bits; rw [hk] at this; injection this
      subst hkb
      rw [← writeEffect_of hx time] at hw
      unfold writeEntries at hw2 ⊢
      refine ⟨b1 ++ b2, by simp only [wList, hw, hw2], fun rest => ?_⟩
      simp only [List.length_cons, rdList, Rd.bind_apply, List.append_assoc, hr, hr2, Rd.pure_apply,
        List.map_cons]
  obtain ⟨eb, he1, he2⟩ := key a.entries es hof hfit
  have hlen : a.entries.length = es.length := hof.length_eq
  refine ⟨writeNBits DB_AU_TYPE a.auType ++ (writeNBits MDPERCE_ID addr.perceId ++
      (writeNBits MDCHANNEL_ID addr.channelId ++ (writeNBits MDBAND_ID addr.bandId ++
        (writeNBits DB_EFFECT_COUNT a.entries.length ++ eb)))),
    by simp only [writePayloadPacket, he1, writeEffectHeader, List.append_assoc, DB_DURATION], ?_⟩
  intro rest r p c b band hband hbt hws
  obtain ⟨hp, hc, hs, ch, hch, hbd⟩ := hband
  unfold readData
  simp only [List.append_assoc, readUInt_wn (n := DB_AU_TYPE) hau]
  rw [if_neg (by
    intro h
    simp only [Bool.and_eq_true, beq_iff_eq] at h
    exact hws ⟨h.1, by exact_mod_cast h.2⟩)]
  have hpos : 0 < es.length := List.length_pos_iff.mpr hne
  have hlen' : a.entries.length < 2 ^ 16 := by omega
  unfold readDataBody
  simp only [Rd.bind_apply, readUInt_w hap, readUInt_w hac, readUInt_w hab, searchPerceptionInHaptic,
    hp, hc, hch, searchBandInHaptic, hs, hbd, readUInt_wn (n := DB_EFFECT_COUNT) hlen']
  rw [if_pos (by exact_mod_cast (by omega))]
  unfold readEffects
  rw [if_pos (by rw [hbt]; rcases hb with h | h | h <;> rw [h] <;> decide)]
  simp only [Rd.bind_apply, Int.toNat_natCast, hlen, hbt, he2, Rd.pure_apply, List.map_map]
  rfl

/-- The hypotheses are met, e.g. by a packet with one reference, read by a receiver that knows the
second channel of its only perception. -/
example :
    let e : Effect := { id := 7, position := 900, effectType := EffectType.Reference }
    let a : PacketAcc := { effectsId := [7], entries := [{ effect := e, kfCount := 0, bits := [] }] }
    let r : Reader := { haptic := { perceptions := [{ id := 4, channels := [{ id := 1 },
      { id := 2, bands := [{ bandType := BandType.Curve }] }] }] }, bandStreams := [(9, 0)] }
    List.Forall₂ (Entry.Of BandType.Curve) a.entries [e] ∧ e.DataFits BandType.Curve 1000 ∧
      HasBand r ⟨4, 2, 9⟩ 0 1 0 { bandType := BandType.Curve } ∧ a.auType < 2 := by
  refine ⟨.cons ⟨rfl, by simp, rfl⟩ .nil, ⟨⟨by simp [U], .inr rfl, by simp, by simp, by simp, by simp⟩,
    by simp⟩, ⟨rfl, rfl, rfl, _, rfl, rfl⟩, by decide⟩

end Haptics
