import Verif.Stream.JoinRead

/-
C103: a receiver that joins a stream at a sync point; C57 for experiences with sync points.
-/
namespace Haptics

/-- **C103 (partial)** A receiver that joins a stream anywhere – that starts to read at any unit, number `k` – gets the
experience from the next sync point on, that is from the next initialization unit on, at unit `n` and time `t`: the whole
description, and of the effects exactly what happens from then on, at the right times, with the sync points from there
on.  If there is no sync point any more, it gets nothing.  The initialization units of the stream are those of the start
and of the first few sync points of the experience, in order.
Missing: wavelet bands, of which a late receiver places the blocks at wrong times (`c103_wavelet_negation`); sync points
that are not at the end of a unit, of which there are no initialization units, and after which there are none at
all (`c103_point_negation`, `c103_points_partial`); experiences that cannot be described twice (C36), unless the receiver
joins at the last sync point; otherwise the conditions of `c57_streamed_partial`. -/
theorem c103_join_partial (h : Experience) (d : Nat) (hd : 0 < d) (hd2 : d < 2 ^ 24) (hs : h.Spaced)
    (hf : h.prune.assignIds.unsynced.StreamFits d) (hi : h.prune.Identified) (hm : h.prune.assignIds.Modest d) :
    ∃ (units : List Bits) (later : List Frame) (init : Nat → Bits),
      writeStream h d = .ok (writeBitset units.flatten) ∧ (∀ u ∈ units, IsUnit u) ∧
      List.Forall₂ (Frame.IsEncoded d 0 init) (.sync 0 :: later) units ∧
      (∀ t, unitTypeOf (init t) = UnitType.Initialization) ∧ InTime d (.sync 0 :: later) 0 ∧
      (syncTimes later).map (fun t : Nat => (t : Int)) <+: (h.syncs.drop 1).map (·.timestamp) ∧
      (∀ k, k < units.length → syncTimes ((Frame.sync 0 :: later).drop k) = [] →
        readStream (writeBitset (units.drop k).flatten) = .ok (true, some { timescale := some 1000 })) ∧
      ∀ (k n t : Nat), k ≤ n → syncTimes (((Frame.sync 0 :: later).take n).drop k) = [] →
        (Frame.sync 0 :: later)[n]? = some (.sync t) → (n = 0 ∨ h.prune.Keyframed) →
        (h.prune.Resendable ∨ syncTimes (later.drop n) = []) →
        readStream (writeBitset (units.drop k).flatten) = .ok (true, some ((h.prune.assignIds.since t).receivedWith
          ((syncTimes ((Frame.sync 0 :: later).drop n)).map h.syncAt))) := by
  obtain ⟨units, later, init, h1, h2, h3, h4, h5, h6, -, h8, h9⟩ := join_all h d hd hd2 hs hf hi hm
  exact ⟨units, later, init, h1, h2, h3, h4, h5, h6, h8, h9⟩

/-- **C103 (partial)** All sync points of an experience get initialization units if they are in order, and at each but the
first there is something to send, though not for the first time.
Missing: other sync points (`c103_point_negation`). -/
theorem c103_points_partial (h : Experience) (d : Nat) (hd : 0 < d) (hd2 : d < 2 ^ 24) (hs : h.Spaced)
    (hf : h.prune.assignIds.unsynced.StreamFits d) (hi : h.prune.Identified) (hm : h.prune.assignIds.Modest d)
    (ht : h.prune.assignIds.SyncsTimely d) :
    ∃ (units : List Bits) (later : List Frame) (init : Nat → Bits),
      writeStream h d = .ok (writeBitset units.flatten) ∧
      List.Forall₂ (Frame.IsEncoded d 0 init) (.sync 0 :: later) units ∧ InTime d (.sync 0 :: later) 0 ∧
      (syncTimes later).map (fun t : Nat => (t : Int)) = (h.syncs.drop 1).map (·.timestamp) := by
  obtain ⟨units, later, init, h1, -, h3, -, h5, -, h7, -, -⟩ := join_all h d hd hd2 hs hf hi hm
  exact ⟨units, later, init, h1, h3, h5, h7 ht⟩

/-- **C57 (partial)** The same for experiences with sync points: what is received has the first few of them, or all if they
are timely.
Missing: experiences that cannot be described twice (`c36_avatars_negation`, `c36_avatarId_negation`,
`c36_scheme_negation`); otherwise the conditions of `c57_streamed_partial`. -/
theorem c57_sync_partial (h : Experience) (d : Nat) (hd : 0 < d) (hd2 : d < 2 ^ 24) (hs : h.Spaced)
    (hf : h.prune.assignIds.unsynced.StreamFits d) (hi : h.prune.Identified) (hm : h.prune.assignIds.Modest d)
    (hres : h.prune.Resendable) :
    ∃ (file : List UInt8) (times : List Nat), writeStream h d = .ok file ∧
      readStream file = .ok (true, some (h.prune.assignIds.receivedWith ((0 :: times).map h.syncAt))) ∧
      times.map (fun t : Nat => (t : Int)) <+: (h.syncs.drop 1).map (·.timestamp) ∧
      (h.prune.assignIds.SyncsTimely d → times.map (fun t : Nat => (t : Int)) = (h.syncs.drop 1).map (·.timestamp)) := by
  obtain ⟨units, later, init, h1, -, -, -, -, h6, h7, -, h8⟩ := join_all h d hd hd2 hs hf hi hm
  refine ⟨_, syncTimes later, h1, ?_, h6, h7⟩
  have := h8 0 0 0 le_rfl rfl rfl (.inl rfl) (.inl hres)
  rw [List.drop_zero, List.drop_zero] at this
  rw [this]
  have e : (h.prune.assignIds.unsynced).since 0 = h.prune.assignIds.unsynced := since_start hf
  have e2 : ∀ ss, (h.prune.assignIds.since ((0 : Nat) : Int)).receivedWith ss =
      (h.prune.assignIds.unsynced.since 0).receivedWith ss := fun ss => rfl
  rw [e2, e]
  rfl

/-- What a receiver makes of the units of a stream from number `k` on. -/
def joinedAt (h : Experience) (d k : Nat) : Option Experience :=
  match writeUnits h d with
  | .error _ => none
  | .ok units => match readUnits dispatch (units.drop k) (units.drop k) {} with
    | .error _ => none
    | .ok x => some x.2.haptic

/-- The types of the units of a stream. -/
def unitTypes (h : Experience) (d : Nat) : List Nat :=
  match writeUnits h d with
  | .error _ => []
  | .ok units => units.map unitTypeOf

/-- An experience with three sync points: one effect with keyframes at 10, 140 and 310, one with a keyframe at 315. -/
def exampleJoined (syncs : List Sync) : Experience :=
  { syncs := syncs
    perceptions := [{ id := 1, avatarId := 1, effectSemanticScheme := some [65]
                      channels := [{ id := 7, bands := [{ effects := [
                        { id := 3, position := 10
                          keyframes := [{ relativePosition := some 0 }, { relativePosition := some 130 },
                            { relativePosition := some 300, frequencyModulation := some 60 }] },
                        { id := 4, position := 310, keyframes := [{ relativePosition := some 5 }] }] }] }] }] }

/-- A wavelet band with three blocks, with sync points at the first and the third. -/
def exampleJoinedWavelet : Experience :=
  { timescale := some 2000, syncs := [{ timestamp := 0 }, { timestamp := 256 }]
    perceptions := [{ id := 1, avatarId := 1, effectSemanticScheme := some [65]
                      channels := [{ id := 7, bands := [
                        { bandType := BandType.WaveletWave, upperFrequencyLimit := 2000, blockLength := some 128
                          effects := [{ id := 3, position := 0, waveletBitstream := [1] },
                            { id := 4, position := 128, waveletBitstream := [2] },
                            { id := 5, position := 256, waveletBitstream := [3] }] }] }] }] }

/-- **C103, negation.** A receiver that joins at the second sync point, at time 256, plays the third block of a wavelet
band at time 0. -/
theorem c103_wavelet_negation :
    (unitTypes exampleJoinedWavelet 128 = [UnitType.Initialization, UnitType.Temporal, UnitType.Temporal,
      UnitType.Initialization, UnitType.Temporal]) ∧
    (joinedAt exampleJoinedWavelet 128 0).map (fun e => e.allBands.map (fun b => b.effects.map (fun e => (e.id, e.position))))
      = some [[(6, 0), (7, 128), (8, 256)]] ∧
    (joinedAt exampleJoinedWavelet 128 3).map (fun e => e.allBands.map (fun b => b.effects.map (fun e => (e.id, e.position))))
      = some [[(8, 0)]] := by
  refine ⟨by decide +kernel, by decide +kernel, by decide +kernel⟩

/-- **C103, negation.** Sync points at 128 and 256 have initialization units, but a sync point at 100, which is not at
the end of a packet, has none, and then that at 256 has none either: the stream can only be read from the start. -/
theorem c103_point_negation :
    unitTypes (exampleJoined [{ timestamp := 0 }, { timestamp := 128 }, { timestamp := 256 }]) 128 =
      [UnitType.Initialization, UnitType.Temporal, UnitType.Initialization, UnitType.Temporal, UnitType.Initialization,
        UnitType.Temporal] ∧
    unitTypes (exampleJoined [{ timestamp := 0 }, { timestamp := 100 }, { timestamp := 256 }]) 128 =
      [UnitType.Initialization, UnitType.Temporal, UnitType.Temporal, UnitType.Temporal] := by
  refine ⟨by decide +kernel, by decide +kernel⟩

/-- The example meets the hypotheses of `c103_join_partial`, `c103_points_partial` and `c57_sync_partial`. -/
theorem exampleJoined_meets (syncs : List Sync)
    (hs : [({ timestamp := 0 } : Sync), { timestamp := 128 }, { timestamp := 256 }] = syncs) :
    (exampleJoined syncs).Spaced ∧ (exampleJoined syncs).prune.assignIds.unsynced.StreamFits 128 ∧
    (exampleJoined syncs).prune.Identified ∧ (exampleJoined syncs).prune.assignIds.Modest 128 ∧
    (exampleJoined syncs).prune.assignIds.SyncsTimely 128 ∧ (exampleJoined syncs).prune.Keyframed ∧
    (exampleJoined syncs).prune.Resendable := by
  have hp : (exampleJoined syncs).prune = exampleJoined syncs := by rw [← hs]; rfl
  have ha : (exampleJoined syncs).prune.assignIds = exampleJoined syncs := by rw [← hs]; rfl
  refine ⟨?_, ?_, ?_, ?_, ?_, ?_, ?_⟩
  · refine ⟨?_, by simp [exampleJoined]⟩
    intro p hp
    simp only [exampleJoined, List.mem_cons, List.not_mem_nil, or_false] at hp
    subst hp
    refine ⟨?_, by simp⟩
    intro c hc
    simp only [List.mem_cons, List.not_mem_nil, or_false] at hc
    subst hc
    refine ⟨?_, by simp⟩
    intro b hb
    simp only [List.mem_cons, List.not_mem_nil, or_false] at hb
    subst hb
    exact ⟨by decide +kernel⟩
  · rw [ha]
    have hk : ∀ (p : Int) (f : Option Int), U 16 p → (∀ v ∈ f, U 16 v) →
        Keyframe.DataFits BandType.VectorialWave { relativePosition := some p, frequencyModulation := f } :=
      fun p f hp hf => ⟨⟨p, rfl, hp⟩, hf, fun h => absurd h (by decide), fun h => absurd h (by decide)⟩
    have he : ∀ (id pos : Int) (ks : List Keyframe), U 16 id → ks.length < 65536 →
        (∀ k ∈ ks, k.DataFits BandType.VectorialWave) →
        Effect.Sendable BandType.VectorialWave { id := id, position := pos, keyframes := ks } :=
      fun id pos ks h1 h2 h3 => ⟨h1, .inl rfl, by simp, by simp, h2, h3⟩
    refine ⟨⟨by simp [exampleJoined, Experience.unsynced], by simp [exampleJoined, Experience.unsynced],
      by simp [exampleJoined, Experience.unsynced], by simp [exampleJoined, Experience.unsynced],
      by simp [exampleJoined, Experience.unsynced], by simp [exampleJoined, Experience.unsynced],
      by simp [exampleJoined, Experience.unsynced]⟩, by simp [exampleJoined, Experience.unsynced],
      by simp [Experience.unsynced], ?_, by simp [exampleJoined, Experience.unsynced],
      by simp [exampleJoined, Experience.unsynced, Experience.channelIds],
      by simp [exampleJoined, Experience.unsynced, Experience.allBands]⟩
    intro p hp'
    simp only [exampleJoined, Experience.unsynced, List.mem_cons, List.not_mem_nil, or_false] at hp'
    subst hp'
    refine ⟨⟨by simp [U], by simp, by simp, by simp, by simp [U], by simp, by simp, by simp, by simp, by simp⟩,
      by simp, by simp, by simp, ?_⟩
    intro c hc
    simp only [List.mem_cons, List.not_mem_nil, or_false] at hc
    subst hc
    refine ⟨⟨by simp [U], by simp, by simp, by simp, by simp, by simp, by simp, by simp, by simp, by simp,
        by simp, by simp, by simp, by simp, by simp⟩, ?_⟩
    intro b hb
    simp only [List.mem_cons, List.not_mem_nil, or_false] at hb
    subst hb
    refine ⟨⟨by simp [BandType.VectorialWave], by simp [BandType.VectorialWave, BandType.Curve],
      by simp [BandType.VectorialWave, BandType.WaveletWave], by simp, by simp [U], by simp [U]⟩,
      .inl ⟨.inr (.inr rfl), ⟨by decide +kernel, by simp [TimeOrdered],
            by simp [EffectType.Basis, EffectType.Reference], by simp, by simp⟩,
            by simp [DistinctIds], ?_, by decide +kernel, by simp, ?_⟩⟩
    · intro x hx
      simp only [List.mem_cons, List.not_mem_nil, or_false] at hx
      rcases hx with rfl | rfl
      · refine he _ _ _ (by simp [U]) (by simp) ?_
        intro k hk'
        simp only [List.mem_cons, List.not_mem_nil, or_false] at hk'
        rcases hk' with rfl | rfl | rfl
        · exact hk _ _ (by simp [U]) (by simp)
        · exact hk _ _ (by simp [U]) (by simp)
        · exact hk _ _ (by simp [U]) (by simp [U])
      · refine he _ _ _ (by simp [U]) (by simp) ?_
        intro k hk'
        simp only [List.mem_cons, List.not_mem_nil, or_false] at hk'
        subst hk'
        exact hk _ _ (by simp [U]) (by simp)
    · simp [EffectType.Basis, EffectType.Reference]
  · rw [hp]
    intro b hb ht
    simp only [exampleJoined, Experience.allBands, List.flatMap_cons, List.flatMap_nil, List.append_nil,
      List.mem_cons, List.not_mem_nil, or_false] at hb
    subst hb
    cases ht
  · rw [ha]
    refine ⟨?_, ?_, fun b hb t => eventsIn_small ?_ _ _, by simp [exampleJoined, Experience.allBands, Effect.eventTimes,
      EffectType.Basis], by simp [exampleJoined, Experience.waveletBlocks, Experience.allBands, BandType.VectorialWave,
      BandType.WaveletWave]⟩
    · intro p hp c hc
      simp only [exampleJoined, List.mem_cons, List.not_mem_nil, or_false] at hp
      subst hp
      simp only [List.mem_cons, List.not_mem_nil, or_false] at hc
      subst hc
      exact Nat.zero_le _
    · intro p hp
      simp only [exampleJoined, List.mem_cons, List.not_mem_nil, or_false] at hp
      subst hp
      exact Nat.zero_le _
    · simp only [exampleJoined, Experience.allBands, List.flatMap_cons, List.flatMap_nil, List.append_nil,
        List.mem_cons, List.not_mem_nil, or_false] at hb
      subst hb
      decide +kernel
  · rw [ha]
    have hat : ∀ t : Int, (128 : Int) ∣ t → (∃ x ∈ [(10 : Int), 140, 310, 315], t ≤ x ∧ x < t + 128) →
        (exampleJoined syncs).SendsAt 128 t := by
      intro t h1 ⟨x, h2, h3⟩
      refine ⟨_, List.mem_flatMap.2 ⟨_, List.mem_singleton.2 rfl, List.mem_flatMap.2 ⟨_, List.mem_singleton.2 rfl,
        List.mem_singleton.2 rfl⟩⟩, ?_⟩
      rw [if_neg (by decide)]
      refine ⟨h1, ?_⟩
      simp only [List.mem_cons, List.not_mem_nil, or_false] at h2
      rcases h2 with h2 | h2 | h2 | h2
      · exact ⟨_, List.mem_cons_self .., x, by rw [h2]; decide +kernel, h3⟩
      · exact ⟨_, List.mem_cons_self .., x, by rw [h2]; decide +kernel, h3⟩
      · exact ⟨_, List.mem_cons_self .., x, by rw [h2]; decide +kernel, h3⟩
      · exact ⟨_, List.mem_cons_of_mem _ (List.mem_cons_self ..), x, by rw [h2]; decide +kernel, h3⟩
    have e : (exampleJoined syncs).syncs = syncs := rfl
    rw [Experience.SyncsTimely, e, ← hs]
    rw [← hs] at hat
    refine ⟨by simp, ?_⟩
    intro p hp
    simp only [List.drop_succ_cons, List.drop_zero, List.mem_cons, List.not_mem_nil, or_false] at hp
    have h0 := hat 0 (by norm_num) ⟨10, by simp, by norm_num, by norm_num⟩
    rcases hp with rfl | rfl
    · exact ⟨hat 128 (by norm_num) ⟨140, by simp, by norm_num, by norm_num⟩, 0, by norm_num, h0⟩
    · exact ⟨hat 256 (by norm_num) ⟨310, by simp, by norm_num, by norm_num⟩, 0, by norm_num, h0⟩
  · rw [hp]
    intro b hb
    simp only [exampleJoined, Experience.allBands, List.flatMap_cons, List.flatMap_nil, List.append_nil,
      List.mem_cons, List.not_mem_nil, or_false] at hb
    subst hb
    decide
  · rw [hp]
    exact ⟨rfl, by simp [exampleJoined], by simp [exampleJoined]⟩

/-- Non-vacuity: the hypotheses of `c103_join_partial`, `c103_points_partial` and `c57_sync_partial` are met. -/
example : ∃ h : Experience, h.syncs.map (·.timestamp) = [0, 128, 256] ∧ h.Spaced ∧
    h.prune.assignIds.unsynced.StreamFits 128 ∧ h.prune.Identified ∧ h.prune.assignIds.Modest 128 ∧
    h.prune.assignIds.SyncsTimely 128 ∧ h.prune.Keyframed ∧ h.prune.Resendable :=
  ⟨_, rfl, exampleJoined_meets _ rfl⟩

end Haptics
