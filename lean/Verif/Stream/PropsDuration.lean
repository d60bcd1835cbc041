import Verif.Stream.SpecDuration
import Verif.Stream.PropsJoin

/-
C116: the duration of the packets does not change what is received.
-/
namespace Haptics

/-- What fits into packets of one duration fits into packets of any other, if it is not tied to them. -/
theorem untied_fits {h : Experience} {d : Nat} (d' : Nat) (hu : h.Untied) (hf : h.StreamFits d) : h.StreamFits d' := by
  refine ⟨hf.header, hf.timescale, hf.syncs, ?_, hf.perceptionIds, hf.channelIds, hf.bandCount⟩
  intro p hp
  have fp := hf.perceptions p hp
  refine ⟨fp.header, fp.modality, fp.libraryCount, fp.library, ?_⟩
  intro c hc
  have fc := fp.channels c hc
  refine ⟨fc.header, ?_⟩
  intro b hb
  obtain ⟨u1, u2⟩ := hu b (List.mem_flatMap.2 ⟨p, hp, List.mem_flatMap.2 ⟨c, hc, hb⟩⟩)
  refine ⟨(fc.bands b hb).1, ?_⟩
  rcases (fc.bands b hb).2 with fb | fb
  · exact .inl ⟨fb.bandType, fb.sequential, fb.distinct, fb.sendable, fb.events, fb.count,
      fun e he hr => absurd hr (u2 e (List.mem_of_getLast? he))⟩
  · exact absurd fb.bandType u1

/-- An experience with few events is of moderate size for all durations. -/
theorem modest_of_few {h : Experience} {d : Nat} (d' : Nat) (hm : h.Modest d)
    (hf : ∀ b ∈ h.allBands, (b.effects.flatMap Effect.eventTimes).length ≤ 7000) : h.Modest d' :=
  ⟨hm.vertices, hm.libraries, fun b hb _ => eventsIn_small (hf b hb) _ _, hm.events, hm.blocks⟩

/-- **C116 (partial)** An experience that can be streamed with packets of one duration can be streamed with packets of any
other, and what is received is the same.
Missing: wavelet bands, whose blocks must be as long as a packet (`c116_wavelet_negation`), references
(`c116_reference_negation`), sync points after the start (`c116_sync_partial`), and the conditions of
`c57_streamed_partial`. -/
theorem c116_duration_partial (h : Experience) (d d' : Nat) (hd : 0 < d) (hd2 : d < 2 ^ 24) (hd' : 0 < d')
    (hd2' : d' < 2 ^ 24) (hs : h.Spaced) (hf : h.prune.assignIds.StreamFits d) (hu : h.prune.assignIds.Untied)
    (hi : h.prune.Identified) (hm : h.prune.assignIds.Modest d) (hm' : h.prune.assignIds.Modest d') :
    ∃ file file' x, writeStream h d = .ok file ∧ writeStream h d' = .ok file' ∧
      readStream file = .ok (true, some x) ∧ readStream file' = .ok (true, some x) := by
  obtain ⟨file, w, r⟩ := c57_streamed_partial h d hd hd2 hs hf hi hm
  obtain ⟨file', w', r'⟩ := c57_streamed_partial h d' hd' hd2' hs (untied_fits d' hu hf) hi hm'
  exact ⟨file, file', _, w, w', r, r'⟩

/-- **C116 (partial)** The same with sync points that are timely for both durations.
Missing: sync points that are not (`c116_sync_negation`), and the conditions of `c57_sync_partial`. -/
theorem c116_sync_partial (h : Experience) (d d' : Nat) (hd : 0 < d) (hd2 : d < 2 ^ 24) (hd' : 0 < d')
    (hd2' : d' < 2 ^ 24) (hs : h.Spaced) (hf : h.prune.assignIds.unsynced.StreamFits d) (hu : h.prune.assignIds.Untied)
    (hi : h.prune.Identified) (hm : h.prune.assignIds.Modest d) (hm' : h.prune.assignIds.Modest d')
    (hres : h.prune.Resendable) (ht : h.prune.assignIds.SyncsTimely d) (ht' : h.prune.assignIds.SyncsTimely d') :
    ∃ file file' x, writeStream h d = .ok file ∧ writeStream h d' = .ok file' ∧
      readStream file = .ok (true, some x) ∧ readStream file' = .ok (true, some x) := by
  obtain ⟨file, times, w, r, -, e⟩ := c57_sync_partial h d hd hd2 hs hf hi hm hres
  obtain ⟨file', times', w', r', -, e'⟩ := c57_sync_partial h d' hd' hd2' hs
    (untied_fits (h := h.prune.assignIds.unsynced) d' hu hf) hi hm' hres
  have : times = times' :=
    List.map_injective_iff.mpr (fun a b hab => Int.ofNat.inj hab) ((e ht).trans (e' ht').symm)
  subst this
  exact ⟨file, file', _, w, w', r, r'⟩

/-- The effects a receiver makes of all units of a stream, each with its position. -/
def receivedEffects (h : Experience) (d : Nat) : Option (List (List (Int × Int))) :=
  (joinedAt h d 0).map (fun e => e.allBands.map (fun b => b.effects.map (fun e => (e.id, e.position))))

/-- **C116, negation.** With packets of 128 or 64 ticks the sync points at 128 and 256 are received, with packets of 100
ticks they are not: the effects are the same. -/
theorem c116_sync_negation :
    (joinedAt (exampleJoined [{ timestamp := 0 }, { timestamp := 128 }, { timestamp := 256 }]) 128 0).map
      (fun e => e.syncs.map (·.timestamp)) = some [0, 128, 256] ∧
    (joinedAt (exampleJoined [{ timestamp := 0 }, { timestamp := 128 }, { timestamp := 256 }]) 64 0).map
      (fun e => e.syncs.map (·.timestamp)) = some [0, 128, 256] ∧
    (joinedAt (exampleJoined [{ timestamp := 0 }, { timestamp := 128 }, { timestamp := 256 }]) 100 0).map
      (fun e => e.syncs.map (·.timestamp)) = some [0] ∧
    receivedEffects (exampleJoined [{ timestamp := 0 }, { timestamp := 128 }, { timestamp := 256 }]) 100 =
      receivedEffects (exampleJoined [{ timestamp := 0 }, { timestamp := 128 }, { timestamp := 256 }]) 128 := by
  refine ⟨by decide +kernel, by decide +kernel, by decide +kernel, by decide +kernel⟩

/-- An effect and a reference at time 128. -/
def exampleTied : Experience :=
  { perceptions := [{ id := 1, avatarId := 1
                      channels := [{ id := 7, bands := [{ effects := [
                        { id := 3, position := 10, keyframes := [{ relativePosition := some 0 }] },
                        { id := 5, position := 128, effectType := EffectType.Reference }] }] }] }] }

/-- **C116, negation.** A reference at time 128 is received if packets have 100 ticks, and lost if they have 128. -/
theorem c116_reference_negation :
    receivedEffects exampleTied 100 = some [[(3, 10), (5, 128)]] ∧
    receivedEffects exampleTied 128 = some [[(3, 10)]] := by
  refine ⟨by decide +kernel, by decide +kernel⟩

/-- **C116, negation.** The three blocks of a wavelet band with blocks of 128 samples are received if packets have 128
ticks; the last one is lost if they have 256, and the sender never ends if they have 64
(`c58_diverge_negation`). -/
theorem c116_wavelet_negation :
    receivedEffects exampleJoinedWavelet 128 = some [[(6, 0), (7, 128), (8, 256)]] ∧
    receivedEffects exampleJoinedWavelet 256 = some [[(6, 0), (7, 128)]] ∧
    writeUnits exampleJoinedWavelet 64 = .error .diverge := by
  refine ⟨by decide +kernel, by decide +kernel, ?_⟩
  have e : (match writeUnits exampleJoinedWavelet 64 with | .error .diverge => true | _ => false) = true := by
    decide +kernel
  generalize writeUnits exampleJoinedWavelet 64 = q at e ⊢
  rcases q with (_ | _ | _ | _) | _ <;> simp_all

/-- The example meets the hypotheses of `c116_sync_partial` for packets of 128 and of 64 ticks. -/
theorem exampleJoined_untied (syncs : List Sync)
    (hs : [({ timestamp := 0 } : Sync), { timestamp := 128 }, { timestamp := 256 }] = syncs) :
    (exampleJoined syncs).prune.assignIds.Untied ∧ (exampleJoined syncs).prune.assignIds.Modest 64 ∧
    (exampleJoined syncs).prune.assignIds.SyncsTimely 64 := by
  have ha : (exampleJoined syncs).prune.assignIds = exampleJoined syncs := by rw [← hs]; rfl
  have hm := (exampleJoined_meets syncs hs).2.2.2.1
  rw [ha] at hm ⊢
  refine ⟨?_, modest_of_few 64 hm ?_, ?_⟩
  · intro b hb
    simp only [exampleJoined, Experience.allBands, List.flatMap_cons, List.flatMap_nil, List.append_nil,
      List.mem_cons, List.not_mem_nil, or_false] at hb
    subst hb
    refine ⟨by decide, ?_⟩
    intro e he
    simp only [List.mem_cons, List.not_mem_nil, or_false] at he
    rcases he with rfl | rfl <;> decide
  · intro b hb
    simp only [exampleJoined, Experience.allBands, List.flatMap_cons, List.flatMap_nil, List.append_nil,
      List.mem_cons, List.not_mem_nil, or_false] at hb
    subst hb
    decide +kernel
  · have hat : ∀ t : Int, (64 : Int) ∣ t → (∃ x ∈ [(10 : Int), 140, 310], t ≤ x ∧ x < t + 64) →
        (exampleJoined syncs).SendsAt 64 t := by
      intro t h1 ⟨x, h2, h3⟩
      refine ⟨_, List.mem_flatMap.2 ⟨_, List.mem_singleton.2 rfl, List.mem_flatMap.2 ⟨_, List.mem_singleton.2 rfl,
        List.mem_singleton.2 rfl⟩⟩, ?_⟩
      rw [if_neg (by decide)]
      refine ⟨h1, ?_⟩
      simp only [List.mem_cons, List.not_mem_nil, or_false] at h2
      rcases h2 with h2 | h2 | h2 <;> exact ⟨_, List.mem_cons_self .., x, by rw [h2]; decide +kernel, h3⟩
    have e : (exampleJoined syncs).syncs = syncs := rfl
    rw [Experience.SyncsTimely, e, ← hs]
    rw [← hs] at hat
    refine ⟨by simp, ?_⟩
    intro p hp
    simp only [List.drop_succ_cons, List.drop_zero, List.mem_cons, List.not_mem_nil, or_false] at hp
    have h0 := hat 0 (by norm_num) ⟨10, by simp, by norm_num, by norm_num⟩
    rcases hp with rfl | rfl
    · exact ⟨hat 128 (by norm_num) ⟨140, by simp, by norm_num, by norm_num⟩, 0, by norm_num, h0⟩
    · exact ⟨hat 256 (by norm_num) ⟨310, by simp, by norm_num, by norm_num⟩, 0, by norm_num, h0⟩

/-- Non-vacuity: the hypotheses of `c116_sync_partial` are met, with three sync points and two durations. -/
example : ∃ h : Experience, h.syncs.map (·.timestamp) = [0, 128, 256] ∧ h.Spaced ∧
    h.prune.assignIds.unsynced.StreamFits 128 ∧ h.prune.assignIds.Untied ∧ h.prune.Identified ∧
    h.prune.assignIds.Modest 128 ∧ h.prune.assignIds.Modest 64 ∧ h.prune.Resendable ∧
    h.prune.assignIds.SyncsTimely 128 ∧ h.prune.assignIds.SyncsTimely 64 := by
  obtain ⟨h1, h2, h3, h4, h5, -, h7⟩ := exampleJoined_meets _ rfl
  obtain ⟨u1, u2, u3⟩ := exampleJoined_untied _ rfl
  exact ⟨_, rfl, h1, h2, u1, h3, h4, u2, h7, h5, u3⟩

/-- Non-vacuity: the hypotheses of `c116_duration_partial` are met by the same experience without sync points, for packets
of 128 ticks and of any other duration. -/
example : ∃ h : Experience, h.allBands.length = 1 ∧ h.Spaced ∧ h.prune.assignIds.StreamFits 128 ∧
    h.prune.assignIds.Untied ∧ h.prune.Identified ∧ ∀ d, h.prune.assignIds.Modest d := by
  obtain ⟨h1, h2, h3, h4, -, -, -⟩ := exampleJoined_meets _ rfl
  obtain ⟨u1, -, -⟩ := exampleJoined_untied _ rfl
  refine ⟨exampleJoined [], rfl, ⟨h1.1, by simp [exampleJoined]⟩, h2, u1, h3, fun d => ?_⟩
  refine modest_of_few d (⟨h4.vertices, h4.libraries, h4.dense, h4.events, h4.blocks⟩) ?_
  intro b hb
  change b ∈ (exampleJoined []).allBands at hb
  simp only [exampleJoined, Experience.allBands, List.flatMap_cons, List.flatMap_nil, List.append_nil,
    List.mem_cons, List.not_mem_nil, or_false] at hb
  subst hb
  decide +kernel

end Haptics
