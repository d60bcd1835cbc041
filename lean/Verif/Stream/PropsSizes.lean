import Verif.Stream.Sizes

/-
C57: an experience written to a stream and read back is the same experience.
-/
namespace Haptics

/-- The packets of an experience that sends what one of moderate size sends are small. -/
theorem modest_small_of (h : Experience) (d : Nat) (hs : h.Spaced) (sent : Experience)
    (hinit : h.prune.InitFits) (hf : sent.StreamFits d)
    (hwd : ∃ out ops, writeData d h.prune = .ok out ∧ List.Forall₂ SentFor out ops ∧
      ops.Perm (allSendings d (bandsOf sent)) ∧ ops.Pairwise (fun a b => a.2.1 ≤ b.2.1))
    (hv : ∀ p ∈ h.prune.perceptions, ∀ c ∈ p.channels, c.vertices.length ≤ 30000)
    (hl : ∀ p ∈ h.prune.perceptions, weightAll p.effectLibrary ≤ 9000)
    (hm : sent.Modest d) :
    ∀ ps, initPacketsOf h = .ok ps ∨ dataPackets d h.prune = .ok ps → SmallPackets ps := by
  obtain ⟨t1, t2, t3⟩ := prune_tidy h hs
  generalize hg : h.prune = g at *
  rintro ps (hps | hps)
  · obtain ⟨b, hb, hip⟩ := initPacketsOf_eq h g t1 t2 hinit
    rw [← Except.ok.inj (hip.symm.trans hps)]
    exact init_small hinit.header hinit.perceptions hinit.channels hinit.count t3 hv hl hb
  · obtain ⟨out, ops, hw1, hw2, hw3, -⟩ := hwd
    have hdp : dataPackets d g = .ok (out.map (writePacket PacketType.Data)) := by
      unfold dataPackets; rw [hw1]; rfl
    rw [← Except.ok.inj (hdp.symm.trans hps)]
    have hbands : (bandsOf sent).map (·.band) = sent.allBands := bandsOf_flat _
    refine data_small hw2 hw3 (fun x hx => hm.dense x.band ?_) ?_ (fun x hx hbt e he => ?_) ?_
    · rw [← hbands]; exact List.mem_map_of_mem hx
    · have h1 := hm.events
      rw [← hbands] at h1
      simp only [List.flatMap_assoc, List.length_flatMap, List.map_map] at h1 ⊢
      exact h1
    · rcases (bandsOf_fits hf x hx).effects with hE | hB
      · exact absurd hbt (keyframeBand_ne hE.bandType)
      · obtain ⟨_, -, hw⟩ := hB.blocks
        exact hw.size e he
    · rw [hbands]
      exact hm.blocks

/-- The packets of an experience of moderate size are small. -/
theorem modest_small (h : Experience) (d : Nat) (hd : 0 < d) (hd2 : d < 2 ^ 24) (hs : h.Spaced)
    (hf : h.prune.assignIds.StreamFits d) (hi : h.prune.Identified)
    (hm : h.prune.assignIds.Modest d) :
    ∀ ps, initPacketsOf h = .ok ps ∨ dataPackets d h.prune = .ok ps → SmallPackets ps := by
  refine modest_small_of h d hs _ (assignIds_initFits hf) hf
    (writeData_spec _ d hd hd2 _ (getEffectsId_nonneg hf hi) (bandsOf_fits hf)) ?_ ?_ hm
  · intro p hp c hc
    obtain ⟨s, hs1⟩ := mapAccum_mem Perception.assignIds hp (getEffectsId h.prune)
    obtain ⟨s', hs2⟩ := mapAccum_mem Channel.assignIds hc s
    have := hm.vertices _ hs1 _ hs2
    exact this
  · intro p hp
    obtain ⟨s, hs1⟩ := mapAccum_mem Perception.assignIds hp (getEffectsId h.prune)
    have := hm.libraries _ hs1
    exact this

/-- **C57 (partial)** An experience written to a stream and read back is the same experience – without the
components that have nothing to play, with an identifier for every effect, and with all values as the
metadata and data packets carry them.  A wavelet band must have one block per packet and the timescale as its sample
rate; its blocks get new identifiers.
Missing: experiences in which neighbouring components are empty (`c37_negation`); sync points after the
start; effects that overlap in time (`c19_overlap_negation`) or start at the wrong place
(`c19_reference_negation`), composite effects (`c57_composite_partial`), wavelet bands with other
blocks (`c58_negation`, `c58_diverge_negation`, `c58_position_negation`), the spatial modalities; channel identifiers
that are used in two perceptions (`c35_negation`). -/
theorem c57_streamed_partial (h : Experience) (d : Nat) (hd : 0 < d) (hd2 : d < 2 ^ 24) (hs : h.Spaced)
    (hf : h.prune.assignIds.StreamFits d) (hi : h.prune.Identified)
    (hm : h.prune.assignIds.Modest d) :
    ∃ file, writeStream h d = .ok file ∧
      readStream file = .ok (true, some h.prune.assignIds.receivedStream) :=
  streamed_small h d hd hd2 hs hf hi (modest_small h d hd hd2 hs hf hi hm)

theorem eventsIn_small {es : List Effect} {n : Nat} (h : (es.flatMap Effect.eventTimes).length ≤ n) (a b : Int) :
    eventsIn a b es ≤ n :=
  (eventsIn_le es a b).trans h

/-- Non-vacuity: the hypotheses of `c57_streamed_partial` are met. -/
example : exampleStreamed.Spaced ∧ exampleStreamed.prune.assignIds.StreamFits 128 ∧
    exampleStreamed.prune.Identified ∧ exampleStreamed.prune.assignIds.Modest 128 := by
  obtain ⟨h1, h2, h3⟩ := exampleStreamed_fits
  refine ⟨h1, h2, ?_, ?_⟩
  · intro b hb ht e he
    have := List.all_eq_true.mp (show exampleStreamed.prune.allBands.all
      (fun b => b.effects.all (fun e => decide (-1 ≤ e.id))) = true by decide +kernel) b hb
    exact of_decide_eq_true (List.all_eq_true.mp this e he)
  rw [h3]
  have e : exampleAssigned.allBands.all (fun b => (b.effects.flatMap Effect.eventTimes).length ≤ 7000) = true := by
    decide +kernel
  refine ⟨?_, ?_, fun b hb t => eventsIn_small (of_decide_eq_true (List.all_eq_true.mp e b hb)) _ _, by decide +kernel,
    by decide +kernel⟩
  · intro p hp c hc
    simp only [exampleAssigned, List.mem_cons, List.not_mem_nil, or_false] at hp
    rcases hp with rfl | rfl <;> simp only [List.mem_cons, List.not_mem_nil, or_false] at hc
    · rcases hc with rfl | rfl <;> exact Nat.zero_le _
    · subst hc; exact Nat.zero_le _
  · intro p hp
    simp only [exampleAssigned, List.mem_cons, List.not_mem_nil, or_false] at hp
    rcases hp with rfl | rfl <;> exact Nat.zero_le _

end Haptics
