import Verif.Stream.SpecRepeat
import Verif.Stream.PropsLoss

/-
C120: the description of a stream may be repeated at any time.
-/
namespace Haptics

theorem content_withoutSyncs : ∀ frames : List Frame, (withoutSyncs frames).flatMap Frame.content = frames.flatMap Frame.content
  | [] => rfl
  | .sync t :: fs => by
    have := content_withoutSyncs fs
    rw [List.flatMap_cons, ← this]
    rfl
  | .data t bodies :: fs => by
    have := content_withoutSyncs fs
    rw [List.flatMap_cons, ← this]
    rfl
  | .silence n :: fs => by
    have := content_withoutSyncs fs
    rw [List.flatMap_cons, ← this]
    rfl

theorem clockAfter_withoutSyncs (d : Nat) : ∀ (frames : List Frame) (c : Nat), clockAfter d (withoutSyncs frames) c = clockAfter d frames c
  | [], _ => rfl
  | .sync _ :: fs, c => clockAfter_withoutSyncs d fs c
  | .data _ _ :: fs, c => clockAfter_withoutSyncs d fs (c + d)
  | .silence n :: fs, c => clockAfter_withoutSyncs d fs (c + n)

theorem arrived_all {α : Type} : ∀ l : List α, arrived (List.replicate l.length true) l = l
  | [] => rfl
  | x :: l => by
    show x :: arrived (List.replicate l.length true) l = _
    rw [arrived_all l]

theorem resumes_all : ∀ frames : List Frame, Resumes false (List.replicate frames.length true) frames
  | [] => trivial
  | f :: fs => ⟨fun h => (by cases h), resumes_all fs⟩

/-- **C120 (partial).** The description of a stream, with the time that it is, may be sent between any two units, any number of times, or not at all but at the
beginning: a receiver gets the same experience, and as many sync points as there are descriptions.  Missing: experiences that cannot be described twice (C36); units that
arrive twice and descriptions with another time, which displace what follows (`c120_unit_negation`, `c120_stale_negation`); otherwise the conditions of
`c57_streamed_partial`. -/
theorem c120_repeat_partial (h : Experience) (d : Nat) (hd : 0 < d) (hd2 : d < 2 ^ 24) (hs : h.Spaced)
    (hf : h.prune.assignIds.unsynced.StreamFits d) (hi : h.prune.Identified) (hm : h.prune.assignIds.Modest d) (hres : h.prune.Resendable) :
    ∃ (units : List Bits) (later : List Frame) (init : Nat → Bits),
      writeStream h d = .ok (writeBitset units.flatten) ∧
      List.Forall₂ (Frame.IsEncoded d 0 init) (.sync 0 :: later) units ∧
      (∀ t, unitTypeOf (init t) = UnitType.Initialization) ∧ InTime d (.sync 0 :: later) 0 ∧
      ∀ (others : List Frame) (sent : List Bits), withoutSyncs others = withoutSyncs later → InTime d (.sync 0 :: others) 0 →
        List.Forall₂ (Frame.IsEncoded d 0 init) (.sync 0 :: others) sent →
        readStream (writeBitset sent.flatten) = .ok (true, some
          (h.prune.assignIds.receivedWith ((syncTimes (.sync 0 :: others)).map h.syncAt))) := by
  obtain ⟨ip, out, ops, later, units, ⟨hf, hinit, hwb, hstr, htsc, hip, hsi, hw2, hw3, hw4, hsd, htime, hslots, hu, henc,
    hin, hcont, hsync, hclk, hunits⟩, -⟩ := streamed h d hd hd2 hs hf hi hm
  refine ⟨units, later, _, ?_, henc, fun t => unitTypeOf_header _ (by decide) _ _ _ _ _, hin, ?_⟩
  · unfold writeStream
    rw [hu]
  intro others us hsame hin' henc'
  have hcont' : (Frame.sync 0 :: others).flatMap Frame.content = out.map splitPacket := by
    show others.flatMap Frame.content = _
    rw [← hcont, ← content_withoutSyncs others, hsame, content_withoutSyncs]
  have hclk' : clockAfter d (Frame.sync 0 :: others) 0 ≤ 2 ^ 24 + d := by
    show clockAfter d others 0 ≤ _
    rw [← clockAfter_withoutSyncs, hsame, clockAfter_withoutSyncs]
    exact hclk
  have hslot : ∀ t bodies, Frame.data t bodies ∈ (Frame.sync 0 :: others) →
      ((bodies.map dataPacket).flatMap Packet.encode).length / 8 < 2 ^ 28 := fun t bodies hm => slot_size hslots hcont' hm
  have hinits : ∀ t : Nat, IsUnit (writeInitializationUnit { time := t, timescale := h.timescale.getD 1000, packetDuration := d } ip) := by
    intro t
    obtain ⟨t1, t2, -⟩ := prune_tidy h hs
    obtain ⟨b, -, hip'⟩ := initPacketsOf_eq h h.prune t1 t2 hinit
    have hip2 := Except.ok.inj (hip.symm.trans hip')
    rw [hip2] at hsi ⊢
    refine c14_initialization_is_unit _ _ (metadataPackets_wf hsi) ?_
    have := hsi.total
    rw [← List.flatMap_def] at this
    omega
  have hunits' : ∀ u ∈ us, IsUnit u := by
    intro u hu'
    obtain ⟨f, hfm, hfu⟩ := forall₂_mem henc'.flip hu'
    refine isUnit_of_frame hinits ?_ hfu
    intro t bodies hft
    rw [hft] at hfm
    exact hslot t bodies hfm
  have e1 : h.syncAt = h.prune.assignIds.unsynced.syncAt := by
    funext u
    unfold Experience.syncAt
    rw [htsc]
  have e2 : ∀ ss, h.prune.assignIds.receivedWith ss = h.prune.assignIds.unsynced.receivedWith ss := fun _ => rfl
  rw [e1, e2]
  generalize h.prune.assignIds.unsynced = sent at *
  have hsched := scheduled (bandsOf_fits hf) hw2 (fun o hom => hw3.mem_iff.1 hom) hw4 hsd
  have hall := arrived_all (Frame.sync 0 :: others)
  have hall' : arrived (List.replicate (Frame.sync 0 :: others).length true) us = us := by
    rw [henc'.length_eq]
    exact arrived_all us
  obtain ⟨r', hr, hk⟩ := read_first hd hd2 hs hinit hip hsi hf hwb hstr htsc hw2 hw3 hw4 hsched.fits us henc'
    (List.replicate (Frame.sync 0 :: others).length true) 0 {} ⟨rfl, rfl, rfl, rfl, rfl⟩ List.length_replicate (by simp) (.inl hres)
    ⟨fun _ _ => ⟨0, rfl⟩, resumes_all others⟩ hin' (by omega) hslot (by rw [hall, hcont'])
  rw [hall, hcont'] at hk
  rw [hall'] at hr
  unfold readStream readFile
  rw [c14_split _ hunits']
  dsimp only
  rw [hr]
  dsimp only
  congr 3
  exact hk.received hd hf (by rw [htsc]) hw2 hw3 hw4

/-- What a receiver makes of the units of a stream with the numbers `ks`, in that order. -/
def receivedInOrder (h : Experience) (d : Nat) (ks : List Nat) : Option Experience :=
  match writeUnits h d with
  | .error _ => none
  | .ok units => match readUnits dispatch (ks.filterMap (units[·]?)) (ks.filterMap (units[·]?)) {} with
    | .error _ => none
    | .ok x => some x.2.haptic

/-- **C120, negation.** If the unit with the first keyframe arrives twice, the keyframe is there twice, and the second effect is played at 443 instead of 315: all that
follows is late by the duration of the unit. -/
theorem c120_unit_negation :
    (receivedInOrder (exampleJoined [{ timestamp := 0 }]) 128 [0, 1, 2, 3]).map eventsOf = some [[(3, [10, 140, 310]), (4, [315])]] ∧
    (receivedInOrder (exampleJoined [{ timestamp := 0 }]) 128 [0, 1, 1, 2, 3]).map eventsOf = some [[(3, [10, 10, 140, 310]), (4, [443])]] := by
  refine ⟨by decide +kernel, by decide +kernel⟩

/-- **C120, negation.** If the initialization unit arrives a second time after the first keyframe, the clock of the receiver is set back: the second effect is played at 187
instead of 315. -/
theorem c120_stale_negation :
    (receivedInOrder (exampleJoined [{ timestamp := 0 }]) 128 [0, 1, 0, 2, 3]).map eventsOf = some [[(3, [10, 140, 310]), (4, [187])]] := by
  decide +kernel

/-- **C120, negation.** If two units arrive in the wrong order, the keyframes of an effect are not in the order of time, and the second effect is played at 187 instead of
315. -/
theorem c120_order_negation :
    (receivedInOrder (exampleJoined [{ timestamp := 0 }]) 128 [0, 1, 3, 2]).map eventsOf = some [[(3, [10, 310, 140]), (4, [187])]] := by
  decide +kernel

/-- Non-vacuity of `c120_repeat_partial`. -/
example : ∃ h : Experience, h.Spaced ∧ h.prune.assignIds.unsynced.StreamFits 128 ∧ h.prune.Identified ∧ h.prune.assignIds.Modest 128 ∧
    h.prune.Resendable ∧ unitTypes h 128 = [UnitType.Initialization, UnitType.Temporal, UnitType.Initialization,
      UnitType.Temporal, UnitType.Initialization, UnitType.Temporal] := by
  obtain ⟨h1, h2, h3, h4, -, -, h6⟩ := exampleJoined_meets _ rfl
  exact ⟨exampleJoined _, h1, h2, h3, h4, h6, by decide +kernel⟩

/-- … and of its frames: the description is sent twice at the beginning and once more after each unit. -/
example : withoutSyncs [.sync 0, .data 0 [[]], .sync 128, .silence 128, .sync 256, .data 256 [[]], .sync 384] =
      withoutSyncs [.data 0 [[]], .silence 128, .data 256 [[]]] ∧
    InTime 128 [.sync 0, .sync 0, .data 0 [[]], .sync 128, .silence 128, .sync 256, .data 256 [[]], .sync 384] 0 := by
  refine ⟨rfl, ?_⟩
  simp [InTime, Frame.DueAt, Frame.next]

end Haptics
