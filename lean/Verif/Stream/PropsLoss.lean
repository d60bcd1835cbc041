import Verif.Stream.LossLemmas
import Verif.Stream.PropsJoin

/-
C106: a receiver that loses units of a stream.
-/
namespace Haptics

theorem smallPackets_filter {out : List Bits} (h : SmallPackets (out.map (writePacket PacketType.Data))) (p : Bits → Bool) :
    SmallPackets ((out.filter p).map (writePacket PacketType.Data)) := by
  refine ⟨fun x hx => h.each x ?_, lt_of_le_of_lt ?_ h.total⟩
  · obtain ⟨y, hy, rfl⟩ := List.mem_map.mp hx
    exact List.mem_map_of_mem (List.mem_of_mem_filter hy)
  · rw [List.length_flatten, List.length_flatten]
    exact ((List.filter_sublist.map _).map _).sum_le_sum (fun _ _ => Nat.zero_le _)

/-- **C106 (partial)** A receiver that loses units of a stream – it gets the units for which `got` is true – gets the
experience at the times of the units that arrive, if after a loss nothing arrives until the next sync point: the whole
description, exactly what happens at those times, at the right times, and the sync points that arrive.
Missing: what is received after a loss before the next sync point, which is placed too early (`c106_early_negation`);
wavelet bands, whose blocks are placed one after the other (`c106_wavelet_negation`); references that start together with
a packet (see `c19_reference_negation`); experiences that cannot be described twice (C36), unless only one
initialization unit arrives; otherwise the conditions of `c57_streamed_partial`. -/
theorem c106_loss_partial (h : Experience) (d : Nat) (hd : 0 < d) (hd2 : d < 2 ^ 24) (hs : h.Spaced)
    (hf : h.prune.assignIds.unsynced.StreamFits d) (hi : h.prune.Identified) (hm : h.prune.assignIds.Modest d)
    (hkey : h.prune.Keyframed) (ho : h.prune.assignIds.OffGrid d) :
    ∃ (units : List Bits) (later : List Frame) (init : Nat → Bits),
      writeStream h d = .ok (writeBitset units.flatten) ∧ (∀ u ∈ units, IsUnit u) ∧
      List.Forall₂ (Frame.IsEncoded d 0 init) (.sync 0 :: later) units ∧
      (∀ t, unitTypeOf (init t) = UnitType.Initialization) ∧ InTime d (.sync 0 :: later) 0 ∧
      (syncTimes later).map (fun t : Nat => (t : Int)) <+: (h.syncs.drop 1).map (·.timestamp) ∧
      ∀ got : List Bool, got.length = units.length → true ∈ got → Resumes true got (.sync 0 :: later) →
        (h.prune.Resendable ∨ (syncTimes (arrived got (.sync 0 :: later))).length ≤ 1) →
        readStream (writeBitset (arrived got units).flatten) = .ok (true, some
          ((h.prune.assignIds.during (heardAt d got (.sync 0 :: later) 0)).receivedWith
            ((syncTimes (arrived got (.sync 0 :: later))).map h.syncAt))) := by
  obtain ⟨ip, out, ops, later, units, ⟨hf, hinit, hwb, hstr, htsc, hip, hsi, hw2, hw3, hw4, hsd, htime, hslots, hu, henc,
    hin, hcont, hsync, hclk, hunits⟩, -⟩ := streamed h d hd hd2 hs hf hi hm
  refine ⟨units, later, _, ?_, hunits, henc, fun t => unitTypeOf_header _ (by decide) _ _ _ _ _, hin, hsync, ?_⟩
  · unfold writeStream
    rw [hu]
  intro got hlen hmem hgot hres
  have hlen : got.length = (Frame.sync 0 :: later).length := by rw [hlen, henc.length_eq]
  have hcont : (Frame.sync 0 :: later).flatMap Frame.content = out.map splitPacket := hcont
  have hclk : clockAfter d (Frame.sync 0 :: later) 0 ≤ 2 ^ 24 + d := hclk
  have hslot : ∀ t bodies, Frame.data t bodies ∈ (Frame.sync 0 :: later) →
      ((bodies.map dataPacket).flatMap Packet.encode).length / 8 < 2 ^ 28 := fun t bodies hm => slot_size hslots hcont hm
  generalize (Frame.sync 0 :: later) = frames at *
  have e1 : h.syncAt = h.prune.assignIds.unsynced.syncAt := by
    funext u
    unfold Experience.syncAt
    rw [htsc]
  have hkey : h.prune.assignIds.unsynced.Keyframed := keyframed_assignIds hkey
  have ho : h.prune.assignIds.unsynced.OffGrid d := ho
  have e2 : ∀ live ss, (h.prune.assignIds.during live).receivedWith ss =
      (h.prune.assignIds.unsynced.during live).receivedWith ss := fun _ _ => rfl
  rw [e1, e2]
  generalize h.prune.assignIds.unsynced = sent at *
  generalize hlive : heardAt d got frames 0 = live
  have hkb : ∀ x ∈ bandsOf sent, x.band.bandType ≠ BandType.WaveletWave := by
    intro x hx
    have : x.band ∈ (bandsOf sent).map (·.band) := List.mem_map_of_mem hx
    rw [bandsOf_flat] at this
    exact hkey _ this
  -- the packets that arrive, and what they are sent for
  have hso : List.Forall₂ SentFor (out.filter (fun x => live (splitPacket x).1)) (ops.filter (fun o => live o.2.1)) := by
    refine forall₂_filter hw2 fun x o hxo hom => ?_
    rw [(htime x o hxo hom).2.1]
  have hwhole : ∀ o ∈ allSendings d (bandsOf sent), (∀ x, o.2.1 ≤ x → x < o.2.1 + d → live x = false) ∨
      ∀ x, o.2.1 ≤ x → x < o.2.1 + d → live x = true := by
    intro o hom
    have hom := hw3.mem_iff.2 hom
    obtain ⟨x, hx, hxo⟩ := forall₂_mem hw2.flip hom
    have := heard_whole got hin (splitPacket x) (by rw [hcont]; exact List.mem_map_of_mem hx)
    rw [(htime x o hxo hom).2.1, hlive] at this
    exact this
  have hcont' : (arrived got frames).flatMap Frame.content =
      (out.filter (fun x => live (splitPacket x).1)).map splitPacket := by
    rw [← heard_content hd got hlen hin, hcont, List.filter_map, hlive]
    rfl
  have hf' := StreamFits.during_offGrid hf hkey ho live
  have hsd' := smallPackets_filter hsd (fun x => live (splitPacket x).1)
  generalize hops : (ops.filter (fun o => live o.2.1)).map (fun o => (o.1.during live, o.2)) = ops'
  have hso' : List.Forall₂ SentFor (out.filter (fun x => live (splitPacket x).1)) ops' := by
    rw [← hops, List.forall₂_map_right_iff]
    exact hso.imp fun x o hxo => hxo
  have hperm' : ops'.Perm (allSendings d (bandsOf (sent.during live))) := by
    rw [← hops, during_bandsOf, allSendings_during hkb hwhole]
    exact (hw3.filter _).map _
  have hsorted' : ops'.Pairwise (fun a b => a.2.1 ≤ b.2.1) := by
    rw [← hops, List.pairwise_map]
    exact hw4.filter _
  have hwb' : ∀ old, (sent.during live).withBands old = h.prune.withBands old :=
    fun old => (during_withBands _ _ _).trans (hwb old)
  have hstr' : (sent.during live).streams = h.prune.streams := (during_streams _ _).trans hstr
  have htsc' : (sent.during live).timescale = h.timescale := htsc
  have e3 : sent.syncAt = (sent.during live).syncAt := rfl
  rw [e3]
  have hsched := scheduled (bandsOf_fits hf') hso' (fun o hom => hperm'.mem_iff.1 hom) hsorted' hsd'
  obtain ⟨r', hr, hk⟩ := read_first hd hd2 hs hinit hip hsi hf' hwb' hstr' htsc' hso' hperm' hsorted' hsched.fits
    (arrived got units) henc got 0 {} ⟨rfl, rfl, rfl, rfl, rfl⟩ hlen hmem hres hgot hin (by omega) hslot
    (by rw [hcont'])
  rw [hcont'] at hk
  unfold readStream readFile
  rw [c14_split _ (fun u hum => hunits u (arrived_mem hum))]
  dsimp only
  rw [hr]
  dsimp only
  congr 3
  exact hk.received hd hf' (by rw [htsc']) hso' hperm' hsorted'

/-- What a receiver makes of the units of a stream that arrive. -/
def receivedOf (h : Experience) (d : Nat) (got : List Bool) : Option Experience :=
  match writeUnits h d with
  | .error _ => none
  | .ok units => match readUnits dispatch (arrived got units) (arrived got units) {} with
    | .error _ => none
    | .ok x => some x.2.haptic

/-- The identifiers and event times of the effects of an experience. -/
def eventsOf (h : Experience) : List (List (Int × List Int)) :=
  h.allBands.map (fun b => b.effects.map (fun e => (e.id, e.eventTimes)))

/-- **C106, negation.** If the unit with the second keyframe of the first effect is lost and the next one is not, the
second effect is played at 187 instead of 315: all that follows a loss is early by the time that was lost, and nothing
tells the receiver so. -/
theorem c106_early_negation :
    unitTypes (exampleJoined [{ timestamp := 0 }]) 128 =
      [UnitType.Initialization, UnitType.Temporal, UnitType.Temporal, UnitType.Temporal] ∧
    (receivedOf (exampleJoined [{ timestamp := 0 }]) 128 [true, true, true, true]).map eventsOf =
      some [[(3, [10, 140, 310]), (4, [315])]] ∧
    (receivedOf (exampleJoined [{ timestamp := 0 }]) 128 [true, true, false, true]).map eventsOf =
      some [[(3, [10, 310]), (4, [187])]] := by
  refine ⟨by decide +kernel, by decide +kernel, by decide +kernel⟩

/-- **C106, negation.** If the second of three blocks of a wavelet band is lost, the third is placed at 128 instead of 256,
although the initialization unit before it says that it is time 256. -/
theorem c106_wavelet_negation :
    (unitTypes exampleJoinedWavelet 128 = [UnitType.Initialization, UnitType.Temporal, UnitType.Temporal,
      UnitType.Initialization, UnitType.Temporal]) ∧
    (receivedOf exampleJoinedWavelet 128 [true, true, true, true, true]).map (fun e => e.allBands.map (fun b =>
      b.effects.map (fun e => (e.id, e.position)))) = some [[(6, 0), (7, 128), (8, 256)]] ∧
    (receivedOf exampleJoinedWavelet 128 [true, true, false, true, true]).map (fun e => e.allBands.map (fun b =>
      b.effects.map (fun e => (e.id, e.position)))) = some [[(6, 0), (8, 128)]] := by
  refine ⟨by decide +kernel, by decide +kernel, by decide +kernel⟩

/-- Non-vacuity: the hypotheses of `c106_loss_partial` are met. -/
example : ∃ h : Experience, h.syncs.map (·.timestamp) = [0, 128, 256] ∧ h.Spaced ∧
    h.prune.assignIds.unsynced.StreamFits 128 ∧ h.prune.Identified ∧ h.prune.assignIds.Modest 128 ∧ h.prune.Keyframed ∧
    h.prune.assignIds.OffGrid 128 ∧ h.prune.Resendable := by
  obtain ⟨h1, h2, h3, h4, -, h5, h6⟩ := exampleJoined_meets _ rfl
  refine ⟨exampleJoined _, rfl, h1, h2, h3, h4, h5, ?_, h6⟩
  intro b hb e he ht
  have ha : ∀ s, (exampleJoined s).prune.assignIds = exampleJoined s := fun s => rfl
  rw [ha] at hb
  simp only [exampleJoined, Experience.allBands, List.flatMap_cons, List.flatMap_nil, List.append_nil,
    List.mem_cons, List.not_mem_nil, or_false] at hb
  subst hb
  simp only [List.mem_cons, List.not_mem_nil, or_false] at he
  rcases he with rfl | rfl <;> cases ht

/-- … and its units: here the second temporal unit is lost, what follows the next sync point is not, and the receiver
gets all but the keyframe at 140. -/
example : Resumes true [true, true, true, false, true, true]
      [.sync 0, .data 0 [[]], .sync 128, .data 128 [[]], .sync 256, .data 256 [[]]] ∧
    (receivedOf (exampleJoined [{ timestamp := 0 }, { timestamp := 128 }, { timestamp := 256 }]) 128
      [true, true, true, false, true, true]).map eventsOf = some [[(3, [10, 310]), (4, [315])]] ∧
    eventsOf ((exampleJoined []).during (heardAt 128 [true, true, true, false, true, true]
      [.sync 0, .data 0 [[]], .sync 128, .data 128 [[]], .sync 256, .data 256 [[]]] 0)) = [[(3, [10, 310]), (4, [315])]] := by
  refine ⟨by simp [Resumes, Frame.syncTime], by decide +kernel, by decide +kernel⟩

end Haptics
