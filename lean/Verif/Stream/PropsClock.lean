import Verif.Stream.Writer
import Verif.Stream.SpecFrames
import Verif.Stream.PropsPacketize
import Verif.Stream.Reader

/-
C49: the receiver's clock follows the transmitter's.
-/
namespace Haptics

/-! ## The units the transmitter writes -/

/-- A data packet as the transmitter handles it: with its timestamp. -/
def timedPacket (x : Nat × Bits) : Bits :=
  writePacket PacketType.Data (writeNBits DB_DURATION (x.1 : Int) ++ x.2)

/-- A data packet fits: its time is an `int`, there is an effect header, and its size can be announced. -/
structure PacketFits (x : Nat × Bits) : Prop where
  time : x.1 < 2 ^ 31
  header : 48 < x.2.length
  size : (x.2.length + 7) / 8 < 2 ^ 17

theorem timedPacket_eq (x : Nat × Bits) : timedPacket x =
    writeMIHSPacketHeader PacketType.Data (writeNBits DB_DURATION (x.1 : Int) ++ x.2).length
      ++ (writeNBits DB_DURATION (x.1 : Int) ++ fillBitset x.2) := by
  rw [timedPacket, writePacket, padToByteBoundary_eq,
    fillBitset_append _ (by rw [writePacketHeader_length]), fillBitset_append _ (by simp [DB_DURATION])]

theorem readPacketTS_timedPacket (x : Nat × Bits) (h : PacketFits x) :
    readPacketTS ((timedPacket x).drop H_NBITS) = .ok (x.1 : Int) := by
  have h1 := h.time
  rw [timedPacket_eq, List.drop_append_of_le_length (by rw [writePacketHeader_length]),
    List.drop_of_length_le (by rw [writePacketHeader_length]), List.nil_append]
  unfold readPacketTS
  rw [if_neg (by simp), List.take_append_of_le_length (by simp), List.take_of_length_le (by simp),
    bitsVal_writeNBits_nat DB_DURATION x.1 (by simp only [DB_DURATION]; omega)]
  dsimp only
  rw [if_pos h1]

theorem readMIHSPacketType_timedPacket (x : Nat × Bits) :
    readMIHSPacketType (timedPacket x) = .ok PacketType.Data := by
  rw [timedPacket_eq]
  unfold readMIHSPacketType writeMIHSPacketHeader
  simp only [List.append_assoc]
  rw [readUInt_wn (n := H_MIHS_PACKET_TYPE) (v := PacketType.Data) (by decide)]
  rfl

theorem temporalStep_timed (a : TemporalAcc) (x : Nat × Bits) (h : PacketFits x) :
    temporalStep a (timedPacket x) = .ok { sync := a.sync && isRAU x.2, nbPacketData := a.nbPacketData + 1
                                           payload := a.payload ++ (dataPacket x.2).encode
                                           time := x.1 } := by
  obtain ⟨p, h1, h2, -⟩ := c13_data_header (writeNBits DB_DURATION (x.1 : Int)) x.2 (by simp) h.size
  have hT : timedPacket x = writePacket PacketType.Data (writeNBits DB_DURATION (x.1 : Int) ++ x.2) := rfl
  unfold temporalStep
  rw [readMIHSPacketType_timedPacket]
  dsimp only
  rw [if_pos rfl, hT, h1, ← hT, readPacketTS_timedPacket x h]
  dsimp only
  have hh := h.header
  have hb : p[H_NBITS]? = x.2[0]? := by
    rw [h2, Packet.encode, ← List.append_assoc, ← List.append_assoc,
      List.getElem?_append_right (by simp [H_NBITS])]
    simp only [List.length_append, writeNBits_length, H_NBITS, List.length_singleton]
    unfold fillBitset
    rw [List.getElem?_append_left (by omega)]
  obtain ⟨b, l, hx⟩ : ∃ b l, x.2 = b :: l := by
    cases hx : x.2 with
    | nil => rw [hx] at hh; simp at hh
    | cons b l => exact ⟨b, l, rfl⟩
  rw [hb, hx]
  simp only [List.getElem?_cons_zero, h2, isRAU, List.head?_cons, dataPacket, hx]
  cases b <;> rfl

theorem temporalLoop_timed (xs : List (Nat × Bits)) : (∀ x ∈ xs, PacketFits x) → ∀ (a : TemporalAcc),
    temporalLoop a (xs.map timedPacket) = .ok
      { sync := a.sync && xs.all (fun x => isRAU x.2)
        nbPacketData := a.nbPacketData + xs.length
        payload := a.payload ++ (xs.map (fun x => dataPacket x.2)).flatMap Packet.encode
        time := xs.foldl (fun _ x => (x.1 : Int)) a.time } := by
  induction xs with
  | nil => intro _ a; simp [temporalLoop]
  | cons x xs ih =>
    intro h a
    simp only [List.map_cons, temporalLoop, temporalStep_timed a x (h x (by simp))]
    rw [ih (fun y hy => h y (by simp [hy]))]
    simp only [List.all_cons, Bool.and_assoc, List.length_cons, List.flatMap_cons, List.append_assoc,
      List.foldl_cons]
    congr 2
    omega

theorem foldl_time (t : Nat) (bodies : List Bits) (hne : bodies ≠ []) (a : Int) :
    (bodies.map (fun b => (t, b))).foldl (fun _ x => ((x.1 : Nat) : Int)) a = t := by
  induction bodies generalizing a with
  | nil => exact absurd rfl hne
  | cons b bs ih =>
    cases bs with
    | nil => rfl
    | cons c cs => exact ih (by simp) (t : Int)

/-- The sync points that the transmitter still waits for. -/
def pendingOf (syncs : List Sync) (s : UnitsState) : List Sync :=
  if s.syncIdx = -1 then [] else syncs.drop s.syncIdx.toNat

/-- The transmitter waits for the sync point at its index. -/
def NextIs (syncs : List Sync) (s : UnitsState) : Prop :=
  s.syncIdx ≠ -1 → 1 ≤ s.syncIdx ∧ syncs[s.syncIdx.toNat]? = some s.nextSync

/-- Sync points without the first, if that is at time `c`. -/
def popped (c : Nat) : List Sync → List Sync
  | [] => []
  | p :: l => if p.timestamp = c then l else p :: l

theorem pendingOf_cons {syncs : List Sync} {s : UnitsState} (hn : NextIs syncs s) (h : s.syncIdx ≠ -1) :
    pendingOf syncs s = s.nextSync :: syncs.drop (s.syncIdx.toNat + 1) := by
  obtain ⟨h1, h2⟩ := hn h
  obtain ⟨hl, he⟩ := List.getElem?_eq_some_iff.mp h2
  unfold pendingOf
  rw [if_neg h, List.drop_eq_getElem_cons hl, he]

/-- The transmitter's state agrees with the frames written so far: `s0` is the state it started from. -/
structure Written (w0 : Writer) (syncs : List Sync) (initPackets : List Bits) (frames : List Frame) (c : Nat)
    (s : UnitsState) (pre : List Bits) : Prop where
  out : ∃ us, s.out = pre ++ us ∧
    List.Forall₂ (Frame.IsEncoded w0.packetDuration w0.layer
      (fun t => writeInitializationUnit { w0 with time := t } initPackets)) frames us
  time : s.w = { w0 with time := (c : Int) }
  clock : clockAfter w0.packetDuration frames 0 = c
  inTime : InTime w0.packetDuration frames 0
  sent : ∃ sent, syncs.drop 1 = sent ++ pendingOf syncs s ∧
    sent.map (·.timestamp) = (syncTimes frames).map (fun t : Nat => (t : Int))
  next : NextIs syncs s

theorem getNextSync_next (syncs : List Sync) (sync : Sync) (idx : Int) (h : 0 ≤ idx) (s : UnitsState)
    (h1 : s.nextSync = (getNextSync syncs sync idx).1) (h2 : s.syncIdx = (getNextSync syncs sync idx).2) :
    NextIs syncs s ∧ pendingOf syncs s = syncs.drop (idx.toNat + 1) := by
  unfold NextIs pendingOf
  rw [h1, h2]
  unfold getNextSync
  split
  · rename_i hi
    refine ⟨fun hc => absurd rfl hc, ?_⟩
    rw [if_pos rfl, List.drop_of_length_le (by omega)]
  · rename_i hi
    have h1 : (idx + 1).toNat < syncs.length := by omega
    rw [List.getElem?_eq_getElem h1]
    dsimp only
    refine ⟨fun _ => ⟨by omega, ?_⟩, ?_⟩
    · rw [List.getElem?_eq_getElem h1]
    · rw [if_neg (by omega)]
      congr 1
      omega

theorem clockAfter_append (pd : Nat) (fs gs : List Frame) (c : Nat) :
    clockAfter pd (fs ++ gs) c = clockAfter pd gs (clockAfter pd fs c) := by
  induction fs generalizing c with
  | nil => rfl
  | cons f fs ih => exact ih _

theorem InTime_append (pd : Nat) (fs gs : List Frame) (c : Nat) :
    InTime pd (fs ++ gs) c ↔ InTime pd fs c ∧ InTime pd gs (clockAfter pd fs c) := by
  induction fs generalizing c with
  | nil => simp [InTime, clockAfter]
  | cons f fs ih => simp only [List.cons_append, InTime, clockAfter, ih, and_assoc]

theorem Written.push {w0 : Writer} {syncs : List Sync} {ip : List Bits} {frames : List Frame} {c : Nat}
    {s : UnitsState} {pre : List Bits} (h : Written w0 syncs ip frames c s pre) (f : Frame) (u : Bits) (hd : f.DueAt c)
    (hu : f.IsEncoded w0.packetDuration w0.layer
      (fun t => writeInitializationUnit { w0 with time := t } ip) u) (s' : UnitsState)
    (ho : s'.out = s.out ++ [u])
    (hw : s'.w = { w0 with time := ((f.next w0.packetDuration c : Nat) : Int) })
    (hp : ∃ sent, pendingOf syncs s = sent ++ pendingOf syncs s' ∧
      sent.map (·.timestamp) = (syncTimes [f]).map (fun t : Nat => (t : Int)))
    (hn : NextIs syncs s') :
    Written w0 syncs ip (frames ++ [f]) (f.next w0.packetDuration c) s' pre where
  out := by
    obtain ⟨us, h1, h2⟩ := h.out
    refine ⟨us ++ [u], by rw [ho, h1, List.append_assoc], ?_⟩
    exact List.rel_append h2 (List.Forall₂.cons hu List.Forall₂.nil)
  time := hw
  clock := by rw [clockAfter_append, h.clock]; rfl
  inTime := by
    rw [InTime_append, h.clock]
    exact ⟨h.inTime, hd, trivial⟩
  sent := by
    obtain ⟨a, h1, h2⟩ := h.sent
    obtain ⟨b, h3, h4⟩ := hp
    refine ⟨a ++ b, by rw [h1, h3, List.append_assoc], ?_⟩
    unfold syncTimes at h2 h4 ⊢
    rw [List.map_append, h2, h4, List.filterMap_append, List.map_append]
  next := hn

theorem Written.syncUnit {w0 : Writer} {syncs : List Sync} {ip : List Bits} {frames : List Frame} {c : Nat}
    {s : UnitsState} {pre : List Bits} (h : Written w0 syncs ip frames c s pre) :
    ∃ fs, Written w0 syncs ip (frames ++ fs) c (syncUnit syncs ip s) pre ∧ fs.flatMap Frame.content = [] ∧
      (syncUnit syncs ip s).buf = s.buf ∧ pendingOf syncs (syncUnit syncs ip s) = popped c (pendingOf syncs s) := by
  unfold Haptics.syncUnit
  have htime : s.w.time = (c : Int) := by rw [h.time]
  split
  · rename_i hsync
    obtain ⟨hi, hm⟩ := h.next hsync.1
    have hcons := pendingOf_cons h.next hsync.1
    have hts : s.nextSync.timestamp = (c : Int) := by rw [← hsync.2, htime]
    obtain ⟨g1, g2⟩ := getNextSync_next syncs s.nextSync s.syncIdx (by omega)
      { s with nextSync := (getNextSync syncs s.nextSync s.syncIdx).1, syncIdx := (getNextSync syncs s.nextSync s.syncIdx).2,
               out := s.out ++ [writeInitializationUnit s.w ip] } rfl rfl
    refine ⟨[.sync c], ?_, rfl, rfl, ?_⟩
    · refine h.push (.sync c) (writeInitializationUnit s.w ip) rfl ?_ _ rfl h.time ?_ g1
      · rw [h.time]
        rfl
      · refine ⟨[s.nextSync], ?_, ?_⟩
        · rw [hcons]
          exact congrArg _ g2.symm
        · rw [List.map_cons, hts]
          rfl
    · rw [hcons, popped, if_pos hts]
      exact g2
  · rename_i hsync
    refine ⟨[], by simpa using h, rfl, rfl, ?_⟩
    by_cases hi : s.syncIdx = -1
    · unfold pendingOf
      rw [if_pos hi]
      rfl
    · have hcons := pendingOf_cons h.next hi
      rw [hcons, popped, if_neg]
      intro hc
      exact hsync ⟨hi, by rw [htime, hc]⟩

theorem Written.temporalUnit {w0 : Writer} {syncs : List Sync} {ip : List Bits} {frames : List Frame}
    {c : Nat} {s : UnitsState} {pre : List Bits} (h : Written w0 syncs ip frames c s pre)
    (bodies : List Bits) (hne : bodies ≠ []) (hf : ∀ b ∈ bodies, PacketFits (c, b))
    (hb : s.buf = bodies.map (fun b => timedPacket (c, b))) :
    ∃ s' fs, temporalUnit syncs ip s = .ok s' ∧
      Written w0 syncs ip (frames ++ fs) (c + w0.packetDuration) s' pre ∧
      fs.flatMap Frame.content = bodies.map (fun b => (c, b)) ∧ s'.buf = s.buf ∧
      pendingOf syncs s' = popped (c + w0.packetDuration) (pendingOf syncs s) := by
  have hloop := temporalLoop_timed (bodies.map (fun b => (c, b)))
    (by simpa using hf) { time := s.w.time }
  rw [List.map_map] at hloop
  have hlen : bodies.length ≠ 0 := by simpa using hne
  have hu : writeTemporalUnit s.w s.buf = .ok
      (unitHeader UnitType.Temporal ((if bodies.all isRAU then 0 else 1 : Nat) : Int) w0.layer
          w0.packetDuration (((bodies.map dataPacket).flatMap Packet.encode).length / 8 : Nat)
        ++ (bodies.map dataPacket).flatMap Packet.encode,
       { w0 with time := ((c + w0.packetDuration : Nat) : Int) }) := by
    unfold writeTemporalUnit
    rw [hb, show (fun b => timedPacket (c, b)) = timedPacket ∘ (fun b => (c, b)) from rfl, hloop]
    dsimp only
    rw [foldl_time c bodies hne, h.time]
    simp only [List.all_map, Bool.true_and, List.length_map, Nat.zero_add, List.map_map,
      List.nil_append, gt_iff_lt, Nat.pos_of_ne_zero hlen, if_true]
    have e1 : ((fun x : Nat × Bits => isRAU x.2) ∘ fun b => (c, b)) = isRAU := rfl
    have e2 : ((fun x : Nat × Bits => dataPacket x.2) ∘ fun b => (c, b)) = dataPacket := rfl
    rw [e1, e2]
    by_cases hr : bodies.all isRAU = true
    · rw [if_pos hr, if_pos hr]; rfl
    · rw [if_neg hr, if_neg hr]; rfl
  unfold Haptics.temporalUnit
  rw [hu]
  dsimp only
  have h1 := h.push (.data c bodies) _ ⟨rfl, hne⟩ rfl
    { s with w := { w0 with time := ((c + w0.packetDuration : Nat) : Int) }, out := s.out ++ [_] } rfl rfl
    ⟨[], rfl, rfl⟩ h.next
  obtain ⟨fs, h2, h3, h4, h5⟩ := h1.syncUnit
  refine ⟨_, .data c bodies :: fs, rfl, ?_, ?_, h4, h5⟩
  · rw [show frames ++ Frame.data c bodies :: fs = frames ++ [Frame.data c bodies] ++ fs by simp]
    exact h2
  · rw [List.flatMap_cons, h3, List.append_nil]; rfl

theorem floorDuration_multiple (t pd : Nat) (hpd : 0 < pd) (hd : pd ∣ t) (ht : t < 2 ^ 32) :
    floorDuration (t : Int) pd = .ok (t : Int) := by
  unfold floorDuration
  rw [if_neg (by omega)]
  have h1 : ((t : Int) % 2 ^ 32) = t := by omega
  rw [h1, if_neg]
  simp only [ne_eq, Decidable.not_not]
  exact_mod_cast Nat.mod_eq_zero_of_dvd hd

theorem Written.silentUnit {w0 : Writer} {syncs : List Sync} {ip : List Bits} {frames : List Frame} {c : Nat}
    {s : UnitsState} {pre : List Bits} (h : Written w0 syncs ip frames c s pre)
    (x : Nat × Bits) (hx : PacketFits x) (hpd : 0 < w0.packetDuration) (hc : c ≤ x.1)
    (hd : w0.packetDuration ∣ x.1 - c) (hg : x.1 - c < 2 ^ 24) :
    ∃ s' fs, silentUnit syncs ip s (x.1 : Int) (timedPacket x) = .ok s' ∧
      Written w0 syncs ip (frames ++ fs) x.1 s' pre ∧ fs.flatMap Frame.content = [] ∧
      pendingOf syncs s' = if c = x.1 then pendingOf syncs s else popped x.1 (pendingOf syncs s) := by
  unfold Haptics.silentUnit
  by_cases he : s.w.time = (x.1 : Int)
  · rw [if_neg (by simpa using he)]
    rw [h.time] at he
    dsimp only at he
    have : c = x.1 := by exact_mod_cast he
    exact ⟨s, [], rfl, by rw [← this]; simpa using h, rfl, by rw [if_pos this]⟩
  · rw [if_pos he]
    have hcx : c ≠ x.1 := by
      rintro hcx
      apply he
      rw [h.time, ← hcx]
    have hu : writeSilentUnitBetween s.w (timedPacket x) = .ok
        (unitHeader UnitType.Silent ((0 : Nat) : Int) w0.layer ((x.1 - c : Nat) : Int) 0,
          { w0 with time := (x.1 : Int) }) := by
      unfold writeSilentUnitBetween
      rw [readPacketTS_timedPacket x hx, h.time]
      dsimp only
      rw [show ((x.1 : Int) - (c : Int)) = ((x.1 - c : Nat) : Int) by omega,
        floorDuration_multiple _ _ hpd hd (by omega)]
      dsimp only
      rw [show ((c : Int) + ((x.1 - c : Nat) : Int)) = (x.1 : Int) by omega]
      rfl
    rw [hu]
    dsimp only
    have e : Frame.next w0.packetDuration (.silence (x.1 - c)) c = x.1 := by
      simp only [Frame.next]; omega
    have h1 := h.push (.silence (x.1 - c)) _ hg ⟨0, by omega, rfl⟩
      { s with w := { w0 with time := (x.1 : Int) }, out := s.out ++ [_] } rfl (by rw [e])
      ⟨[], rfl, rfl⟩ h.next
    rw [e] at h1
    obtain ⟨fs, h2, h3, h4, h5⟩ := h1.syncUnit
    refine ⟨_, .silence (x.1 - c) :: fs, rfl, ?_, ?_, by rw [if_neg hcx]; exact h5⟩
    · rw [show frames ++ Frame.silence (x.1 - c) :: fs = frames ++ [Frame.silence (x.1 - c)] ++ fs by simp]
      exact h2
    · rw [List.flatMap_cons, h3]; rfl

/-- The packets of a transmission with packet duration `pd`: they fit, their times are multiples of `pd`,
in order, and silences between them are shorter than 2^24 ticks. -/
structure Scheduled (pd : Nat) (xs : List (Nat × Bits)) : Prop where
  fits : ∀ x ∈ xs, PacketFits x
  multiple : ∀ x ∈ xs, pd ∣ x.1
  ordered : xs.IsChain (fun a b => a.1 ≤ b.1 ∧ b.1 < a.1 + pd + 2 ^ 24)
  first : ∀ x ∈ xs.head?, x.1 < 2 ^ 24

theorem Ahead.nil {c : Nat} {ps : List Sync} (h : Ahead c [] ps) : ps = [] := by
  cases ps with
  | nil => rfl
  | cons p l =>
    obtain ⟨-, x, hx, -⟩ := h.2 p (by simp)
    cases hx

theorem Ahead.tail {x : Nat × Bits} {xs : List (Nat × Bits)} {ps : List Sync} (h : Ahead x.1 (x :: xs) ps) :
    Ahead x.1 xs ps := by
  refine ⟨h.1, fun p hp => ?_⟩
  obtain ⟨h1, y, hy, h2⟩ := h.2 p hp
  rcases List.mem_cons.mp hy with rfl | hy
  · omega
  · exact ⟨h1, y, hy, h2⟩

/-- After the sync point at time `c`, if any, only later ones are left. -/
theorem popped_after {c : Nat} {ps : List Sync} (h1 : ps.Pairwise (fun a b => a.timestamp < b.timestamp))
    (h2 : ∀ p ∈ ps, (c : Int) ≤ p.timestamp) :
    (popped c ps).Pairwise (fun a b => a.timestamp < b.timestamp) ∧
      ∀ p ∈ popped c ps, p ∈ ps ∧ (c : Int) < p.timestamp := by
  cases ps with
  | nil => exact ⟨.nil, nofun⟩
  | cons p l =>
    rw [List.pairwise_cons] at h1
    have hp := h2 p (by simp)
    simp only [popped]
    split
    · rename_i he
      refine ⟨h1.2, fun q hq => ⟨List.mem_cons_of_mem _ hq, ?_⟩⟩
      have := h1.1 q hq
      omega
    · rename_i he
      refine ⟨List.pairwise_cons.mpr h1, fun q hq => ⟨hq, ?_⟩⟩
      rcases List.mem_cons.mp hq with rfl | hq
      · omega
      · have := h1.1 q hq
        omega

theorem Ahead.step {c pd : Nat} {x : Nat × Bits} {xs : List (Nat × Bits)} {ps : List Sync} (h : Ahead c (x :: xs) ps)
    (hpd : 0 < pd) (hdc : pd ∣ c) (hdx : ∀ y ∈ x :: xs, pd ∣ y.1) (hge : c + pd ≤ x.1)
    (hch : (x :: xs).IsChain (fun a b => a.1 ≤ b.1 ∧ b.1 < a.1 + pd + 2 ^ 24)) :
    Ahead x.1 xs (if c + pd = x.1 then popped (c + pd) ps else popped x.1 (popped (c + pd) ps)) := by
  have hfirst : ∀ y ∈ xs, x.1 ≤ y.1 := by
    have : (x :: xs).IsChain (fun a b => a.1 ≤ b.1) := hch.imp fun _ _ h => h.1
    have := (List.isChain_iff_pairwise (R := fun a b : Nat × Bits => a.1 ≤ b.1)).mp this
    exact (List.pairwise_cons.mp this).1
  have hle : ∀ p ∈ ps, (x.1 : Int) ≤ p.timestamp ∧ ∃ y ∈ x :: xs, p.timestamp = (y.1 : Int) := by
    intro p hp
    obtain ⟨-, y, hy, h2⟩ := h.2 p hp
    refine ⟨?_, y, hy, h2⟩
    rw [h2]
    rcases List.mem_cons.mp hy with rfl | hy
    · exact le_refl _
    · exact_mod_cast hfirst y hy
  have key : ∀ qs : List Sync, qs.Pairwise (fun a b => a.timestamp < b.timestamp) →
      (∀ q ∈ qs, q ∈ ps ∧ (x.1 : Int) < q.timestamp) → Ahead x.1 xs qs := by
    intro qs h1 h2
    refine ⟨h1, fun q hq => ?_⟩
    obtain ⟨h3, h4⟩ := h2 q hq
    obtain ⟨-, y, hy, h5⟩ := hle q h3
    rcases List.mem_cons.mp hy with rfl | hy
    · omega
    · exact ⟨h4, y, hy, h5⟩
  obtain ⟨a1, a2⟩ := popped_after (c := c + pd) h.1 (fun p hp => by have := (hle p hp).1; omega)
  split
  · rename_i he
    refine key _ a1 fun q hq => ?_
    obtain ⟨b1, b2⟩ := a2 q hq
    exact ⟨b1, by omega⟩
  · obtain ⟨b1, b2⟩ := popped_after (c := x.1) a1 (fun p hp => (hle p (a2 p hp).1).1)
    refine key _ b1 fun q hq => ?_
    obtain ⟨b3, b4⟩ := b2 q hq
    exact ⟨(a2 q b3).1, b4⟩

theorem unitsLoop_spec (w0 : Writer) (ip : List Bits) (syncs : List Sync) (pre : List Bits)
    (hpd : 0 < w0.packetDuration) (xs : List (Nat × Bits)) :
    ∀ (frames : List Frame) (c : Nat) (s : UnitsState) (bodies : List Bits) (b0 : Bits),
      Written w0 syncs ip frames c s pre → bodies ≠ [] → (∀ b ∈ bodies, PacketFits (c, b)) →
      s.buf = bodies.map (fun b => timedPacket (c, b)) → (∀ x ∈ xs, PacketFits x) →
      w0.packetDuration ∣ c → (∀ x ∈ xs, w0.packetDuration ∣ x.1) →
      ((c, b0) :: xs).IsChain (fun a b => a.1 ≤ b.1 ∧ b.1 < a.1 + w0.packetDuration + 2 ^ 24) →
      ∃ s' frames' c' bodies', unitsLoop syncs ip s (xs.map timedPacket) = .ok s' ∧
        Written w0 syncs ip frames' c' s' pre ∧ bodies' ≠ [] ∧ (∀ b ∈ bodies', PacketFits (c', b)) ∧
        s'.buf = bodies'.map (fun b => timedPacket (c', b)) ∧
        frames'.flatMap Frame.content ++ bodies'.map (fun b => (c', b)) =
          frames.flatMap Frame.content ++ (bodies.map (fun b => (c, b)) ++ xs) ∧
        (Ahead c xs (pendingOf syncs s) → pendingOf syncs s' = []) := by
  induction xs with
  | nil =>
    intro frames c s bodies b0 h hne hf hb _ _ _ _
    exact ⟨s, frames, c, bodies, rfl, h, hne, hf, hb, by simp, Ahead.nil⟩
  | cons x xs ih =>
    intro frames c s bodies b0 h hne hf hb hfx hdc hdx hch
    have hx := hfx x (by simp)
    rw [List.isChain_cons_cons] at hch
    obtain ⟨⟨hle, hgap⟩, hch⟩ := hch
    dsimp only at hle hgap
    have hlast : s.buf.getLast? = some (timedPacket (c, bodies.getLast hne)) := by
      rw [hb, List.getLast?_map, List.getLast?_eq_getLast_of_ne_nil hne]; rfl
    have hstep : unitsStep syncs ip s (timedPacket x) =
        if (c : Int) = x.1 then .ok { s with buf := s.buf ++ [timedPacket x] }
        else match temporalUnit syncs ip s with
          | .error e => .error e
          | .ok s => match silentUnit syncs ip s x.1 (timedPacket x) with
            | .error e => .error e
            | .ok s => .ok { s with buf := [timedPacket x] } := by
      unfold unitsStep
      rw [hlast]
      dsimp only
      rw [readPacketTS_timedPacket _ (hf _ (List.getLast_mem hne)), readPacketTS_timedPacket x hx]
      rfl
    simp only [List.map_cons, unitsLoop, hstep]
    have hxs : ∀ y ∈ xs, PacketFits y := fun y hy => hfx y (by simp [hy])
    have hds : ∀ y ∈ xs, w0.packetDuration ∣ y.1 := fun y hy => hdx y (by simp [hy])
    by_cases hc : c = x.1
    · subst hc
      rw [if_pos rfl]
      dsimp only
      obtain ⟨s', fr, c', bs, r1, r2, r3, r4, r5, r6, r7⟩ := ih frames x.1
        { s with buf := s.buf ++ [timedPacket x] } (bodies ++ [x.2]) x.2
        ⟨h.out, h.time, h.clock, h.inTime, h.sent, h.next⟩ (by simp)
        (by
          intro b hbm
          rw [List.mem_append] at hbm
          rcases hbm with hbm | hbm
          · exact hf b hbm
          · rw [List.mem_singleton] at hbm; subst hbm; exact hx)
        (by simp [hb]) hxs hdc hds hch
      exact ⟨s', fr, c', bs, r1, r2, r3, r4, r5, by rw [r6]; simp, fun ha => r7 ha.tail⟩
    · rw [if_neg (by exact_mod_cast hc)]
      obtain ⟨s1, f1, q1, q2, q3, -, q5⟩ := h.temporalUnit bodies hne hf hb
      have hxd := hdx x (by simp)
      have hge : c + w0.packetDuration ≤ x.1 := by
        obtain ⟨a, ha⟩ := hdc
        obtain ⟨b, hb⟩ := hxd
        have : a < b := by
          by_contra hh
          have : w0.packetDuration * b ≤ w0.packetDuration * a := Nat.mul_le_mul_left _ (by omega)
          omega
        have : w0.packetDuration * (a + 1) ≤ w0.packetDuration * b := Nat.mul_le_mul_left _ (by omega)
        rw [Nat.mul_add] at this
        omega
      obtain ⟨s2, f2, t1, t2, t3, t4⟩ := q2.silentUnit x hx hpd hge
        (Nat.dvd_sub hxd (Nat.dvd_add hdc (dvd_refl _))) (by omega)
      rw [q1]
      dsimp only
      rw [t1]
      dsimp only
      obtain ⟨s', fr, c', bs, r1, r2, r3, r4, r5, r6, r7⟩ := ih (frames ++ f1 ++ f2) x.1
        { s2 with buf := [timedPacket x] } [x.2] x.2 ⟨t2.out, t2.time, t2.clock, t2.inTime, t2.sent, t2.next⟩ (by simp)
        (by intro b hbm; rw [List.mem_singleton] at hbm; subst hbm; exact hx) rfl hxs hxd hds hch
      refine ⟨s', fr, c', bs, r1, r2, r3, r4, r5, ?_, fun ha => r7 ?_⟩
      swap
      · show Ahead x.1 xs (pendingOf syncs s2)
        rw [t4, q5]
        exact ha.step hpd hdc hdx hge hch
      rw [r6]
      simp only [List.flatMap_append, q3, t3, List.append_nil, List.append_assoc, List.map_cons,
        List.map_nil, List.cons_append, List.nil_append]

/-- The units for the data packets, in a state in which nothing is pending. -/
theorem dataUnits_spec (w0 : Writer) (ip : List Bits) (syncs : List Sync) (s : UnitsState)
    (hw : ∃ t, s.w = { w0 with time := t }) (hb : s.buf = [])
    (hn : NextIs syncs s) (hsent : syncs.drop 1 = pendingOf syncs s) (hpd : 0 < w0.packetDuration)
    (xs : List (Nat × Bits)) (hs : Scheduled w0.packetDuration xs) :
    ∃ s' frames c, dataUnits syncs ip s (xs.map timedPacket) = .ok s' ∧
      Written w0 syncs ip frames c s' s.out ∧ frames.flatMap Frame.content = xs ∧
      (∀ M, (∀ x ∈ xs, x.1 ≤ M) → c ≤ M + w0.packetDuration) ∧
      (∀ x l, xs = x :: l → Ahead x.1 l (syncs.drop 1) → pendingOf syncs s' = []) := by
  obtain ⟨t0, hw⟩ := hw
  unfold dataUnits
  cases xs with
  | nil =>
    refine ⟨{ s with w := { s.w with time := 0 } }, [], 0, ?_, ⟨⟨[], by simp, .nil⟩, ?_, rfl, trivial, ⟨[], hsent, rfl⟩, hn⟩,
      rfl,
      by omega, nofun⟩
    · simp only [List.map_nil, unitsStart, unitsLoop, hb, List.isEmpty_nil, if_true]
    · rw [hw]; rfl
  | cons x xs =>
    have hx := hs.fits x (by simp)
    have hxd := hs.multiple x (by simp)
    have hx0 := hs.first x (by simp)
    obtain ⟨s1, f1, p1, p2, p3, p4, p5⟩ : ∃ s1 fs, unitsStart s ((x :: xs).map timedPacket) = .ok s1 ∧
        Written w0 syncs ip fs x.1 s1 s.out ∧ fs.flatMap Frame.content = [] ∧ s1.buf = [] ∧
        pendingOf syncs s1 = pendingOf syncs s := by
      simp only [List.map_cons, unitsStart, writeSilentUnitFirst, readPacketTS_timedPacket x hx, hw]
      by_cases hge : (x.1 : Int) ≥ w0.packetDuration
      · rw [if_pos hge, floorDuration_multiple _ _ hpd hxd (by omega)]
        refine ⟨_, [.silence x.1], rfl, ⟨⟨_, rfl, .cons ⟨0, by omega, rfl⟩ .nil⟩, ?_, ?_,
          ⟨?_, trivial⟩, ⟨[], hsent, rfl⟩, hn⟩, rfl, hb, rfl⟩
        · simp
        · simp [clockAfter, Frame.next]
        · exact hx0
      · rw [if_neg hge]
        have h0 : x.1 = 0 := by
          obtain ⟨k, hk⟩ := hxd
          cases k with
          | zero => simpa using hk
          | succ k =>
            have : w0.packetDuration * 1 ≤ w0.packetDuration * (k + 1) := Nat.mul_le_mul_left _ (by omega)
            omega
        refine ⟨_, [], rfl, ⟨⟨[], by simp, .nil⟩, ?_, ?_, trivial, ⟨[], hsent, rfl⟩, hn⟩, rfl, hb, rfl⟩
        · rw [h0]; rfl
        · rw [h0]; rfl
    rw [p1]
    dsimp only
    have hstep : unitsLoop syncs ip s1 ((x :: xs).map timedPacket)
        = unitsLoop syncs ip { s1 with buf := [timedPacket x] } (xs.map timedPacket) := by
      simp only [List.map_cons, unitsLoop, unitsStep, p4, List.getLast?_nil]
    obtain ⟨s', fr, c', bs, r1, r2, r3, r4, r5, r6, r7⟩ := unitsLoop_spec w0 ip syncs s.out hpd xs f1 x.1
      { s1 with buf := [timedPacket x] } [x.2] x.2 ⟨p2.out, p2.time, p2.clock, p2.inTime, p2.sent, p2.next⟩ (by simp)
      (by intro b hbm; rw [List.mem_singleton] at hbm; subst hbm; exact hx) rfl
      (fun y hy => hs.fits y (by simp [hy])) hxd (fun y hy => hs.multiple y (by simp [hy])) hs.ordered
    rw [hstep, r1]
    dsimp only
    have hne : s'.buf.isEmpty = false := by
      rw [r5]; cases bs with
      | nil => exact absurd rfl r3
      | cons => rfl
    rw [hne]
    obtain ⟨s2, f2, q1, q2, q3, -, q5⟩ := r2.temporalUnit bs r3 r4 r5
    refine ⟨s2, fr ++ f2, _, q1, q2, ?_, ?_, ?_⟩
    rotate_left 2
    · intro y l hyl ha
      cases hyl
      have := r7 (by show Ahead x.1 xs (pendingOf syncs s1); rw [p5, ← hsent]; exact ha)
      rw [q5, this]
      rfl
    · rw [List.flatMap_append, q3, r6, p3]
      rfl
    · intro M hM
      obtain ⟨b, hb⟩ := List.exists_mem_of_ne_nil bs r3
      have hm : (c', b) ∈ fr.flatMap Frame.content ++ bs.map (fun b => (c', b)) :=
        List.mem_append_right _ (List.mem_map_of_mem hb)
      rw [r6, p3] at hm
      have := hM (c', b) (by simpa using hm)
      dsimp only at this
      omega

/-! ## Sync flags of silent units -/

theorem setSyncBits_silent (s l d : Int) (b : Bits) (hb : b.length = 2) :
    setSyncBits (unitHeader UnitType.Silent s l d 0) b
      = unitHeader UnitType.Silent (bitsVal b : Int) l d 0 := by
  have h2 : writeNBits UNIT_SYNC (bitsVal b : Int) = b := by
    have := writeNBits_bitsVal b
    rwa [hb] at this
  unfold setSyncBits
  simp only [unitHeader, List.append_assoc]
  rw [List.take_append_of_le_length (by simp), List.take_of_length_le (by simp), h2,
    ← List.append_assoc (writeNBits UNIT_TYPE _) (writeNBits UNIT_SYNC _),
    List.drop_append_of_le_length (by simp), List.drop_of_length_le (by simp), List.nil_append]

theorem unitTypeOf_header (t : Nat) (ht : t < 64) (s l d n : Int) (x : Bits) :
    unitTypeOf (unitHeader t s l d n ++ x) = t := by
  unfold unitTypeOf unitHeader
  simp only [List.append_assoc]
  rw [List.take_append_of_le_length (by simp), List.take_of_length_le (by simp),
    bitsVal_writeNBits_nat UNIT_TYPE t ht]

/-- A unit of a sync point is an initialization unit. -/
def InitUnit (u : Bits) : Prop := 72 ≤ u.length ∧ unitTypeOf u = UnitType.Initialization

theorem initUnit_write (w : Writer) (ps : List Bits) : InitUnit (writeInitializationUnit w ps) := by
  unfold InitUnit writeInitializationUnit
  refine ⟨?_, unitTypeOf_header _ (by decide) _ _ _ _ _⟩
  simp only [List.length_append, unitHeader_length]; omega

theorem isEncoded_length {pd layer : Nat} {init : Nat → Bits} (hi : ∀ t, InitUnit (init t)) {f : Frame}
    {u : Bits} (h : f.IsEncoded pd layer init u) : 72 ≤ u.length := by
  cases f with
  | data t bodies =>
    simp only [Frame.IsEncoded] at h
    rw [h, List.length_append, unitHeader_length]; omega
  | silence d => obtain ⟨_, _, rfl⟩ := h; rw [unitHeader_length]
  | sync t => simp only [Frame.IsEncoded] at h; rw [h]; exact (hi t).1

theorem silentUnitSyncFlag_encoded {pd layer : Nat} {init : Nat → Bits} (hi : ∀ t, InitUnit (init t))
    {frames : List Frame} {us : List Bits}
    (h : List.Forall₂ (Frame.IsEncoded pd layer init) frames us) :
    List.Forall₂ (Frame.IsEncoded pd layer init) frames (silentUnitSyncFlag us) := by
  induction h with
  | nil => exact .nil
  | @cons f u fs us hf hfs ih =>
    unfold silentUnitSyncFlag
    refine .cons ?_ ih
    by_cases hu : unitTypeOf u = UnitType.Silent
    · rw [if_pos hu]
      cases f with
      | data t bodies =>
        simp only [Frame.IsEncoded] at hf
        rw [hf, unitTypeOf_header _ (by decide)] at hu
        exact absurd hu (by decide)
      | sync t =>
        simp only [Frame.IsEncoded] at hf
        rw [hf, (hi t).2] at hu
        exact absurd hu (by decide)
      | silence d =>
        split
        · rename_i v hv
          obtain ⟨s, hs, rfl⟩ := hf
          have hmem := List.mem_of_find?_eq_some hv
          obtain ⟨g, hg⟩ : ∃ g, Frame.IsEncoded pd layer init g v := by
            clear * - hfs hmem
            induction hfs with
            | nil => simp at hmem
            | cons h1 _ ih =>
              rw [List.mem_cons] at hmem
              rcases hmem with rfl | hmem
              · exact ⟨_, h1⟩
              · exact ih hmem
          have hvl := isEncoded_length hi hg
          have hl : (unitSyncBits v).length = 2 := by
            simp only [unitSyncBits, List.length_take, List.length_drop, UNIT_TYPE, UNIT_SYNC]; omega
          have hlt := bitsVal_lt (unitSyncBits v)
          rw [hl] at hlt
          exact ⟨bitsVal (unitSyncBits v), hlt, setSyncBits_silent _ _ _ _ hl⟩
        · exact hf
    · rw [if_neg hu]; exact hf

/-! ## The receiver -/

/-- What is known of the receiver once the packets `done` have arrived is kept, and every next packet is
accepted without touching the clock, if it arrives at its time. -/
structure Receives (d : Dispatch) (xs : List (Nat × Bits)) (P : List (Nat × Bits) → Reader → Prop) :
    Prop where
  /-- the clock and the fields of unit headers do not matter, as long as nothing makes the receiver wait -/
  frame : ∀ done r time layer waitSync duration, (waitSync = true → r.waitSync = true) → P done r →
    P done { r with time := time, layer := layer, waitSync := waitSync, packetDuration := duration }
  crc : ∀ done r, P done r → r.crc.nbPackets = 0
  packet : ∀ done x rest r, done ++ [x] <+: xs → P done r → r.time = x.1 →
    ∃ r', d PacketType.Data (fillBitset x.2 ++ rest) r = .ok (true, r') ∧ r'.time = r.time ∧
      r'.packetDuration = r.packetDuration ∧ P (done ++ [x]) r'

/-- Any sync point among the frames sets the clock to its time and changes nothing else that matters. -/
def SyncsTo (d : Dispatch) (init : Nat → Bits) (frames : List Frame)
    (P : List (Nat × Bits) → Reader → Prop) : Prop :=
  ∀ done t r, .sync t ∈ frames → P done r → ∃ r', readMIHSUnit d (init t) r = .ok (true, r') ∧ r'.time = t ∧ P done r'

theorem dataPacket_wf {x : Nat × Bits} (h : PacketFits x) : (dataPacket x.2).WF := by
  have hl := fillBitset_length x.2
  have := h.size
  exact ⟨by simp only [dataPacket]; decide, by simp only [dataPacket]; omega, by simp only [dataPacket]; omega⟩

theorem processAll_data {d : Dispatch} {xs : List (Nat × Bits)} {P : List (Nat × Bits) → Reader → Prop}
    (hP : Receives d xs P) (bodies : List Bits) : ∀ (done : List (Nat × Bits)) (r : Reader),
    done ++ bodies.map (fun b => (r.time, b)) <+: xs → P done r →
    ∃ r', processAll d (bodies.map dataPacket) r = .ok (true, r') ∧ r'.time = r.time ∧
      r'.packetDuration = r.packetDuration ∧ P (done ++ bodies.map (fun b => (r.time, b))) r' := by
  induction bodies with
  | nil => intro done r _ h; exact ⟨r, rfl, rfl, rfl, by simpa using h⟩
  | cons b bs ih =>
    intro done r hpre h
    have e : done ++ List.map (fun b => (r.time, b)) (b :: bs)
        = done ++ [(r.time, b)] ++ bs.map (fun b => (r.time, b)) := by simp
    rw [e] at hpre
    obtain ⟨r1, h1, h2, h3, h4⟩ := hP.packet done (r.time, b)
      ((bs.map dataPacket).flatMap Packet.encode) r ((List.prefix_append _ _).trans hpre) h rfl
    obtain ⟨r2, q1, q2, q3, q4⟩ := ih (done ++ [(r.time, b)]) r1 (by rw [h2]; exact hpre) h4
    refine ⟨r2, ?_, by rw [q2, h2], by rw [q3, h3], ?_⟩
    · simp only [List.map_cons, processAll, dataPacket] at h1 ⊢
      rw [h1]
      exact q1
    · rw [e]; rw [h2] at q4; exact q4

/-- Reading the units of frames that are in time keeps the clock in time. -/
theorem readUnits_frames {d : Dispatch} {xs : List (Nat × Bits)} {P : List (Nat × Bits) → Reader → Prop}
    (hP : Receives d xs P) {pd layer : Nat} {init : Nat → Bits} (all : List Bits)
    (hpd : pd < 2 ^ 24) (hlayer : layer < 16) (hfit : ∀ x ∈ xs, PacketFits x)
    {frames : List Frame} {us : List Bits}
    (h : List.Forall₂ (Frame.IsEncoded pd layer init) frames us) :
    SyncsTo d init frames P → ∀ (done : List (Nat × Bits)) (r : Reader), InTime pd frames r.time →
      (∀ g, g <+: frames → clockAfter pd g r.time < 2 ^ 32) →
      (∀ t bodies, Frame.data t bodies ∈ frames →
        ((bodies.map dataPacket).flatMap Packet.encode).length / 8 < 2 ^ 28) →
      done ++ frames.flatMap Frame.content <+: xs → P done r →
      ∃ r', readUnits d all us r = .ok (true, r') ∧ r'.time = clockAfter pd frames r.time ∧
        P (done ++ frames.flatMap Frame.content) r' := by
  induction h with
  | nil => intro _ done r _ _ _ _ h; exact ⟨r, rfl, rfl, by simpa using h⟩
  | @cons f u fs us hf hfs ih =>
    intro hS done r hin hclk hsz hpre hdone
    obtain ⟨hdue, hin⟩ := hin
    have hc1 : f.next pd r.time < 2 ^ 32 := hclk [f] (by simp)
    have key : ∃ r1, readMIHSUnit d u r = .ok (true, r1) ∧ r1.time = f.next pd r.time ∧
        P (done ++ f.content) r1 := by
      cases f with
      | sync t =>
        simp only [Frame.IsEncoded] at hf
        simp only [Frame.DueAt] at hdue
        obtain ⟨r1, h1, h2, h3⟩ := hS done t r (by simp) hdone
        refine ⟨r1, by rw [hf]; exact h1, by rw [h2, hdue]; rfl, by simpa [Frame.content] using h3⟩
      | silence n =>
        obtain ⟨s, hs, rfl⟩ := hf
        have hread := c15_unit_partial d UnitType.Silent s layer n (by decide) hs hlayer hdue []
          (by simp) (by simp) (by simp) r
        simp only [List.flatMap_nil, List.append_nil, List.length_nil, Nat.zero_div, Nat.cast_zero,
          unitEffect, processAll] at hread
        refine ⟨_, hread, ?_, ?_⟩
        · dsimp only
          simp only [Frame.next] at hc1 ⊢
          omega
        · simp only [Frame.content, List.append_nil]
          exact hP.frame _ _ _ _ _ _ (by simp +contextual) hdone
      | data t bodies =>
        simp only [Frame.IsEncoded] at hf
        obtain ⟨rfl, hne⟩ := hdue
        have hb : ∀ b ∈ bodies, PacketFits (r.time, b) := by
          intro b hb
          apply hfit
          apply hpre.subset
          simp only [List.flatMap_cons, Frame.content, List.mem_append, List.mem_map]
          exact Or.inr (Or.inl ⟨b, hb, rfl⟩)
        have hwf : ∀ p ∈ bodies.map dataPacket, p.WF := by
          intro p hp
          rw [List.mem_map] at hp
          obtain ⟨b, hbm, rfl⟩ := hp
          exact dataPacket_wf (hb b hbm)
        have hread := c15_unit_partial d UnitType.Temporal (if bodies.all isRAU then 0 else 1) layer pd
          (by decide) (by split <;> omega) hlayer hpd (bodies.map dataPacket) hwf
          (hsz r.time bodies (by simp)) (by
            intro hne'
            rw [List.getLast_map]
            have h1 := (hb _ (List.getLast_mem hne)).header
            have h2 := fillBitset_length (bodies.getLast hne)
            simp only [dataPacket]
            dsimp only at h1
            omega) r
        obtain ⟨r1, h1, h2, h3, h4⟩ := processAll_data hP bodies done
          { r with waitSync := r.waitSync && !((if bodies.all isRAU then 0 else 1) == 0), layer := layer
                   packetDuration := pd }
          (by
            rw [List.flatMap_cons, ← List.append_assoc] at hpre
            exact (List.prefix_append _ _).trans hpre)
          (hP.frame _ _ _ _ _ _ (by simp +contextual) hdone)
        refine ⟨{ r1 with time := (r1.time + r1.packetDuration) % 2 ^ 32 }, ?_, ?_, ?_⟩
        · rw [hf, hread, unitEffect, h1]; rfl
        · dsimp only
          rw [h2, h3]
          simp only [Frame.next] at hc1 ⊢
          omega
        · exact hP.frame _ _ _ _ _ _ id h4
    obtain ⟨r1, h1, h2, h3⟩ := key
    obtain ⟨r', q1, q2, q3⟩ := ih (fun done t r ht => hS done t r (by simp [ht]))
      (done ++ f.content) r1 (by rw [h2]; exact hin)
      (by
        intro g hg
        rw [h2]
        exact hclk (f :: g) (by simpa using hg))
      (fun t bodies hm => hsz t bodies (by simp [hm]))
      (by simpa [List.append_assoc] using hpre) h3
    refine ⟨r', ?_, by rw [q2, h2]; rfl, by simpa [List.append_assoc] using q3⟩
    unfold readUnits
    rw [h1]
    dsimp only
    rw [if_neg (by rw [hP.crc _ _ h3]; simp)]
    exact q1

/-! ## C49 – the clocks agree -/

theorem le_clockAfter (pd : Nat) (fs : List Frame) (c : Nat) : c ≤ clockAfter pd fs c := by
  induction fs generalizing c with
  | nil => exact le_refl _
  | cons f fs ih =>
    refine le_trans ?_ (ih _)
    cases f <;> simp only [Frame.next] <;> omega

theorem InTime_data {pd : Nat} {frames : List Frame} {c k t : Nat} {bodies : List Bits}
    (h : InTime pd frames c) (hk : frames[k]? = some (.data t bodies)) :
    clockAfter pd (frames.take k) c = t := by
  induction frames generalizing c k with
  | nil => simp at hk
  | cons f fs ih =>
    cases k with
    | zero =>
      simp only [List.getElem?_cons_zero, Option.some.injEq] at hk
      subst hk
      exact h.1.1.symm
    | succ k => exact ih h.2 (by simpa using hk)

theorem flatMap_encode_sublist {a b : List Packet} (h : List.Sublist a b) :
    (a.flatMap Packet.encode).length ≤ (b.flatMap Packet.encode).length := by
  induction h with
  | slnil => exact le_refl _
  | cons x _ ih => simp only [List.flatMap_cons, List.length_append]; omega
  | cons_cons x _ ih => simp only [List.flatMap_cons, List.length_append]; omega

/-- The packets due at time `t` are fewer than 2^28 bytes. -/
def SlotsFit (xs : List (Nat × Bits)) : Prop :=
  ∀ t, (((xs.filter (fun x => x.1 == t)).map (fun x => dataPacket x.2)).flatMap Packet.encode).length / 8
    < 2 ^ 28

theorem slot_size {xs : List (Nat × Bits)} (h : SlotsFit xs) {frames : List Frame}
    (hc : frames.flatMap Frame.content = xs) {t : Nat} {bodies : List Bits}
    (hm : Frame.data t bodies ∈ frames) :
    ((bodies.map dataPacket).flatMap Packet.encode).length / 8 < 2 ^ 28 := by
  have h1 : List.Sublist (bodies.map (fun b => (t, b))) xs := by
    rw [← hc]
    have := List.sublist_flatten_of_mem (List.mem_map_of_mem (f := Frame.content) hm)
    rw [List.flatMap_def]
    exact this
  have h2 := h1.filter (fun x => x.1 == t)
  rw [List.filter_eq_self.2 (by simp)] at h2
  have h3 := flatMap_encode_sublist (h2.map (fun x => dataPacket x.2))
  rw [List.map_map] at h3
  have h4 := h t
  have e : ((fun x : Nat × Bits => dataPacket x.2) ∘ fun b => (t, b)) = dataPacket := rfl
  rw [e] at h3
  omega

/-- **C49 (partial)** The units of a stream are units of frames in time: a sync point at 0, then for each
moment at which packets are due one unit that holds exactly these packets (and is marked as decodable on
its own exactly if all of them are), with silence and sync points in between; and when a receiver has read
any number of units, its clock shows the time of the transmitter – in particular, the packets of a unit are
read at the very time they were stamped with.  Further sync points are those of the experience, in their order – the
first few of them, or all if they are in order and each is at the time of a packet that is not of the first unit.
The receiver is any `d` that accepts the data packets and whose clock is set by sync points alone
(`c57_streamed_partial` has the actual one).
Missing: packets whose times are not multiples of the packet duration (`c49_negation`) and silences of 2^24
ticks or more (`c49_silence_negation`). -/
theorem c49_clock_partial (h : Experience) (pd : Nat) (hpd : 0 < pd) (hpd' : pd < 2 ^ 24)
    (initPackets : List Bits) (hi : initPacketsOf h = .ok initPackets) (xs : List (Nat × Bits))
    (hx : dataPackets pd (checkHapticComponent^[7] h) = .ok (xs.map timedPacket))
    (hs : Scheduled pd xs) (hslots : SlotsFit xs) :
    let init := fun t : Nat => writeInitializationUnit
      { time := t, timescale := h.timescale.getD 1000, packetDuration := pd } initPackets
    ∃ units frames, writeUnits h pd = .ok units ∧
      List.Forall₂ (Frame.IsEncoded pd 0 init) (.sync 0 :: frames) units ∧
      InTime pd (.sync 0 :: frames) 0 ∧ frames.flatMap Frame.content = xs ∧
      (syncTimes frames).map (fun t : Nat => (t : Int)) <+: (h.syncs.drop 1).map (·.timestamp) ∧
      (∀ x l, xs = x :: l → Ahead x.1 l (h.syncs.drop 1) →
        (syncTimes frames).map (fun t : Nat => (t : Int)) = (h.syncs.drop 1).map (·.timestamp)) ∧
      (∀ M, (∀ x ∈ xs, x.1 ≤ M) → clockAfter pd frames 0 ≤ M + pd) ∧
      ∀ d P, Receives d xs P → SyncsTo d init frames P →
        ∀ r r0, readMIHSUnit d (init 0) r = .ok (true, r0) → r0.time = 0 → P [] r0 →
        ∀ k, ∃ r', readUnits d units (units.take (k + 1)) r = .ok (true, r') ∧
          r'.time = clockAfter pd (frames.take k) 0 ∧
          (∀ t bodies, frames[k]? = some (.data t bodies) → r'.time = t) ∧
          P ((frames.take k).flatMap Frame.content) r' := by
  intro init
  have hinit : ∀ t, InitUnit (init t) := fun t => initUnit_write _ _
  obtain ⟨s', frames, c, h1, h2, h3, h4, h5⟩ := dataUnits_spec
    { timescale := h.timescale.getD 1000, packetDuration := pd } initPackets h.syncs
    { w := { timescale := h.timescale.getD 1000, packetDuration := pd }
      nextSync := (getNextSync h.syncs {} 0).1, syncIdx := (getNextSync h.syncs {} 0).2
      out := [writeInitializationUnit
        { timescale := h.timescale.getD 1000, packetDuration := pd } initPackets] }
    ⟨0, rfl⟩ rfl (getNextSync_next _ _ _ (le_refl 0) _ rfl rfl).1 (getNextSync_next _ _ _ (le_refl 0) _ rfl rfl).2.symm hpd xs hs
  obtain ⟨us, ho, hfs⟩ := h2.out
  have henc := silentUnitSyncFlag_encoded hinit
    (List.Forall₂.cons (a := Frame.sync 0) (b := init 0) rfl hfs)
  have hin : InTime pd frames 0 := h2.inTime
  have hcl : clockAfter pd frames 0 = c := h2.clock
  have hw : writeUnits h pd = .ok (silentUnitSyncFlag (init 0 :: us)) := by
    unfold writeUnits
    dsimp only
    rw [hi]
    dsimp only
    rw [hx]
    dsimp only
    rw [h1]
    dsimp only
    rw [ho]
    rfl
  refine ⟨silentUnitSyncFlag (init 0 :: us), frames, hw, henc, ⟨rfl, hin⟩, h3, ?_, ?_, by rw [hcl]; exact h4, ?_⟩
  · obtain ⟨sent, e1, e2⟩ := h2.sent
    rw [← e2, e1, List.map_append]
    exact List.prefix_append _ _
  · intro x l hxl ha
    obtain ⟨sent, e1, e2⟩ := h2.sent
    rw [h5 x l hxl ha, List.append_nil] at e1
    rw [← e2, e1]
  have h4 := h4 (2 ^ 31) (fun x hx => by have := (hs.fits x hx).time; omega)
  intro d P hP hS r r0 hr0 ht0 hP0 k
  generalize silentUnitSyncFlag (init 0 :: us) = units at *
  cases henc with
  | @cons _ u0 _ us' hu0 henc =>
  have hu0 : u0 = init 0 := hu0
  subst hu0
  obtain ⟨r', q1, q2, q3⟩ := readUnits_frames hP (init 0 :: us') hpd' (by change 0 < 16; omega) hs.fits
    (List.forall₂_take k henc) (fun done t r ht => hS done t r (List.mem_of_mem_take ht)) [] r0
    (by
      rw [ht0]
      rw [← List.take_append_drop k frames, InTime_append] at hin
      exact hin.1)
    (by
      intro g hg
      rw [ht0]
      obtain ⟨g', hg'⟩ := hg.trans (List.take_prefix k frames)
      have := le_clockAfter pd g' (clockAfter pd g 0)
      rw [← clockAfter_append, hg', hcl] at this
      dsimp only at h4
      omega)
    (fun t bodies hm => slot_size hslots h3 (List.mem_of_mem_take hm))
    (by
      rw [← h3, List.nil_append]
      conv_rhs => rw [← List.take_append_drop k frames, List.flatMap_append]
      exact List.prefix_append _ _) hP0
  rw [ht0] at q2
  refine ⟨r', ?_, q2, ?_, by simpa using q3⟩
  · rw [List.take_succ_cons]
    unfold readUnits
    rw [hr0]
    dsimp only
    rw [if_neg (by rw [hP.crc _ _ hP0]; simp)]
    exact q1
  · intro t bodies hk
    rw [q2]
    exact InTime_data hin hk

/-- An experience with one band, whose effects are given. -/
def oneBand (b : Band) : Experience :=
  { perceptions := [{ id := 0, channels := [{ id := 0, bands := [b] }] }] }

/-- Time and rest of a data packet. -/
def splitTime (p : Bits) : Nat × Bits :=
  (bitsVal ((p.drop H_NBITS).take DB_DURATION), p.drop (H_NBITS + DB_DURATION))

/-- Non-vacuity: two effects, four keyframes, three packets – at 128, 256 and 1280. -/
example : ∃ (h : Experience) (initPackets : List Bits) (xs : List (Nat × Bits)),
    initPacketsOf h = .ok initPackets ∧
    dataPackets 128 (checkHapticComponent^[7] h) = .ok (xs.map timedPacket) ∧
    xs.map Prod.fst = [128, 256, 1280] ∧ Scheduled 128 xs ∧ SlotsFit xs := by
  let h := oneBand { effects := [
    { id := 0, position := 130, keyframes := [{ relativePosition := some 0 }, { relativePosition := some 200 }] },
    { position := 1300, keyframes := [{ relativePosition := some 0 }, { relativePosition := some 50 }] }] }
  obtain ⟨i, hi⟩ : ∃ i, initPacketsOf h = .ok i := by
    have : (initPacketsOf h).isOk = true := by decide +kernel
    cases hh : initPacketsOf h with
    | error e => rw [hh] at this; cases this
    | ok i => exact ⟨i, rfl⟩
  let xs := match dataPackets 128 (checkHapticComponent^[7] h) with
    | .ok ps => ps.map splitTime
    | .error _ => []
  have htimes : xs.map Prod.fst = [128, 256, 1280] := by decide +kernel
  have hfits : ∀ x ∈ xs, x.1 < 2 ^ 31 ∧ 48 < x.2.length ∧ (x.2.length + 7) / 8 < 2 ^ 17 := by
    decide +kernel
  refine ⟨h, i, xs, hi, by decide +kernel, htimes, ?_, ?_⟩
  · exact ⟨fun x hx => ⟨(hfits x hx).1, (hfits x hx).2.1, (hfits x hx).2.2⟩, by decide +kernel,
      by decide +kernel, by decide +kernel⟩
  · intro t
    have hall : ((xs.map (fun x => dataPacket x.2)).flatMap Packet.encode).length < 2 ^ 28 := by
      decide +kernel
    have := flatMap_encode_sublist ((List.filter_sublist (p := fun x => x.1 == t) (l := xs)).map
      (fun x => dataPacket x.2))
    omega

/-- The time a receiver's clock shows after the first `k` units of the stream of `h`. -/
def clockAt (h : Experience) (pd k : Nat) : Option Nat :=
  match writeUnits h pd with
  | .error _ => none
  | .ok us => match readUnits dispatch us (us.take k) {} with
    | .error _ => none
    | .ok (_, r) => some r.time

/-- The times of the data packets in the stream of `h`. -/
def packetTimes (h : Experience) (pd : Nat) : Option (List Nat) :=
  match dataPackets pd h with
  | .error _ => none
  | .ok ps => some (ps.map (fun p => (splitTime p).1))

/-- **C49, violated for times that are not multiples of the packet duration.**  A wavelet band with blocks
of 100 ticks is sent with a packet duration of 128: the second packet is due at 100, but when the receiver
comes to it – after an initialization unit, the first packet, and a silent unit – its clock shows 128. -/
theorem c49_negation : ∃ h, packetTimes h 128 = some [0, 100] ∧ clockAt h 128 3 = some 128 ∧
    (writeUnits h 128).map List.length = .ok 4 :=
  ⟨oneBand { bandType := BandType.WaveletWave, blockLength := some 100, upperFrequencyLimit := 1000
             effects := [{ waveletBitstream := [1, 2] }, { waveletBitstream := [3, 4] }] },
    by decide +kernel, by decide +kernel, by decide +kernel⟩

/-- **C49, violated for long silences.**  An effect at 2^24 ticks, after silence that needs 25 bits: the
receiver comes to it with its clock at 0. -/
theorem c49_silence_negation : ∃ h, packetTimes h (2 ^ 23) = some [2 ^ 24] ∧
    clockAt h (2 ^ 23) 2 = some 0 ∧ (writeUnits h (2 ^ 23)).map List.length = .ok 3 :=
  ⟨oneBand { effects := [{ id := 0, position := 2 ^ 24, keyframes := [{ relativePosition := some 0 }] }] },
    by decide +kernel, by decide +kernel, by decide +kernel⟩

end Haptics
