import Verif.Stream.SpecCrc
import Verif.Stream.UnitLemmas
import Verif.Crc.Lemmas
import Verif.Stream.Writer

/-
C99: CRC packets in a stream.
-/
namespace Haptics

theorem handle_crc {α : Type} {p : Rd α} {payload : Bits} {r r' : Reader} {b : Bool} {k : α → Except Err Reader}
    (hk : ∀ a r', k a = .ok r' → r'.crc = r.crc) (h : handle p payload r k = .ok (b, r')) : r'.crc = r.crc := by
  unfold handle at h
  split at h
  · cases h; rfl
  · cases h
  · split at h
    · cases h
    · rename_i he
      cases h
      exact hk _ _ he

theorem map_haptic_crc {x : Except Err Experience} {r r' : Reader}
    (h : x.map (fun h => { r with haptic := h }) = .ok r') : r'.crc = r.crc := by
  cases x with
  | error e => cases h
  | ok y => cases h; rfl

/-- Packets of other types leave the CRC as it is. -/
theorem dispatch_crc {t : Nat} (ht : t < 7 ∨ 10 < t) {payload : Bits} {r r' : Reader} {b : Bool}
    (h : dispatch t payload r = .ok (b, r')) : r'.crc = r.crc := by
  unfold dispatch at h
  split at h
  · refine handle_crc (fun a r' h => ?_) h
    unfold onTiming at h
    split at h <;> cases h
    rfl
  split at h
  · exact handle_crc (fun a r' h => by cases h; rfl) h
  split at h
  · refine handle_crc (fun a r' h => ?_) h
    unfold onPerception at h
    split at h <;> cases h <;> rfl
  split at h
  · exact handle_crc (fun a r' h => by cases h; rfl) h
  split at h
  · refine handle_crc (fun a r' h => ?_) h
    unfold onChannel at h
    split at h <;> exact map_haptic_crc h
  split at h
  · refine handle_crc (fun a r' h => ?_) h
    unfold onBand at h
    split at h
    · cases h
    · dsimp only at h
      split at h
      · cases h; rfl
      · split at h <;> cases h <;> rfl
  split at h
  · unfold readData at h
    split at h
    · cases h
    · split at h
      · cases h; rfl
      · dsimp only at h
        split at h <;> cases h <;> rfl
  rw [show crcKind t = none by
    unfold crcKind
    simp only [PacketType.CRC16, PacketType.CRC32, PacketType.GlobalCRC16, PacketType.GlobalCRC32]
    rw [if_neg (by omega), if_neg (by omega), if_neg (by omega), if_neg (by omega)]] at h
  dsimp only at h
  split at h
  · exact handle_crc (fun a r' h => by cases h; rfl) h
  · cases h; rfl

theorem processFirst_crc (ps : List Packet) : NoCrc ps → ∀ (r r' : Reader) (b : Bool),
    processFirst dispatch ps r = .ok (b, r') → r'.crc = r.crc := by
  induction ps with
  | nil => intro _ r r' b h; cases h; rfl
  | cons p ps ih =>
    intro hn r r' b h
    unfold processFirst at h
    split at h
    · cases h; rfl
    · split at h
      · cases h
      · rename_i hd
        cases h
        exact dispatch_crc (hn p (by simp)) hd
      · rename_i hd
        rw [ih (fun q hq => hn q (by simp [hq])) _ _ _ h]
        exact dispatch_crc (hn p (by simp)) hd

/-- What a CRC packet leaves in the reader. -/
def CrcState (crc : CRC) (n v : Nat) (poly : Bits) : Prop :=
  crc.nbPackets = n ∧
    (crc.value16 = v ∧ crc.value32 = 0 ∧ poly = writeNBits 16 49185 ∨
      crc.value16 = 0 ∧ crc.value32 = v ∧ poly = writeNBits 32 2187366103)

theorem dispatch_kind {t : Nat} {k : CrcKind} (hk : crcKind t = some k) (ht : 6 < t) (b : Bits) (r : Reader) :
    dispatch t b r = handle (readCRC k) b r (fun c => .ok { r with crc := c }) := by
  unfold dispatch
  rw [if_neg (by simp only [PacketType.Timing]; omega), if_neg (by simp only [PacketType.MetadataHaptics]; omega),
    if_neg (by simp only [PacketType.MetadataPerception]; omega), if_neg (by simp only [PacketType.EffectLibrary]; omega),
    if_neg (by simp only [PacketType.MetadataChannel]; omega), if_neg (by simp only [PacketType.MetadataBand]; omega),
    if_neg (by simp only [PacketType.Data]; omega), hk]

theorem dispatch_crcPacket {p : Packet} {n v : Nat} {poly : Bits} (h : CrcPacket p n v poly) (rest : Bits)
    (r : Reader) : ∃ c, dispatch p.type (p.payload ++ rest) r = .ok (true, { r with crc := c }) ∧
      CrcState c n v poly := by
  cases h with
  | crc32 _ hv =>
    refine ⟨{ nbPackets := 1, value32 := v, value16 := 0 }, ?_, rfl, .inr ⟨rfl, rfl, rfl⟩⟩
    have := rdU_writeNBits 32 v rest hv
    refine (dispatch_kind (k := .crc32) rfl (show _ < _ by norm_num) _ r).trans ?_
    simp only [handle, readCRC, Rd.bind_apply, this, Rd.pure_apply]
  | crc16 _ hv =>
    refine ⟨{ nbPackets := 1, value16 := v, value32 := 0 }, ?_, rfl, .inl ⟨rfl, rfl, rfl⟩⟩
    have := rdU_writeNBits 16 v rest hv
    refine (dispatch_kind (k := .crc16) rfl (show _ < _ by norm_num) _ r).trans ?_
    simp only [handle, readCRC, Rd.bind_apply, this, Rd.pure_apply]
  | global16 _ _ hn hv =>
    refine ⟨{ nbPackets := n, value16 := v, value32 := 0 }, ?_, rfl, .inl ⟨rfl, rfl, rfl⟩⟩
    have h1 := rdU_writeNBits 8 n (writeNBits 16 v ++ rest) hn
    have := rdU_writeNBits 16 v rest hv
    refine (dispatch_kind (k := .globalCrc16) rfl (show _ < _ by norm_num) _ r).trans ?_
    simp only [handle, readCRC, Rd.bind_apply, List.append_assoc, h1, this, Rd.pure_apply]
  | global32 _ _ hn hv =>
    refine ⟨{ nbPackets := n, value32 := v, value16 := 0 }, ?_, rfl, .inr ⟨rfl, rfl, rfl⟩⟩
    have h1 := rdU_writeNBits 8 n (writeNBits 32 v ++ rest) hn
    have := rdU_writeNBits 32 v rest hv
    refine (dispatch_kind (k := .globalCrc32) rfl (show _ < _ by norm_num) _ r).trans ?_
    simp only [handle, readCRC, Rd.bind_apply, List.append_assoc, h1, this, Rd.pure_apply]

theorem foldl_front (l : List Bits) : ∀ acc : Bits,
    l.foldl (fun acc p => p ++ acc) acc = l.reverse.flatten ++ acc := by
  induction l with
  | nil => intro acc; rfl
  | cons a l ih => intro acc; simp [ih, List.append_assoc]

theorem checkCRC_of {all : List Bits} {crc : CRC} {n v : Nat} {poly : Bits} (h : CrcState crc n v poly) :
    ((checkCRC all crc).1 = true ↔ CrcMatches all n v poly) ∧
      (CrcMatches all n v poly → (checkCRC all crc).2 = { nbPackets := 255 }) := by
  obtain ⟨nb, v16, v32⟩ := crc
  obtain ⟨rfl, ⟨rfl, rfl, rfl⟩ | ⟨rfl, rfl, rfl⟩⟩ := h
  · have ht : ∀ m : Bits, (computeCRC m (writeNBits 16 49185)).take 16 = computeCRC m (writeNBits 16 49185) :=
      fun m => List.take_of_length_le (by rw [computeCRC_length]; simp)
    unfold checkCRC CrcMatches
    simp only [foldl_front, List.append_nil, CRC16_POLYNOMIAL, Nat.cast_ofNat, ht]
    split
    · simp; omega
    · split
      · rename_i h1 h2
        refine ⟨?_, fun _ => rfl⟩
        simp only [beq_iff_eq]
        exact ⟨fun h => ⟨by omega, h2, h.symm⟩, fun h => h.2.2.symm⟩
      · rename_i h1 h2
        simp; omega
  · have ht : ∀ m : Bits, (computeCRC m (writeNBits 32 2187366103)).take 32 = computeCRC m (writeNBits 32 2187366103) :=
      fun m => List.take_of_length_le (by rw [computeCRC_length]; simp)
    unfold checkCRC CrcMatches
    simp only [foldl_front, List.append_nil, CRC32_POLYNOMIAL, Nat.cast_ofNat, ht]
    split
    · simp; omega
    · rw [if_neg (by simp)]
      split
      · rename_i h1 h2
        refine ⟨?_, fun _ => rfl⟩
        simp only [beq_iff_eq]
        exact ⟨fun h => ⟨by omega, h2, h.symm⟩, fun h => h.2.2.symm⟩
      · rename_i h1 h2
        simp; omega

/-- After the check no later one succeeds. -/
def Spent (all : List Bits) (crc : CRC) : Prop :=
  crc.nbPackets ≠ 0 ∧ (all.length < crc.nbPackets ∨ crc.value16 = 0 ∧ crc.value32 = 0)

theorem checkCRC_spent {all : List Bits} {crc : CRC} {n v : Nat} {poly : Bits} (h : CrcState crc n v poly)
    (hn : 0 < n) : Spent all (checkCRC all crc).2 := by
  obtain ⟨nb, v16, v32⟩ := crc
  obtain ⟨rfl, ⟨rfl, rfl, rfl⟩ | ⟨rfl, rfl, rfl⟩⟩ := h <;> unfold checkCRC Spent <;> dsimp only at * <;>
    split
  · rename_i h; exact ⟨by show nb ≠ 0; omega, .inl h⟩
  · split
    · exact ⟨by simp, .inr ⟨rfl, rfl⟩⟩
    · rw [if_neg (by simp)]
      exact ⟨by simp, .inr ⟨by show v16 = 0; omega, rfl⟩⟩
  · rename_i h; exact ⟨by show nb ≠ 0; omega, .inl h⟩
  · rw [if_neg (by simp)]
    split
    · exact ⟨by simp, .inr ⟨rfl, rfl⟩⟩
    · exact ⟨by simp, .inr ⟨rfl, by show v32 = 0; omega⟩⟩

theorem spent_check {all : List Bits} {crc : CRC} (h : Spent all crc) :
    (checkCRC all crc).1 = false ∧ Spent all (checkCRC all crc).2 := by
  unfold checkCRC
  obtain ⟨h0, h1⟩ := h
  split
  · rename_i h2; exact ⟨rfl, h0, .inl h2⟩
  · rename_i h2
    obtain ⟨h3, h4⟩ := h1.resolve_left h2
    dsimp only
    rw [if_neg (by omega), if_neg (by omega)]
    exact ⟨rfl, by simp, .inr ⟨h3, h4⟩⟩

/-- What reading a unit does to its CRC. -/
theorem readMIHSUnit_sent {u : Bits} {sync : Nat} {packets : List Packet} (h : IsSent u sync packets) (r : Reader) :
    ∃ layer duration, readMIHSUnit dispatch u r
      = match processFirst dispatch packets { r with
            waitSync := r.waitSync && !(sync == 0), layer := layer, packetDuration := duration } with
        | .error e => .error e
        | .ok (false, r') => .ok (true, r')
        | .ok (true, r') => .ok (true, { r' with time := (r'.time + r'.packetDuration) % 2 ^ 32 }) := by
  obtain ⟨t, layer, duration, ht, hs, hl, hd, hw, hz, rfl⟩ := h
  exact ⟨layer, duration, readMIHSUnit_eq dispatch t sync layer duration ht hs hl hd packets hw hz r⟩

theorem unit_crc {u : Bits} {sync : Nat} {packets : List Packet} (h : IsSent u sync packets) (hn : NoCrc packets)
    {r r' : Reader} {b : Bool} (hr : readMIHSUnit dispatch u r = .ok (b, r')) : r'.crc = r.crc := by
  obtain ⟨layer, duration, he⟩ := readMIHSUnit_sent h r
  rw [he] at hr
  split at hr
  · cases hr
  · rename_i hp
    cases hr
    rw [processFirst_crc _ hn _ _ _ hp]
  · rename_i hp
    cases hr
    show _ = _
    have := processFirst_crc _ hn _ _ _ hp
    exact this

theorem carries_crc {u : Bits} {n v : Nat} {poly : Bits} (h : CarriesCrc u n v poly) {r r' : Reader} {b : Bool}
    (hr : readMIHSUnit dispatch u r = .ok (b, r')) : CrcState r'.crc n v poly := by
  obtain ⟨sync, p, ps, hs, hp, hn, hlen⟩ := h.sent
  obtain ⟨layer, duration, he⟩ := readMIHSUnit_sent hs r
  rw [he] at hr
  obtain ⟨c, h1, h2⟩ := dispatch_crcPacket hp (ps.flatMap Packet.encode)
    { r with waitSync := r.waitSync && !(sync == 0), layer := layer, packetDuration := duration }
  rw [processFirst, if_neg (by rw [List.flatMap_cons]; omega), h1] at hr
  dsimp only at hr
  split at hr
  · cases hr
  · rename_i hpf
    cases hr
    rw [processFirst_crc _ hn _ _ _ hpf]
    exact h2
  · rename_i hpf
    cases hr
    have := processFirst_crc _ hn _ _ _ hpf
    show CrcState (_ : Reader).crc n v poly
    rw [show (_ : Reader).crc = _ from this]
    exact h2

theorem dispatch_data (b : Bits) (r : Reader) : dispatch PacketType.Data b r = readData b r := by
  unfold dispatch
  simp [PacketType.Data]

/-- A dependent unit is left out while the reader waits, and its time does not pass. -/
theorem unit_dependent {u : Bits} (h : IsDependent u) {r : Reader} (hw : r.waitSync = true) :
    ∃ r', readMIHSUnit dispatch u r = .ok (true, r') ∧ r'.haptic = r.haptic ∧ r'.time = r.time ∧
      r'.waitSync = true ∧ r'.crc = r.crc := by
  obtain ⟨sync, payload, ps, h0, hs, hlen⟩ := h
  obtain ⟨layer, duration, he⟩ := readMIHSUnit_sent hs r
  have hws : (r.waitSync && !(sync == 0)) = true := by simp [hw, h0]
  refine ⟨{ r with waitSync := r.waitSync && !(sync == 0), layer := layer, packetDuration := duration }, ?_,
    rfl, rfl, hws, rfl⟩
  rw [he, processFirst, if_neg (by rw [List.flatMap_cons]; omega)]
  have hd : ∀ r : Reader, r.waitSync = true → dispatch PacketType.Data
      (true :: payload ++ ps.flatMap Packet.encode) r = .ok (false, r) := by
    intro r hr
    refine (dispatch_data _ r).trans ?_
    unfold readData
    rw [show readUInt DB_AU_TYPE (true :: payload ++ ps.flatMap Packet.encode)
      = .ok (1, payload ++ ps.flatMap Packet.encode) from rfl]
    simp [hr]
  rw [hd _ hws]

/-- **C99** While a reader waits for a sync point, units that depend on what it missed change nothing in the
experience.  Their time is not counted. -/
theorem c99_discarded_partial (all : List Bits) (us : List Bits) : (∀ u ∈ us, IsDependent u) →
    ∀ r : Reader, r.waitSync = true →
      ∃ r', readUnits dispatch all us r = .ok (true, r') ∧ r'.haptic = r.haptic ∧ r'.time = r.time ∧
        r'.waitSync = true := by
  induction us with
  | nil => intro _ r hr; exact ⟨r, rfl, rfl, rfl, hr⟩
  | cons u us ih =>
    intro hd r hr
    obtain ⟨r1, h1, h2, h3, h4, -⟩ := unit_dependent (hd u (by simp)) hr
    unfold readUnits
    rw [h1]
    dsimp only
    split
    · obtain ⟨r2, g1, g2, g3, g4⟩ := ih (fun x hx => hd x (by simp [hx]))
        { r1 with crc := (checkCRC all r1.crc).2, waitSync := r1.waitSync || !(checkCRC all r1.crc).1 }
        (by simp [h4])
      exact ⟨r2, g1, g2.trans h2, g3.trans h3, g4⟩
    · obtain ⟨r2, g1, g2, g3, g4⟩ := ih (fun x hx => hd x (by simp [hx])) r1 h4
      exact ⟨r2, g1, g2.trans h2, g3.trans h3, g4⟩

/-- **C99** After a unit with a CRC that is not the one of the units it protects, all units are left out that
depend on data before. -/
theorem c99_mismatch_partial (all : List Bits) (u : Bits) (n v : Nat) (poly : Bits) (hu : CarriesCrc u n v poly)
    (hn : 0 < n) (hm : ¬ CrcMatches all n v poly) (r r1 : Reader)
    (hr : readMIHSUnit dispatch u r = .ok (true, r1)) (us : List Bits) (hd : ∀ x ∈ us, IsDependent x) :
    ∃ r2, readUnits dispatch all (u :: us) r = .ok (true, r2) ∧ r2.haptic = r1.haptic ∧ r2.time = r1.time ∧
      r2.waitSync = true := by
  have hs := carries_crc hu hr
  unfold readUnits
  rw [hr]
  dsimp only
  rw [if_pos (by rw [hs.1]; omega)]
  have hf : (checkCRC all r1.crc).1 = false := by
    have := (checkCRC_of (all := all) hs).1
    cases hc : (checkCRC all r1.crc).1 with
    | false => rfl
    | true => exact absurd (this.mp hc) hm
  exact c99_discarded_partial all us hd _ (by simp [hf])

/-- **C99** After one that is, reading goes on as before with the next unit. -/
theorem c99_match_partial (all : List Bits) (u : Bits) (n v : Nat) (poly : Bits) (hu : CarriesCrc u n v poly)
    (hn : 0 < n) (hm : CrcMatches all n v poly) (r r1 : Reader)
    (hr : readMIHSUnit dispatch u r = .ok (true, r1)) (us : List Bits) :
    readUnits dispatch all (u :: us) r = readUnits dispatch all us { r1 with crc := { nbPackets := 255 } } := by
  have hs := carries_crc hu hr
  conv_lhs => unfold readUnits
  rw [hr]
  dsimp only
  rw [if_pos (by rw [hs.1]; omega), ((checkCRC_of hs).1).mpr hm, (checkCRC_of hs).2 hm]
  simp

/-- **C99, negation.** But only with that one.  After any CRC packet – also one that matches –, all units that
depend on data before are left out from the second unit after it on, and their time with them. -/
theorem c99_negation (all : List Bits) (u u1 : Bits) (n v : Nat) (poly : Bits) (hu : CarriesCrc u n v poly)
    (hn : 0 < n) (sync : Nat) (ps : List Packet) (hu1 : IsSent u1 sync ps) (hps : NoCrc ps) (r r1 : Reader)
    (hr : readUnits dispatch all [u, u1] r = .ok (true, r1)) (us : List Bits) (hd : ∀ x ∈ us, IsDependent x) :
    ∃ r2, readUnits dispatch all (u :: u1 :: us) r = .ok (true, r2) ∧ r2.haptic = r1.haptic ∧ r2.time = r1.time := by
  cases h0 : readMIHSUnit dispatch u r with
  | error e => rw [readUnits, h0] at hr; cases hr
  | ok x =>
    obtain ⟨b, r0⟩ := x
    cases b with
    | false => rw [readUnits, h0] at hr; cases hr
    | true =>
      have hs := carries_crc hu h0
      have hsp := checkCRC_spent (all := all) hs hn
      rw [readUnits, h0] at hr ⊢
      dsimp only at hr ⊢
      rw [if_pos (by rw [hs.1]; omega)] at hr ⊢
      generalize hra : ({ r0 with crc := (checkCRC all r0.crc).2, waitSync := r0.waitSync || !(checkCRC all r0.crc).1 } :
        Reader) = ra at hr ⊢
      have hca : Spent all ra.crc := by rw [← hra]; exact hsp
      cases h1 : readMIHSUnit dispatch u1 ra with
      | error e => rw [readUnits, h1] at hr; cases hr
      | ok x =>
        obtain ⟨b, rb⟩ := x
        cases b with
        | false => rw [readUnits, h1] at hr; cases hr
        | true =>
          have hcb : Spent all rb.crc := by rw [unit_crc hu1 hps h1]; exact hca
          rw [readUnits, h1] at hr ⊢
          dsimp only at hr ⊢
          rw [if_pos hcb.1] at hr ⊢
          rw [readUnits] at hr
          have hr1 := congrArg Prod.snd (Except.ok.inj hr)
          have hf := (spent_check hcb).1
          obtain ⟨r2, g1, g2, g3, -⟩ := c99_discarded_partial all us hd
            { rb with crc := (checkCRC all rb.crc).2, waitSync := rb.waitSync || !(checkCRC all rb.crc).1 }
            (by simp [hf])
          refine ⟨r2, g1, ?_, ?_⟩
          · rw [g2]; exact congrArg Reader.haptic hr1
          · rw [g3]; exact congrArg Reader.time hr1

/-! ### Examples -/

/-- A curve with six points, a point every 50 ticks. -/
def sixPoints : Experience :=
  { perceptions := [{ id := 0, perceptionModality := 0, channels := [{ id := 0, bands := [
      { bandType := BandType.Curve
        effects := [{ id := 1, position := 0
                      keyframes := [0, 50, 100, 150, 200, 250].map (fun t =>
                        { relativePosition := some t, amplitudeModulation := some (1 / 2) }) }] }] }] }] }

/-- A unit with a packet with a CRC of 16 bits put before its packets. -/
def withCrc16 (v : Nat) (u : Bits) : Bits :=
  u.take 36 ++ (writeNBits 32 (bitsVal ((u.drop 36).take 32) + 5 : Nat) ++ ((u.drop 68).take 4
    ++ (Packet.encode ⟨PacketType.CRC16, writeNBits 16 v⟩ ++ u.drop 72)))

/-- The times of the points that are received. -/
def receivedPoints (units : List Bits) : List (Option Int) :=
  match readUnits dispatch units units {} with
  | .ok (true, r) => r.haptic.perceptions.flatMap (fun p => p.channels.flatMap (fun c => c.bands.flatMap
      (fun b => b.effects.flatMap (fun e => e.keyframes.map (fun k => k.relativePosition)))))
  | _ => []

/-- **C99, negation.** The six points are sent in three units.  With the CRC of the first unit of the stream put
into the second one – the CRC is right, and nothing is altered – the last unit is left out. -/
theorem c99_intact_negation :
    (match writeUnits sixPoints 100 with
      | .ok [i, a, b, c] =>
        decide (receivedPoints [i, a, b, c] = [some 0, some 50, some 100, some 150, some 200, some 250] ∧
        receivedPoints [i, withCrc16 (bitsVal (computeCRC i (writeNBits 16 49185))) a, b, c]
          = [some 0, some 50, some 100, some 150])
      | _ => false) = true := by
  decide +kernel

/-- Non-vacuity: a unit of silence, then one with a CRC of it and a timing packet. -/
example : CarriesCrc (unitHeader UnitType.Temporal 0 0 0 12 ++
      ([⟨PacketType.CRC16, writeNBits 16 4097⟩, ⟨PacketType.Timing, writeTiming 5⟩] : List Packet).flatMap Packet.encode)
    1 4097 (writeNBits 16 49185) :=
  ⟨0, ⟨8, writeNBits 16 4097⟩, [⟨0, writeTiming 5⟩],
    ⟨1, 0, 0, by decide, by decide, by decide, by decide, by
      intro p hp
      simp only [List.mem_cons, List.not_mem_nil, or_false] at hp
      rcases hp with rfl | rfl <;> exact ⟨by decide, by decide, by decide⟩, by decide, rfl⟩,
    .crc16 4097 (by decide), by intro q hq; simp only [List.mem_singleton] at hq; subst hq; exact .inl (by decide),
    by decide⟩

/-- Non-vacuity: CRCs that match and that do not. -/
example : CrcMatches [unitHeader UnitType.Silent 0 0 128 0] 1
      (bitsVal (computeCRC (unitHeader UnitType.Silent 0 0 128 0) (writeNBits 16 49185))) (writeNBits 16 49185) ∧
    ¬ CrcMatches [unitHeader UnitType.Silent 0 0 128 0] 1 1 (writeNBits 16 49185) := by
  unfold CrcMatches
  decide +kernel

/-- Non-vacuity: a dependent unit. -/
example : IsDependent (unitHeader UnitType.Temporal 1 0 128 13 ++
    ([⟨PacketType.Data, true :: List.replicate 79 false⟩] : List Packet).flatMap Packet.encode) :=
  ⟨1, List.replicate 79 false, [], by decide,
    ⟨1, 0, 128, by decide, by decide, by decide, by decide, by
      intro p hp
      simp only [List.mem_singleton] at hp
      subst hp
      exact ⟨by decide, by decide, by decide⟩, by decide, rfl⟩, by decide⟩

end Haptics
