import Verif.Stream.UnitLemmas

/-
C13, C14, C15, C46, C48: framing of the stream.
-/
namespace Haptics

/-! ## C13 – packet headers -/

/-- The packet that `writePacket` should produce: the payload padded with zeros to whole bytes. -/
theorem writePacket_encode (t : Nat) (payload : Bits) (ht : t ≠ PacketType.Data) :
    writePacket t payload = Packet.encode ⟨t, fillBitset payload⟩ := by
  have h1 : (writeMIHSPacketHeader t payload.length).length % 8 = 0 := by
    rw [writePacketHeader_length]
  rw [writePacket, padToByteBoundary_eq, fillBitset_append _ h1]
  have h2 : (payload.length + if payload.length % 8 = 0 then 0 else 8 - payload.length % 8) / 8
      = (fillBitset payload).length / 8 := by
    rw [fillBitset_length]; split <;> omega
  simp only [writeMIHSPacketHeader, Packet.encode, if_neg ht, h2, List.append_assoc]
  rfl

/-- **C13** The header written for a packet of any type but Data is read back: same type, and the length
of the payload (padded to whole bytes); the reader then stands at the payload. -/
theorem c13_header (t : Nat) (payload rest : Bits) (ht : t < 64) (hd : t ≠ PacketType.Data)
    (hl : (payload.length + 7) / 8 < 2 ^ 17) :
    readPacketHeader (writePacket t payload ++ rest) =
      .ok ((t, 8 * ((payload.length + 7) / 8)), fillBitset payload ++ rest) := by
  have hf := fillBitset_length payload
  rw [writePacket_encode t payload hd, readPacketHeader_encode _ ⟨ht, by simp [hf], by simp only [hf]; omega⟩]
  simp [hf]

/-- **C13** A data packet, as it is put in a unit without its 32 timestamp bits, announces the length of
what is left; its type is Data. -/
theorem c13_data_header (ts body : Bits) (hts : ts.length = DB_DURATION)
    (hl : (body.length + 7) / 8 < 2 ^ 17) :
    ∃ p, eraseTS (writePacket PacketType.Data (ts ++ body)) = .ok p ∧
      p = Packet.encode ⟨PacketType.Data, fillBitset body⟩ ∧
      ∀ rest, readPacketHeader (p ++ rest) =
        .ok ((PacketType.Data, 8 * ((body.length + 7) / 8)), fillBitset body ++ rest) := by
  have hH := writePacketHeader_length PacketType.Data (ts ++ body).length
  have h1 : (writeMIHSPacketHeader PacketType.Data (ts ++ body).length).length % 8 = 0 := by
    rw [hH]
  have hts8 : ts.length % 8 = 0 := by rw [hts]; rfl
  have hf := fillBitset_length body
  have e : writePacket PacketType.Data (ts ++ body)
      = writeMIHSPacketHeader PacketType.Data (ts ++ body).length ++ (ts ++ fillBitset body) := by
    rw [writePacket, padToByteBoundary_eq, fillBitset_append _ h1, fillBitset_append _ hts8]
  have hhead : writeMIHSPacketHeader PacketType.Data (ts ++ body).length ++ fillBitset body
      = Packet.encode ⟨PacketType.Data, fillBitset body⟩ := by
    have h2 : (((((ts ++ body).length +
        if (ts ++ body).length % 8 = 0 then 0 else 8 - (ts ++ body).length % 8) / 8 : Nat) : Int)
          - ((DB_DURATION : Nat) : Int) / 8) = ((fillBitset body).length / 8 : Nat) := by
      rw [hf, List.length_append, hts]
      simp only [DB_DURATION]
      split <;> omega
    simp only [writeMIHSPacketHeader, Packet.encode, if_true, h2, List.append_assoc]
    rfl
  have her : eraseTS (writePacket PacketType.Data (ts ++ body))
      = .ok (writeMIHSPacketHeader PacketType.Data (ts ++ body).length ++ fillBitset body) := by
    rw [e]
    generalize writeMIHSPacketHeader PacketType.Data (ts ++ body).length = hd at *
    unfold eraseTS
    rw [if_neg (by simp only [List.length_append, hH, hts, H_NBITS]; omega)]
    congr 1
    have hd1 : (hd ++ (ts ++ fillBitset body)).take H_NBITS = hd := by
      rw [List.take_append_of_le_length (by rw [hH]), List.take_of_length_le (by rw [hH])]
    have hd2 : (hd ++ (ts ++ fillBitset body)).drop (H_NBITS + DB_DURATION) = fillBitset body := by
      rw [← List.append_assoc, List.drop_append_of_le_length (by simp [hH, hts]),
        List.drop_of_length_le (by simp [hH, hts])]
      rfl
    rw [hd1, hd2]
  refine ⟨_, her, hhead, fun rest => ?_⟩
  rw [hhead, readPacketHeader_encode _ ⟨by norm_num, by simp [hf], by simp only [hf]; omega⟩]
  simp [hf]

example : readPacketHeader (writePacket PacketType.MetadataBand [true, false, true] ++ [true]) =
    .ok ((4, 8), [true, false, true, false, false, false, false, false, true]) := by
  decide +kernel

/-- **C13, violated by the other length decoder.**  `readPacketLength` looks one bit too far: on every
well-formed packet it returns twice the length modulo 2^17 (plus nothing, the reserved bit being 0). -/
theorem c13_readPacketLength_doubles (p : Packet) (h : p.WF) (rest : Bits) :
    readPacketLength (p.encode ++ rest) = .ok (2 * (p.payload.length / 8) % 2 ^ 17) := by
  have hs := h.size
  have e : p.encode ++ rest = (writeNBits 6 p.type ++ [decide
      (((p.payload.length / 8 : Nat) : Int) / 2 ^ 16 % 2 = 1)]) ++
      ((writeNBits 16 (p.payload.length / 8 : Nat) ++ [false]) ++ (p.payload ++ rest)) := by
    simp only [Packet.encode, writeNBits_succ 16, List.append_assoc, List.cons_append, List.nil_append]
  unfold readPacketLength
  rw [if_neg (by simp only [List.length_append, Packet.encode_length, H_NBITS]; omega)]
  congr 1
  rw [e, List.drop_append_of_le_length (by simp [H_NBITS, H_PAYLOAD_LENGTH]),
    List.drop_of_length_le (by simp [H_NBITS, H_PAYLOAD_LENGTH]), List.nil_append,
    List.take_append_of_le_length (by simp), List.take_of_length_le (by simp), bitsVal_append]
  have hb := bitsVal_writeNBits 16 (p.payload.length / 8 : Nat)
  simp only [List.length_singleton, bitsVal_cons, bitsVal_nil, Bool.toNat_false]
  omega

/-- **C13, negation for `readPacketLength`**: no non-empty packet gets its length back. -/
theorem c13_negation (p : Packet) (h : p.WF) (hne : p.payload ≠ []) (rest : Bits) :
    readPacketLength (p.encode ++ rest) ≠ .ok (p.payload.length / 8) := by
  rw [c13_readPacketLength_doubles p h]
  have h1 := h.aligned
  have h2 := h.size
  have h3 : p.payload.length ≠ 0 := by simpa using hne
  intro hc
  simp only [Except.ok.injEq] at hc
  omega

example : Packet.WF ⟨PacketType.Timing, List.replicate 32 true⟩ :=
  ⟨by decide, by decide, by decide⟩

/-! ## C14 – a file splits into its units -/

/-- **C14** Loading the bytes of any sequence of units returns exactly these units. -/
theorem c14_split (units : List Bits) (h : ∀ u ∈ units, IsUnit u) :
    loadFile (writeBitset units.flatten) = .ok units := by
  have hal : units.flatten.length % 8 = 0 := by
    clear * - h
    induction units with
    | nil => simp
    | cons u us ih =>
      obtain ⟨head, n, res, payload, hh, hr, hp, hn, rfl⟩ := h u (by simp)
      have := ih (fun v hv => h v (by simp [hv]))
      simp only [List.flatten_cons, List.length_append, writeNBits_length]
      omega
  have hlen : units.length ≤ units.flatten.length / 8 := by
    clear hal
    induction units with
    | nil => simp
    | cons u us ih =>
      obtain ⟨head, n, res, payload, hh, hr, hp, hn, rfl⟩ := h u (by simp)
      have := ih (fun v hv => h v (by simp [hv]))
      simp only [List.flatten_cons, List.length_append, writeNBits_length, List.length_cons]
      omega
  have hl := writeBitset_length units.flatten
  exact loadLoop_units _ units h _ 0 (by omega) (by omega) (by omega)

/-- **C14** Initialization units are units. -/
theorem c14_initialization_is_unit (w : Writer) (packets : List Packet) (h : ∀ p ∈ packets, p.WF)
    (hsz : (packets.flatMap Packet.encode).length / 8 + 18 < 2 ^ 31) :
    IsUnit (writeInitializationUnit w (packets.map Packet.encode)) := by
  have hit : (initTimingPacket w).length = 144 := by
    unfold initTimingPacket
    rw [writePacket_encode _ _ (by decide), Packet.encode_length, fillBitset_length]
    simp only [writeInitializationTiming, List.length_append, writeNBits_length]
    rfl
  have e : (packets.map Packet.encode).flatten = packets.flatMap Packet.encode := by
    rw [List.flatMap_def]
  have hal := packets_aligned packets h
  unfold writeInitializationUnit
  rw [e]
  exact isUnit_of_header _ _ _ _ _ (by rw [List.length_append, hit]; omega)
    (by rw [List.length_append, hit]; omega)

theorem temporalLoop_aligned (packets : List Bits) : ∀ (a b : TemporalAcc),
    temporalLoop a packets = .ok b → (∀ p ∈ packets, p.length % 8 = 0) → a.payload.length % 8 = 0 →
    b.payload.length % 8 = 0 ∧ b.payload.length ≤ a.payload.length + packets.flatten.length := by
  induction packets with
  | nil => intro a b h _ ha; cases h; exact ⟨ha, by simp⟩
  | cons p ps ih =>
    intro a b h hp ha
    unfold temporalLoop at h
    cases hs : temporalStep a p with
    | error e => rw [hs] at h; simp at h
    | ok a' =>
      rw [hs] at h
      have hp0 := hp p (by simp)
      have key : a'.payload.length % 8 = 0 ∧ a'.payload.length ≤ a.payload.length + p.length := by
        unfold temporalStep at hs
        cases h1 : readMIHSPacketType p with
        | error e => rw [h1] at hs; simp at hs
        | ok t =>
          rw [h1] at hs
          simp only at hs
          split at hs
          · cases h2 : eraseTS p with
            | error e => rw [h2] at hs; simp at hs
            | ok buf =>
              have hbuf : buf.length % 8 = 0 ∧ buf.length ≤ p.length := by
                unfold eraseTS at h2
                split at h2
                · simp at h2
                · cases h2
                  rename_i hlt
                  simp only [List.length_append, List.length_take, List.length_drop, H_NBITS,
                    DB_DURATION] at hlt ⊢
                  omega
              rw [h2] at hs
              simp only at hs
              split at hs
              · simp at hs
              · split at hs
                · simp at hs
                · cases hs
                  simp only [List.length_append]
                  omega
          · cases hs
            simp only [List.length_append]
            omega
      obtain ⟨r1, r2⟩ := ih a' b h (fun q hq => hp q (by simp [hq])) key.1
      refine ⟨r1, ?_⟩
      simp only [List.flatten_cons, List.length_append]
      omega

/-- **C14** Temporal units are units. -/
theorem c14_temporal_is_unit (w w' : Writer) (packets : List Bits) (u : Bits)
    (hp : ∀ p ∈ packets, p.length % 8 = 0) (hsz : packets.flatten.length / 8 < 2 ^ 31)
    (h : writeTemporalUnit w packets = .ok (u, w')) : IsUnit u := by
  unfold writeTemporalUnit at h
  cases hl : temporalLoop { time := w.time } packets with
  | error e => rw [hl] at h; simp at h
  | ok a =>
    rw [hl] at h
    obtain ⟨h1, h2⟩ := temporalLoop_aligned packets _ a hl hp (by simp)
    simp only [Except.ok.injEq, Prod.mk.injEq] at h
    rw [← h.1]
    refine isUnit_of_header _ _ _ _ _ h1 ?_
    simp only [List.length_nil] at h2
    omega

theorem isUnit_silent (s l d : Int) : IsUnit (unitHeader UnitType.Silent s l d 0) := by
  have := isUnit_of_header UnitType.Silent s l d [] (by simp) (by simp)
  simpa using this

/-- **C14** Silent units are units. -/
theorem c14_silentFirst_is_unit (w w' : Writer) (p u : Bits)
    (h : writeSilentUnitFirst w p = .ok (some u, w')) : IsUnit u := by
  unfold writeSilentUnitFirst at h
  split at h
  · simp at h
  · split at h
    · split at h
      · simp at h
      · simp only [Except.ok.injEq, Prod.mk.injEq, Option.some.injEq] at h
        rw [← h.1]; exact isUnit_silent _ _ _
    · simp at h

/-- **C14** Silent units are units. -/
theorem c14_silentBetween_is_unit (w w' : Writer) (p u : Bits)
    (h : writeSilentUnitBetween w p = .ok (u, w')) : IsUnit u := by
  unfold writeSilentUnitBetween at h
  split at h
  · simp at h
  · split at h
    · simp at h
    · simp only [Except.ok.injEq, Prod.mk.injEq] at h
      rw [← h.1]; exact isUnit_silent _ _ _

/-- Non-vacuity: a file with three different units. -/
example : ∃ u1 u2 u3, IsUnit u1 ∧ IsUnit u2 ∧ IsUnit u3 ∧ u1 ≠ u2 ∧ u2 ≠ u3 ∧
    loadFile (writeBitset [u1, u2, u3].flatten) = .ok [u1, u2, u3] := by
  refine ⟨writeInitializationUnit {} [], unitHeader UnitType.Silent 0 0 128 0,
    unitHeader UnitType.Temporal 1 0 128 (16 / 8 : Nat) ++ List.replicate 16 true, ?_, ?_, ?_, ?_, ?_, ?_⟩
  · exact c14_initialization_is_unit {} [] (by simp) (by decide)
  · exact isUnit_silent _ _ _
  · exact isUnit_of_header _ _ _ _ (List.replicate 16 true) (by decide) (by decide)
  · decide
  · decide
  · apply c14_split
    intro u hu
    simp only [List.mem_cons, List.not_mem_nil, or_false] at hu
    rcases hu with rfl | rfl | rfl
    · exact c14_initialization_is_unit {} [] (by simp) (by decide)
    · exact isUnit_silent _ _ _
    · exact isUnit_of_header _ _ _ _ (List.replicate 16 true) (by decide) (by decide)

/-- **C14, violated by spatial units**: the length they announce is computed with `readPacketLength`.
A spatial unit with one 2-byte packet announces 7 bytes but holds 5, and a file made of two of them is
split in the wrong place. -/
theorem c14_spatial_negation :
    ∃ u, writeSpatialUnit {} [writePacket PacketType.MetadataBand (List.replicate 16 true)] = .ok u ∧
      ¬ IsUnit u ∧ loadFile (writeBitset [u, u].flatten) ≠ .ok [u, u] := by
  refine ⟨_, rfl, ?_, by decide +kernel⟩
  rintro ⟨head, n, res, payload, hh, hr, hp, hn, h⟩
  have h2 : bitsVal (((head ++ (writeNBits 32 (n : Int) ++ (res ++ payload))).drop 36).take 32) = n := by
    rw [List.drop_append_of_le_length (by omega), List.drop_of_length_le (by omega), List.nil_append,
      List.take_append_of_le_length (by simp), List.take_of_length_le (by simp),
      bitsVal_writeNBits_nat 32 n (by omega)]
  rw [← h] at h2
  have h3 : n = 7 := h2.symm.trans (by decide +kernel)
  have h4 : (unitHeader UnitType.Spatial 0 0 0 7 ++
    writePacket PacketType.MetadataBand (List.replicate 16 true)).length = 112 := by decide +kernel
  have h5 : 112 = _ := h4.symm.trans (congrArg List.length h)
  simp only [List.length_append, writeNBits_length, hh, hr, hp] at h5
  omega

/-! ## C15 – every packet of a unit is read -/

/-- **C15 (partial)** A unit whose last packet has more than 48 bits of payload is read completely: the
reader ends in the state of processing every packet in order.
Missing: units whose last packet is shorter, see `c15_short_last_packet_skipped`. -/
theorem c15_unit_partial (d : Dispatch) (t sync layer duration : Nat) (ht : t < 64) (hs : sync < 4)
    (hl : layer < 16) (hd : duration < 2 ^ 24) (packets : List Packet) (hw : ∀ p ∈ packets, p.WF)
    (hsz : (packets.flatMap Packet.encode).length / 8 < 2 ^ 28)
    (hlast : ∀ hne : packets ≠ [], 48 < (packets.getLast hne).payload.length) (r : Reader) :
    readMIHSUnit d (unitHeader t sync layer duration
        ((packets.flatMap Packet.encode).length / 8 : Nat) ++ packets.flatMap Packet.encode) r
      = (unitEffect d sync layer duration packets r).map (fun r' => (true, r')) := by
  rw [readMIHSUnit_eq d t sync layer duration ht hs hl hd packets hw hsz,
    processFirst_eq d packets _ hlast]
  unfold unitEffect
  rcases processAll d packets _ with e | ⟨b, r'⟩
  · rfl
  · cases b <;> rfl

example : ∃ ps : List Packet, ps.length = 3 ∧ (∀ p ∈ ps, p.WF) ∧
    ∀ hne : ps ≠ [], 48 < (ps.getLast hne).payload.length :=
  ⟨[⟨0, List.replicate 32 true⟩, ⟨1, []⟩, ⟨5, List.replicate 56 false⟩], rfl,
    by simp; exact ⟨⟨by decide, by decide, by decide⟩, ⟨by decide, by decide, by decide⟩,
      ⟨by decide, by decide, by decide⟩⟩, by decide⟩

/-- **C15, violated**: whatever packets a unit holds, those of which no more than 72 bits of the unit are
left – a final timing packet is one – are never looked at: the unit is read as if they were not there
(`d'` is any other way of treating them). -/
theorem c15_short_last_packet_skipped (d d' : Dispatch) (t sync layer duration : Nat) (ht : t < 64)
    (hs : sync < 4) (hl : layer < 16) (hd : duration < 2 ^ 24) (p : Packet) (hw : p.WF)
    (hshort : p.payload.length ≤ 48) (r : Reader) :
    readMIHSUnit d (unitHeader t sync layer duration (p.encode.length / 8 : Nat) ++ p.encode) r
      = readMIHSUnit d' (unitHeader t sync layer duration (p.encode.length / 8 : Nat) ++ p.encode) r := by
  have hlen := Packet.encode_length p
  have h1 := fun d => readMIHSUnit_eq d t sync layer duration ht hs hl hd [p] (by simpa using hw)
    (by simp only [List.flatMap_cons, List.flatMap_nil, List.append_nil]; omega) r
  simp only [List.flatMap_cons, List.flatMap_nil, List.append_nil] at h1
  have h2 : ∀ d r, processFirst d [p] r = .ok (true, r) := by
    intro d r
    unfold processFirst
    rw [if_pos (by simp only [List.flatMap_cons, List.flatMap_nil, List.append_nil]; omega)]
  rw [h1, h1, h2, h2]

/-- **C15, negation**: a unit consisting of a timing packet is well formed, but reading it never looks at
the packet, whatever the reader would do with it. -/
theorem c15_negation : ∃ p : Packet, p.WF ∧ p.type = PacketType.Timing ∧
    p.payload = writeTiming 5000 ∧ ∀ d d' r,
    readMIHSUnit d (unitHeader UnitType.Temporal 0 0 0 (p.encode.length / 8 : Nat) ++ p.encode) r
      = readMIHSUnit d' (unitHeader UnitType.Temporal 0 0 0 (p.encode.length / 8 : Nat) ++ p.encode) r :=
  ⟨⟨PacketType.Timing, writeTiming 5000⟩, ⟨by decide, by decide, by decide⟩, rfl, rfl, fun d d' r =>
    c15_short_last_packet_skipped d d' UnitType.Temporal 0 0 0 (by decide) (by decide) (by decide)
      (by decide) _ ⟨by decide, by decide, by decide⟩ (by decide) r⟩

theorem unitLoop_not_diverge (d : Dispatch) (hd : ∀ t b r, d t b r ≠ .error .diverge) (unit : Bits)
    (L : Nat) : ∀ fuel index r, L < fuel + index → 0 < fuel →
    unitLoop d unit L fuel index r ≠ .error .diverge := by
  intro fuel
  induction fuel with
  | zero => intro index r _ h; omega
  | succ f ih =>
    intro index r h _
    unfold unitLoop
    split
    · simp
    · split
      · rename_i hlt
        unfold readMIHSPacket
        have hne : readPacketHeader (unit.drop index) ≠ .error .diverge := by
          exact ((readUInt_term _).bind fun _ => (readUInt_term _).bind fun _ =>
            (rdBits_term _).bind fun _ => Rd.Term.pure _) _
        cases hph : readPacketHeader (unit.drop index) with
        | error e => simp only; intro hc; rw [hph] at hne; simp_all
        | ok x =>
          obtain ⟨⟨ty, len⟩, payload⟩ := x
          simp only
          cases hdd : d ty payload r with
          | error e => simp only; intro hc; have := hd ty payload r; simp_all
          | ok y =>
            obtain ⟨b, r'⟩ := y
            cases b with
            | false => simp
            | true => simp only; exact ih _ _ (by simp only [H_NBITS]; omega) (by omega)
      · simp

/-- **C15** Reading a unit terminates on every bit string whatsoever. -/
theorem c15_terminates (d : Dispatch) (hd : ∀ t b r, d t b r ≠ .error .diverge) (unit : Bits)
    (r : Reader) : readMIHSUnit d unit r ≠ .error .diverge := by
  unfold readMIHSUnit
  split
  · rename_i e he
    rintro ⟨⟩
    exact ((readUInt_term _).bind fun _ => (readUInt_term _).bind fun _ => (readUInt_term _).bind fun _ =>
      (readUInt_term _).bind fun _ => (readUInt_term _).bind fun _ =>
      (rdBits_term _).bind fun _ => Rd.Term.pure _) _ he
  · split
    · simp
    · simp only
      split
      · rename_i e he
        intro hc
        simp only [Except.error.injEq] at hc
        subst hc
        exact unitLoop_not_diverge d hd unit _ _ _ _ (by omega) (by omega) he
      · simp
      · simp

example : ∀ t b r, (fun _ _ r => Except.ok (true, r) : Dispatch) t b r ≠ .error .diverge := by simp

/-! ## C46 – sync flags of silent units -/

theorem setSyncBits_length (u s : Bits) (hu : 8 ≤ u.length) (hs : s.length = 2) :
    (setSyncBits u s).length = u.length := by
  simp only [setSyncBits, List.length_append, List.length_take, List.length_drop, UNIT_TYPE, UNIT_SYNC]
  omega

/-- **C46** Every unit keeps its place and everything but its sync bits; a silent unit gets the sync bits
of the first Temporal or Initialization unit that follows, other units do not change at all. -/
theorem c46_silent_sync (us : List Bits) (hlen : ∀ u ∈ us, 8 ≤ u.length) :
    (silentUnitSyncFlag us).length = us.length ∧
    ∀ (i : Nat) u, us[i]? = some u → ∃ v, (silentUnitSyncFlag us)[i]? = some v ∧
      v.take 6 = u.take 6 ∧ v.drop 8 = u.drop 8 ∧
      (unitTypeOf u ≠ UnitType.Silent → v = u) ∧
      (unitTypeOf u = UnitType.Silent → ∀ (j : Nat) w, i < j → us[j]? = some w →
        (unitTypeOf w = UnitType.Temporal ∨ unitTypeOf w = UnitType.Initialization) →
        (∀ (k : Nat) x, i < k → k < j → us[k]? = some x →
          unitTypeOf x ≠ UnitType.Temporal ∧ unitTypeOf x ≠ UnitType.Initialization) →
        unitSyncBits v = unitSyncBits w) := by
  induction us with
  | nil => simp [silentUnitSyncFlag]
  | cons a us ih =>
    obtain ⟨ihl, ih⟩ := ih (fun u hu => hlen u (by simp [hu]))
    refine ⟨by simp [silentUnitSyncFlag, ihl], ?_⟩
    intro i u hi
    cases i with
    | succ i =>
      simp only [List.getElem?_cons_succ] at hi
      obtain ⟨v, h1, h2, h3, h4, h5⟩ := ih i u hi
      refine ⟨v, by simpa [silentUnitSyncFlag] using h1, h2, h3, h4, ?_⟩
      intro hs j w hij hj hw hk
      cases j with
      | zero => omega
      | succ j =>
        refine h5 hs j w (by omega) (by simpa using hj) hw ?_
        intro k x hk1 hk2 hx
        exact hk (k + 1) x (by omega) (by omega) (by simpa using hx)
    | zero =>
      simp only [List.getElem?_cons_zero, Option.some.injEq] at hi
      subst hi
      have ha := hlen a (by simp)
      simp only [silentUnitSyncFlag, List.getElem?_cons_zero, Option.some.injEq, exists_eq_left']
      by_cases hs : unitTypeOf a = UnitType.Silent
      · rw [if_pos hs]
        cases hf : us.find? (fun v => unitTypeOf v == UnitType.Temporal
            || unitTypeOf v == UnitType.Initialization) with
        | none =>
          refine ⟨rfl, rfl, fun _ => rfl, ?_⟩
          intro _ j w hij hj hw _
          rw [List.find?_eq_none] at hf
          obtain ⟨j, rfl⟩ : ∃ k, j = k + 1 := ⟨j - 1, by omega⟩
          have := hf w (List.mem_of_getElem? (by simpa using hj))
          simp at this
          rcases hw with hw | hw
          · exact absurd hw this.1
          · exact absurd hw this.2
        | some v =>
          have hv : v ∈ us := List.mem_of_find?_eq_some hf
          have hvl := hlen v (by simp [hv])
          have hsl : (unitSyncBits v).length = 2 := by
            simp only [unitSyncBits, List.length_take, List.length_drop, UNIT_TYPE, UNIT_SYNC]; omega
          have ht : (a.take 6).length = 6 := by simp; omega
          refine ⟨?_, ?_, fun h => absurd hs h, ?_⟩
          · dsimp only
            unfold setSyncBits
            rw [List.append_assoc, List.take_append_of_le_length (by simp only [UNIT_TYPE]; omega),
              List.take_of_length_le (by simp)]
          · dsimp only
            unfold setSyncBits
            rw [List.drop_append_of_le_length (by simp only [List.length_append, UNIT_TYPE]; omega),
              List.drop_of_length_le (by simp only [List.length_append, UNIT_TYPE]; omega)]
            rfl
          · intro _ j w hij hj hw hk
            have hwv : w = v := by
              rw [List.find?_eq_some_iff_getElem] at hf
              obtain ⟨hpv, m, hm, hmv, hbefore⟩ := hf
              obtain ⟨j, rfl⟩ : ∃ k, j = k + 1 := ⟨j - 1, by omega⟩
              simp only [List.getElem?_cons_succ] at hj
              rcases lt_trichotomy m j with hmj | hmj | hmj
              · have := hk (m + 1) v (by omega) (by omega)
                  (by rw [List.getElem?_cons_succ, List.getElem?_eq_getElem hm, hmv])
                simp at hpv
                rcases hpv with h | h
                · exact absurd h this.1
                · exact absurd h this.2
              · subst hmj
                rw [List.getElem?_eq_getElem hm, hmv] at hj
                exact (Option.some.inj hj).symm
              · have hb := hbefore j hmj
                have : us[j]'(by omega) = w := by
                  rw [List.getElem?_eq_getElem (by omega)] at hj
                  exact Option.some.inj hj
                rw [this] at hb
                simp at hb
                rcases hw with h | h
                · exact absurd h hb.1
                · exact absurd h hb.2
            subst hwv
            have : unitSyncBits (setSyncBits a (unitSyncBits w)) = unitSyncBits w := by
              generalize unitSyncBits w = s at *
              unfold unitSyncBits setSyncBits
              rw [List.append_assoc, List.drop_append_of_le_length (by simp only [UNIT_TYPE]; omega),
                List.drop_of_length_le (by simp), List.nil_append,
                List.take_append_of_le_length (by simp only [UNIT_SYNC]; omega),
                List.take_of_length_le (by simp only [UNIT_SYNC]; omega)]
            exact this
      · rw [if_neg hs]
        exact ⟨rfl, rfl, fun _ => rfl, fun h => absurd h hs⟩

example : (silentUnitSyncFlag [unitHeader UnitType.Silent 0 0 128 0, unitHeader UnitType.Silent 0 0 64 0,
    unitHeader UnitType.Temporal 1 0 128 0]) =
    [unitHeader UnitType.Silent 1 0 128 0, unitHeader UnitType.Silent 1 0 64 0,
    unitHeader UnitType.Temporal 1 0 128 0] := by decide +kernel

/-! ## C48 – malformed streams are reported -/

theorem readMIHSUnit_true (d : Dispatch) (u : Bits) (r r' : Reader) (b : Bool)
    (h : readMIHSUnit d u r = .ok (b, r')) : b = true := by
  unfold readMIHSUnit at h
  split at h
  · simp at h
  · split at h
    · simp at h
    · simp only at h
      split at h
      · simp at h
      · simp only [Except.ok.injEq, Prod.mk.injEq] at h; exact h.1.symm
      · simp only [Except.ok.injEq, Prod.mk.injEq] at h; exact h.1.symm

/-- **C48, violated**: whatever the file contains, and even if a packet is rejected, `readFile` returns
`true` whenever it returns. -/
theorem c48_always_true (d : Dispatch) (file : List UInt8) (b : Bool) (x : Option Experience)
    (h : readFile d file = .ok (b, x)) : b = true := by
  unfold readFile at h
  split at h
  · simp at h
  · split at h
    · simp at h
    · simp only [Except.ok.injEq, Prod.mk.injEq] at h; exact h.1.symm
    · simp only [Except.ok.injEq, Prod.mk.injEq] at h; exact h.1.symm

/-- **C48, negation**: a file whose only unit holds one packet of an unknown type, which the reader
rejects, is reported as read successfully, with an empty experience. -/
theorem c48_negation : ∃ file : List UInt8, ∃ x,
    readFile (fun _ _ r => .ok (false, r)) file = .ok (true, some x) ∧ x.perceptions = [] ∧
    file ≠ [] := by
  refine ⟨writeBitset [unitHeader UnitType.Temporal 0 0 0 13 ++
    Packet.encode ⟨63, List.replicate 80 true⟩].flatten, {}, ?_, rfl, by decide +kernel⟩
  have hw : Packet.WF ⟨63, List.replicate 80 true⟩ := ⟨by decide, by decide, by decide⟩
  have hu : IsUnit (unitHeader UnitType.Temporal 0 0 0 13 ++
      Packet.encode ⟨63, List.replicate 80 true⟩) :=
    isUnit_of_header UnitType.Temporal 0 0 0 (Packet.encode ⟨63, List.replicate 80 true⟩) (by decide)
      (by decide)
  have hr := readMIHSUnit_eq (fun _ _ r => .ok (false, r)) UnitType.Temporal 0 0 0 (by decide)
    (by decide) (by decide) (by decide) [⟨63, List.replicate 80 true⟩] (by simpa using hw) (by decide) {}
  unfold readFile
  rw [c14_split _ (by simpa using hu)]
  unfold readUnits
  dsimp only
  have e : unitHeader UnitType.Temporal 0 0 0 13 ++ Packet.encode ⟨63, List.replicate 80 true⟩ =
    unitHeader UnitType.Temporal ((0 : Nat) : Int) ((0 : Nat) : Int) ((0 : Nat) : Int)
      (([⟨63, List.replicate 80 true⟩].flatMap Packet.encode).length / 8 : Nat)
      ++ [⟨63, List.replicate 80 true⟩].flatMap Packet.encode := by decide +kernel
  rw [e, hr]
  rfl

end Haptics
