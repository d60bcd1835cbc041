import Verif.Stream.SpecHostile
import Verif.Stream.Reader
import Verif.Stream.UnitLemmas

/-
C118: reading a file of any bytes as a stream.
-/
namespace Haptics

theorem rdBits_long {n : Nat} {s : Bits} (h : n ≤ s.length) : rdBits n s = .ok (s.take n, s.drop n) := by
  unfold rdBits
  rw [if_pos h]

theorem readUInt_long {n : Nat} {s : Bits} (h0 : n ≠ 0) (hn : n ≤ 31) (h : n ≤ s.length) : readUInt n s = .ok ((bitsVal (s.take n) : Int), s.drop n) := by
  unfold readUInt
  rw [if_neg h0, rdBits_long h]
  simp only [if_pos hn]

theorem readUInt_32 {s : Bits} (h : 32 ≤ s.length) : readUInt 32 s = .ok (toSigned 32 (bitsVal (s.take 32) % 2 ^ 32), s.drop 32) := by
  unfold readUInt
  rw [if_neg (by decide), rdBits_long h]
  rfl

/-- What `readMIHSUnit` reads of the head of a unit. -/
theorem readMIHSUnit_head (d : Dispatch) (u : Bits) (r : Reader) (h : 72 ≤ u.length) (ha : announced u < 2 ^ 28) :
    readMIHSUnit d u r = match unitLoop d u (announced u * 8) (announced u * 8 + 1) 72 { r with
        waitSync := r.waitSync && !((unitField 6 2 u : Int) == 0), layer := unitField 8 4 u, packetDuration := unitField 12 24 u } with
      | .error e => .error e
      | .ok (false, r) => .ok (true, r)
      | .ok (true, r) => .ok (true, { r with time := (r.time + r.packetDuration) % 2 ^ 32 }) := by
  have hv : toSigned 32 (bitsVal ((u.drop 36).take 32) % 2 ^ 32) = (announced u : Int) := by
    unfold announced unitField at *
    unfold toSigned
    rw [Nat.mod_eq_of_lt (by omega), if_pos (by omega)]
  unfold readMIHSUnit
  simp only [Rd.bind_apply, Rd.pure_apply]
  rw [readUInt_long (n := UNIT_TYPE) (by decide) (by decide) (by show 6 ≤ _; omega)]
  simp only
  rw [readUInt_long (n := UNIT_SYNC) (by decide) (by decide) (by rw [List.length_drop]; show 2 ≤ _ - 6; omega)]
  simp only [List.drop_drop]
  rw [readUInt_long (n := UNIT_LAYER) (by decide) (by decide) (by rw [List.length_drop]; show 4 ≤ _ - (6 + 2); omega)]
  simp only [List.drop_drop]
  rw [readUInt_long (n := UNIT_DURATION) (by decide) (by decide) (by rw [List.length_drop]; show 24 ≤ _ - (6 + 2 + 4); omega)]
  simp only [List.drop_drop]
  rw [readUInt_32 (by rw [List.length_drop]; show 32 ≤ _ - (6 + 2 + 4 + 24); omega)]
  simp only [List.drop_drop]
  rw [rdBits_long (by rw [List.length_drop]; show 4 ≤ _ - (6 + 2 + 4 + 24 + 32); omega)]
  simp only
  have e : UNIT_TYPE + UNIT_SYNC + UNIT_LAYER + UNIT_DURATION = 36 := rfl
  rw [e, hv, if_neg (by push Not; omega)]
  have e2 : ((announced u : Int) * 8).toNat = announced u * 8 := by omega
  rw [e2]
  rfl

/-- The head of the first packet. -/
theorem firstPacket_head {u : Bits} (h : 96 ≤ u.length) :
    readPacketHeader (u.drop 72) = .ok ((firstPacketType u, firstPacketBits u), u.drop 96) := by
  unfold readPacketHeader
  simp only [Rd.bind_apply, Rd.pure_apply]
  rw [readUInt_long (n := H_MIHS_PACKET_TYPE) (by decide) (by decide) (by rw [List.length_drop]; show 6 ≤ _; omega)]
  simp only [List.drop_drop]
  rw [readUInt_long (n := H_PAYLOAD_LENGTH) (by decide) (by decide) (by rw [List.length_drop]; show 17 ≤ _ - (72 + 6); omega)]
  simp only [List.drop_drop]
  rw [rdBits_long (by rw [List.length_drop]; show 1 ≤ _ - (72 + 6 + 17); omega)]
  simp only [List.drop_drop]
  unfold firstPacketType firstPacketBits unitField
  simp only [Int.toNat_natCast]
  rw [Nat.mul_comm]
  rfl

theorem dispatch_unknown (t : Nat) (ht : 12 ≤ t) (payload : Bits) (r : Reader) : dispatch t payload r = .ok (false, r) := by
  unfold dispatch crcKind
  rw [if_neg (show t ≠ 0 by omega), if_neg (show t ≠ 1 by omega), if_neg (show t ≠ 2 by omega), if_neg (show t ≠ 3 by omega),
    if_neg (show t ≠ 4 by omega), if_neg (show t ≠ 5 by omega), if_neg (show t ≠ 6 by omega), if_neg (show t ≠ 7 by omega),
    if_neg (show t ≠ 8 by omega), if_neg (show t ≠ 9 by omega), if_neg (show t ≠ 10 by omega)]
  simp only
  rw [if_neg (show t ≠ 11 by omega)]

/-- A harmless unit leaves everything but the clock and the state of synchronization as it was. -/
theorem harmless_unit {u : Bits} (hu : u.length = 72 + 8 * announced u) (hh : Harmless u) (r : Reader) :
    ∃ r', readMIHSUnit dispatch u r = .ok (true, r') ∧ r'.haptic = r.haptic ∧ r'.timescale = r.timescale ∧ r'.crc = r.crc := by
  obtain ⟨ha, hb⟩ := hh
  rw [readMIHSUnit_head dispatch u r (by omega) ha]
  rw [unitLoop, if_neg (by omega)]
  by_cases h9 : announced u ≤ 9
  · rw [if_neg (by omega)]
    exact ⟨_, rfl, rfl, rfl, rfl⟩
  · have ht : 12 ≤ firstPacketType u := by omega
    rw [if_pos (by omega)]
    unfold readMIHSPacket
    rw [firstPacket_head (by omega)]
    simp only [dispatch_unknown _ ht]
    exact ⟨_, rfl, rfl, rfl, rfl⟩

theorem harmless_units (all : List Bits) : ∀ (us : List Bits) (r : Reader), (∀ u ∈ us, u.length = 72 + 8 * announced u ∧ Harmless u) → r.crc.nbPackets = 0 →
    ∃ r', readUnits dispatch all us r = .ok (true, r') ∧ r'.haptic = r.haptic ∧ r'.timescale = r.timescale
  | [], r, _, _ => ⟨r, rfl, rfl, rfl⟩
  | u :: us, r, h, hc => by
    obtain ⟨r1, e1, e2, e3, e4⟩ := harmless_unit (h u (by simp)).1 (h u (by simp)).2 r
    obtain ⟨r2, f1, f2, f3⟩ := harmless_units all us r1 (fun v hv => h v (by simp [hv])) (by rw [e4]; exact hc)
    refine ⟨r2, ?_, f2.trans e2, f3.trans e3⟩
    rw [readUnits, e1]
    simp only
    rw [if_neg (by rw [e4]; simpa using hc)]
    exact f1

theorem readNBytes_length (n : Nat) (file : List UInt8) : (readNBytes n file).1.length = 8 * n := by
  unfold readNBytes
  have e : ∀ l : List UInt8, (l.flatMap byteBits).length = 8 * l.length := by
    intro l
    induction l with
    | nil => rfl
    | cons b l ih => rw [List.flatMap_cons, List.length_append, ih, byteBits_length, List.length_cons]; omega
  rw [e]
  unfold takeZ
  rw [List.length_append, List.length_take, List.length_replicate]
  omega

/-- Every unit a file is split into is as long as its head says. -/
theorem loadLoop_lengths (length : Nat) : ∀ (fuel count : Nat) (file : List UInt8) (us : List Bits), loadLoop length fuel count file = .ok us →
    ∀ u ∈ us, u.length = 72 + 8 * announced u
  | 0, _, _, us, h => by cases h
  | fuel + 1, count, file, us, h => by
    rw [loadLoop] at h
    split at h
    · have hl := readNBytes_length 9 file
      generalize hr : readNBytes 9 file = x at h hl
      obtain ⟨header, rest⟩ := x
      simp only at h hl
      rw [readUInt_32 (by rw [List.length_drop]; omega)] at h
      simp only at h
      split at h
      · cases h
      · rename_i hneg
        have hp := readNBytes_length (toSigned 32 (bitsVal ((header.drop 36).take 32) % 2 ^ 32)).toNat rest
        generalize hr' : readNBytes (toSigned 32 (bitsVal ((header.drop 36).take 32) % 2 ^ 32)).toNat rest = y at h hp
        obtain ⟨payload, rest'⟩ := y
        simp only at h hp
        cases hrec : loadLoop length fuel (count + 9 + (toSigned 32 (bitsVal ((header.drop 36).take 32) % 2 ^ 32)).toNat) rest' with
        | error e => rw [hrec] at h; cases h
        | ok us' =>
          rw [hrec] at h
          have := Except.ok.inj h
          subst this
          intro u hu
          rcases List.mem_cons.mp hu with rfl | hu
          · have hb : bitsVal ((header.drop 36).take 32) < 2 ^ 32 := by
              refine lt_of_lt_of_le (bitsVal_lt _) (Nat.pow_le_pow_right (by decide) ?_)
              rw [List.length_take]; omega
            have ha : announced (header ++ payload) = bitsVal ((header.drop 36).take 32) := by
              unfold announced unitField
              rw [List.drop_append_of_le_length (by omega), List.take_append_of_le_length (by rw [List.length_drop]; omega)]
            rw [ha, List.length_append, hl, hp]
            have : toSigned 32 (bitsVal ((header.drop 36).take 32) % 2 ^ 32) = (bitsVal ((header.drop 36).take 32) : Int) := by
              rw [Nat.mod_eq_of_lt hb] at hneg ⊢
              unfold toSigned at hneg ⊢
              split at hneg
              · rename_i h1; rw [if_pos h1]
              · omega
            rw [this]
            omega
          · exact loadLoop_lengths length fuel _ _ _ hrec u hu
    · cases h
      intro u hu
      cases hu

/-- **C118 (partial)** A file of any bytes that is split into harmless units is read safely: success is reported, and nothing is received. -/
theorem c118_harmless_partial (file : List UInt8) (units : List Bits) (hl : loadFile file = .ok units) (hh : ∀ u ∈ units, Harmless u) :
    readStream file = .ok (true, some { timescale := some 1000 }) := by
  obtain ⟨r', e1, e2, e3⟩ := harmless_units units units {} (fun u hu => ⟨loadLoop_lengths _ _ _ _ _ hl u hu, hh u hu⟩) rfl
  unfold readStream readFile
  rw [hl]
  simp only [e1, e2, e3]

/-- Non-vacuity: a file of two units: one without packets, and one with a packet of type 63. -/
def strayFile : List UInt8 := [0, 0, 0, 0, 0, 0, 0, 0, 0] ++ [0, 0, 0, 0, 0, 0, 0, 0, 0xA0] ++ [0xFC, 0, 0, 0, 0, 0, 0, 0, 0, 0]

example : ∃ units, loadFile strayFile = .ok units ∧ units.length = 2 ∧ (∀ u ∈ units, announced u < 2 ^ 28 ∧ (announced u ≤ 9 ∨ 12 ≤ firstPacketType u)) := by
  refine ⟨_, rfl, by decide +kernel, by decide +kernel⟩

/-- **C118, negation.** A file whose first unit begins with a packet with the time, which says that it is longer than the rest of the unit, makes the reader run out of the unit, which
is undefined behaviour. -/
theorem c118_beyond_negation (file : List UInt8) (u : Bits) (units : List Bits) (hl : loadFile file = .ok (u :: units)) (ha : announced u < 2 ^ 28)
    (h9 : 9 < announced u) (ht : firstPacketType u = 0) (hb : u.length < 96 + firstPacketBits u) : readStream file = .error .ub := by
  have hu := loadLoop_lengths _ _ _ _ _ hl u (by simp)
  unfold readStream readFile
  rw [hl]
  simp only
  rw [readUnits, readMIHSUnit_head dispatch u {} (by omega) ha]
  have key : ∀ r : Reader, r.timescale = 1000 → unitLoop dispatch u (announced u * 8) (announced u * 8 + 1) 72 r = .error .ub := by
    intro r hr
    rw [unitLoop, if_neg (by omega), if_pos (by omega)]
    unfold readMIHSPacket
    rw [firstPacket_head (by omega), ht]
    simp only
    have hd : ∃ r', dispatch 0 (u.drop 96) r = .ok (true, r') := by
      unfold dispatch
      rw [if_pos rfl]
      unfold handle readTiming
      simp only [Rd.bind_apply, Rd.pure_apply]
      rw [readUInt_32 (by rw [List.length_drop]; omega)]
      simp only
      unfold onTiming
      rw [if_neg (by omega)]
      exact ⟨_, rfl⟩
    obtain ⟨r', hr'⟩ := hd
    rw [hr']
    simp only
    generalize hn : announced u * 8 = n at h9 ⊢
    cases n with
    | zero => omega
    | succ n =>
      rw [unitLoop, if_pos (show u.length < 72 + firstPacketBits u + 24 by omega)]
  rw [key _ rfl]

theorem readNBytes_take (n : Nat) (file : List UInt8) (h : n ≤ file.length) : (readNBytes n file).1 = (file.flatMap byteBits).take (8 * n) := by
  have e : ∀ (n : Nat) (l : List UInt8), (l.take n).flatMap byteBits = (l.flatMap byteBits).take (8 * n) := by
    intro n
    induction n with
    | zero => intro l; simp
    | succ n ih =>
      intro l
      cases l with
      | nil => simp
      | cons b l =>
        have h8 : (byteBits b).take (8 * (n + 1)) = byteBits b := List.take_of_length_le (by rw [byteBits_length]; omega)
        rw [List.take_succ_cons, List.flatMap_cons, List.flatMap_cons, ih, List.take_append, byteBits_length, h8]
        rfl
  show (takeZ n file).flatMap byteBits = _
  have : takeZ n file = file.take n := by
    unfold takeZ
    rw [show n - file.length = 0 by omega]
    simp
  rw [this, e]

/-- The length that `loadFile` reads for the first unit of a file. -/
theorem first_announced (file : List UInt8) (h : 9 ≤ file.length) : bitsVal (((readNBytes 9 file).1.drop 36).take 32) = announced (file.flatMap byteBits) := by
  unfold announced unitField
  rw [readNBytes_take 9 file h, List.drop_take, List.take_take]
  rfl

/-- **C118, negation.** A file whose first unit says that 2^31 bytes or more follow ends the program with an exception that is not caught. -/
theorem c118_length_negation (file : List UInt8) (h : 9 ≤ file.length) (ha : 2 ^ 31 ≤ announced (file.flatMap byteBits)) : readStream file = .error .throw := by
  have ha' := first_announced file h
  have hl := readNBytes_length 9 file
  unfold readStream readFile loadFile
  rw [loadLoop, if_pos (by omega)]
  generalize hr : readNBytes 9 file = x at ha' hl
  obtain ⟨header, rest⟩ := x
  simp only at ha' hl ⊢
  rw [readUInt_32 (by rw [List.length_drop]; omega)]
  simp only
  have hb : bitsVal ((header.drop 36).take 32) < 2 ^ 32 := by
    refine lt_of_lt_of_le (bitsVal_lt _) (Nat.pow_le_pow_right (by decide) ?_)
    rw [List.length_take]; omega
  have hneg : toSigned 32 (bitsVal ((header.drop 36).take 32) % 2 ^ 32) < 0 := by
    rw [Nat.mod_eq_of_lt hb, ha']
    rw [ha'] at hb
    unfold toSigned
    rw [if_neg (by omega)]
    omega
  rw [if_pos hneg]

/-- **C118, negation.** A small file whose first unit says that 2^28 bytes or more follow, and fewer than 2^31, makes an `int` overflow, which is undefined behaviour. -/
theorem c118_overflow_negation (file : List UInt8) (h : 9 ≤ file.length) (hs : file.length ≤ 2 ^ 28) (ha : 2 ^ 28 ≤ announced (file.flatMap byteBits))
    (hb : announced (file.flatMap byteBits) < 2 ^ 31) : readStream file = .error .ub := by
  have ha' := first_announced file h
  have hl := readNBytes_length 9 file
  unfold readStream readFile loadFile
  rw [loadLoop, if_pos (by omega)]
  generalize hr : readNBytes 9 file = x at ha' hl
  obtain ⟨header, rest⟩ := x
  simp only at ha' hl ⊢
  rw [readUInt_32 (by rw [List.length_drop]; omega)]
  simp only
  have hv : toSigned 32 (bitsVal ((header.drop 36).take 32) % 2 ^ 32) = (announced (file.flatMap byteBits) : Int) := by
    rw [ha', Nat.mod_eq_of_lt (by omega)]
    unfold toSigned
    rw [if_pos (by omega)]
  generalize announced (file.flatMap byteBits) = n at ha hb ha' hv
  rw [hv, if_neg (by omega), Int.toNat_natCast]
  generalize hr' : readNBytes n rest = y
  obtain ⟨payload, rest'⟩ := y
  simp only
  obtain ⟨len, hlen⟩ : ∃ len, file.length = len + 1 := ⟨file.length - 1, by omega⟩
  have hrec : loadLoop file.length file.length (0 + 9 + n) rest' = .ok [] := by
    generalize hL : file.length = L at hlen hs ⊢
    subst hlen
    rw [loadLoop, if_neg (by omega)]
  rw [hrec]
  simp only
  rw [readUnits]
  have hunit : readMIHSUnit dispatch (header ++ payload) {} = .error .ub := by
    have hlen : 72 ≤ (header ++ payload).length := by rw [List.length_append]; omega
    have hd : ((header ++ payload).drop 36).take 32 = (header.drop 36).take 32 := by
      rw [List.drop_append_of_le_length (by omega), List.take_append_of_le_length (by rw [List.length_drop]; omega)]
    rw [← hd] at hv
    generalize header ++ payload = u at hlen hv
    unfold readMIHSUnit
    simp only [Rd.bind_apply, Rd.pure_apply]
    rw [readUInt_long (n := UNIT_TYPE) (by decide) (by decide) (by show 6 ≤ _; omega)]
    simp only
    rw [readUInt_long (n := UNIT_SYNC) (by decide) (by decide) (by rw [List.length_drop]; show 2 ≤ _ - 6; omega)]
    simp only [List.drop_drop]
    rw [readUInt_long (n := UNIT_LAYER) (by decide) (by decide) (by rw [List.length_drop]; show 4 ≤ _ - (6 + 2); omega)]
    simp only [List.drop_drop]
    rw [readUInt_long (n := UNIT_DURATION) (by decide) (by decide) (by rw [List.length_drop]; show 24 ≤ _ - (6 + 2 + 4); omega)]
    simp only [List.drop_drop]
    rw [readUInt_32 (by rw [List.length_drop]; show 32 ≤ _ - (6 + 2 + 4 + 24); omega)]
    simp only [List.drop_drop]
    rw [rdBits_long (by rw [List.length_drop]; show 4 ≤ _ - (6 + 2 + 4 + 24 + 32); omega)]
    simp only
    have e : UNIT_TYPE + UNIT_SYNC + UNIT_LAYER + UNIT_DURATION = 36 := rfl
    rw [e, hv, if_pos (by push Not; omega)]
  rw [hunit]

/-- Whether reading ends in undefined behaviour. -/
def endsInUB : Except Err (Bool × Option Experience) → Bool
  | .error .ub => true
  | _ => false

/-- **C118, negation.** A file of 19 bytes, with metadata that end in the middle of a text, is read beyond the end of its unit. -/
theorem c118_text_negation : endsInUB (readStream ([0, 0, 0, 0, 0, 0, 0, 0, 0xA0] ++ [0x04, 0, 14] ++ List.replicate 7 0xFF)) = true := by decide +kernel

/-- Non-vacuity: a file of one unit with the time at 0, in a packet that says that it has 200 bytes; and a file of nine bytes. -/
def beyondFile : List UInt8 := [0, 0, 0, 0, 0, 0, 0, 0, 0xA0] ++ [0, 1, 0x90, 0, 0, 0, 0, 0, 0, 0]

example : readStream beyondFile = .error .ub :=
  c118_beyond_negation beyondFile _ _ rfl (by decide +kernel) (by decide +kernel) (by decide +kernel) (by decide +kernel)

example : readStream [0, 0, 0, 0, 8, 0, 0, 0, 0] = .error .throw := c118_length_negation _ (by decide) (by decide +kernel)

example : readStream [0, 0, 0, 0, 1, 0, 0, 0, 0] = .error .ub := c118_overflow_negation _ (by decide) (by decide) (by decide +kernel) (by decide +kernel)

end Haptics
