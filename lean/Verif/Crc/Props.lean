import Verif.Crc.Lemmas

namespace Haptics
open Polynomial

/-! ## C11 – the stream CRC is the polynomial remainder -/

/-- `computeCRC` leaves exactly the remainder of `message · x^n` by `x^n + polynomial` over GF(2), on
`n` bits, for every message and every polynomial of any degree `n`. -/
theorem c11_crc_is_remainder (m p : Bits) :
    (computeCRC m p).length = p.length ∧
      bitsPoly (computeCRC m p) = (bitsPoly m * X ^ p.length) %ₘ genPoly p := by
  refine ⟨computeCRC_length m p, ?_⟩
  obtain ⟨q, hq⟩ := computeCRC_dvd m p
  have := (div_modByMonic_unique (f := bitsPoly m * X ^ p.length) (-q) (bitsPoly (computeCRC m p))
    (genPoly_monic p) ⟨by rw [mul_neg, ← hq]; ring, ?_⟩).2
  · exact this.symm
  · rw [genPoly_degree]
    have := bitsPoly_degree_lt (computeCRC m p)
    rwa [computeCRC_length] at this

/-- The two polynomials of the standard, spelled out: CRC16 = x^16+x^15+x^14+x^5+1. -/
theorem c11_crc16_generator :
    genPoly (writeNBits 16 CRC16_POLYNOMIAL) = X ^ 16 + X ^ 15 + X ^ 14 + X ^ 5 + 1 := by
  have : writeNBits 16 CRC16_POLYNOMIAL = [true, true, false, false, false, false, false, false, false,
    false, true, false, false, false, false, true] := by decide
  rw [this]
  simp [genPoly, bitsPoly]
  ring

/-! ## C12 – error detection -/

/-- An unaltered block always passes: the receiver, recomputing the CRC of the block it received, finds
the transmitted CRC. Equivalently block followed by CRC is divisible by the generator. -/
theorem c12_unaltered_passes (m p : Bits) : genPoly p ∣ bitsPoly (m ++ computeCRC m p) :=
  (crc_accept_iff m (computeCRC m p) p (computeCRC_length m p)).1 rfl

/-- Burst errors of at most `n` bits anywhere in the block *or in the CRC field itself* (or straddling
both) are always detected: the receiver's CRC of the received block differs from the received CRC. -/
theorem c12_burst_detected (m p e : Bits) (hp : p.getLast? = some true)
    (hlen : e.length = m.length + p.length) (he : IsBurst p.length e) :
    let received := xorBits (m ++ computeCRC m p) e
    computeCRC (received.take m.length) p ≠ received.drop m.length := by
  intro received
  have hl : (m ++ computeCRC m p).length = e.length := by
    rw [List.length_append, computeCRC_length, hlen]
  have hrl : received.length = m.length + p.length := by
    simp only [received, xorBits, List.length_zipWith, hl, hlen, min_self]
  intro h
  rw [crc_accept_iff _ _ _ (by rw [List.length_drop, hrl]; omega), List.take_append_drop] at h
  have h1 := c12_unaltered_passes m p
  simp only [received] at h
  rw [bitsPoly_xorBits _ _ hl] at h
  exact burst_not_dvd p e hp he ((dvd_add_right h1).1 h)

/-- CRC16 packets: every burst of at most 16 bits is detected, for blocks of any length. -/
theorem c12_crc16 (m e : Bits) (hlen : e.length = m.length + 16) (he : IsBurst 16 e) :
    let received := xorBits (m ++ computeCRC m (writeNBits 16 CRC16_POLYNOMIAL)) e
    computeCRC (received.take m.length) (writeNBits 16 CRC16_POLYNOMIAL) ≠ received.drop m.length :=
  c12_burst_detected m (writeNBits 16 CRC16_POLYNOMIAL) e (by decide) hlen he

/-- CRC32 packets: every burst of at most 32 bits is detected, for blocks of any length. -/
theorem c12_crc32 (m e : Bits) (hlen : e.length = m.length + 32) (he : IsBurst 32 e) :
    let received := xorBits (m ++ computeCRC m (writeNBits 32 CRC32_POLYNOMIAL)) e
    computeCRC (received.take m.length) (writeNBits 32 CRC32_POLYNOMIAL) ≠ received.drop m.length :=
  c12_burst_detected m (writeNBits 32 CRC32_POLYNOMIAL) e (by decide) hlen he

/-- Single-bit errors are bursts of length one. -/
theorem c12_single_bit_is_burst (n i k : Nat) (hn : 0 < n) :
    IsBurst n (List.replicate i false ++ [true] ++ List.replicate k false) :=
  ⟨i, k, [true], rfl, by simpa using Nat.succ_le_of_lt hn, by simp⟩

/-- An alteration of the message only (the CRC arriving intact) changes the CRC. -/
theorem c12_message_burst_changes_crc (m p e : Bits) (hp : p.getLast? = some true)
    (hlen : e.length = m.length) (he : IsBurst p.length e) :
    computeCRC (xorBits m e) p ≠ computeCRC m p := by
  intro h
  rw [crc_accept_iff _ _ _ (computeCRC_length m p)] at h
  have h1 := c12_unaltered_passes m p
  rw [bitsPoly_append, bitsPoly_xorBits _ _ hlen.symm] at h
  rw [bitsPoly_append] at h1
  have h2 := dvd_sub h h1
  have e2 : (bitsPoly m + bitsPoly e) * X ^ (computeCRC m p).length + bitsPoly (computeCRC m p)
      - (bitsPoly m * X ^ (computeCRC m p).length + bitsPoly (computeCRC m p))
      = bitsPoly (e ++ List.replicate p.length false) := by
    rw [bitsPoly_append, computeCRC_length]; simp; ring
  rw [e2] at h2
  obtain ⟨a, c, b, rfl, hb, ht⟩ := he
  exact burst_not_dvd p _ hp ⟨a, c + p.length, b, by simp, hb, ht⟩ h2

example : IsBurst 16 (List.replicate 5 false ++ [true, false, true] ++ List.replicate 20 false) :=
  ⟨5, 20, _, rfl, by decide, by decide⟩

/-! ### The packet functions around the CRC -/

/-- Global CRC packets written for two or more packets are read back as the packet count (below 256) and
the CRC of the concatenated packets. -/
theorem c12_global_crc_roundtrip (packets : List Bits) (h2 : 2 ≤ packets.length)
    (h256 : packets.length < 256) (hne : packets.flatten ≠ []) :
    ∃ w, writeCRC packets 0 = .ok w ∧ readCRC .globalCrc16 w =
      .ok ({ nbPackets := packets.length,
             value16 := bitsVal (computeCRC packets.flatten (writeNBits 16 CRC16_POLYNOMIAL)),
             value32 := 0 }, []) := by
  refine ⟨writeNBits 8 packets.length ++
    computeCRC packets.flatten (writeNBits 16 CRC16_POLYNOMIAL), ?_, ?_⟩
  · match packets, h2, hne with
    | a :: b :: t, _, hne => simp only [writeCRC, crcPolynomial, if_neg hne]
  · unfold readCRC
    simp only [Rd.bind_apply]
    rw [rdU_writeNBits 8 packets.length _ (by omega)]
    have := rdU_append (computeCRC packets.flatten (writeNBits 16 CRC16_POLYNOMIAL)) [] 16
      (by rw [computeCRC_length]; simp)
    rw [List.append_nil] at this
    simp only [this, Rd.pure_apply]

example : ([[true], [false, true]] : List Bits).flatten ≠ [] := by decide

/-- Full property "what was protected passes the check" fails: the check concatenates the protected
packets in reverse order, so two intact packets are rejected. -/
theorem c12_check_rejects_intact_packets : ∃ packets w crc,
    writeCRC packets 0 = .ok w ∧ readCRC .globalCrc16 w = .ok (crc, []) ∧
    (checkCRC packets crc).1 = false := by
  refine ⟨[[true], [false, true]], _, _, rfl, rfl, ?_⟩
  decide

/-- A CRC protecting a single packet can never be written, although packet types for it exist. -/
theorem c12_single_packet_crc_unwritable (p : Bits) (level : Nat) : ∃ e, writeCRC [p] level = .error e := by
  unfold writeCRC
  cases crcPolynomial level <;> exact ⟨_, rfl⟩

/-- Writing a CRC over no packet indexes an empty vector. -/
theorem c12_empty_crc_ub : writeCRC [] 0 = .error .ub := rfl

/-- A CRC whose value happens to be 0 is always reported as a mismatch, even for the intact block. -/
theorem c12_zero_crc_rejected (packets : List Bits) (n : Nat) :
    (checkCRC packets { nbPackets := n, value16 := 0, value32 := 0 }).1 = false := by
  unfold checkCRC
  split <;> simp

/-- ... and such blocks exist: the generator itself as message. -/
example : computeCRC (true :: writeNBits 16 CRC16_POLYNOMIAL) (writeNBits 16 CRC16_POLYNOMIAL)
    = List.replicate 16 false := by decide

/-- What the check does guarantee (single packet, CRC16): it accepts iff the CRC of the packet equals
the transmitted non-zero value. -/
theorem c12_check_single_partial (p : Bits) (v : Nat) (hv : 0 < v) (rest : List Bits) :
    (checkCRC (p :: rest) { nbPackets := 1, value16 := v, value32 := 0 }).1 = true ↔
      bitsVal (computeCRC p (writeNBits 16 CRC16_POLYNOMIAL)) = v := by
  have hl : (computeCRC p (writeNBits 16 CRC16_POLYNOMIAL)).length = 16 := by
    rw [computeCRC_length]; simp
  have ht : (computeCRC p (writeNBits 16 CRC16_POLYNOMIAL)).take 16
      = computeCRC p (writeNBits 16 CRC16_POLYNOMIAL) := List.take_of_length_le (by omega)
  have h1 : (List.take 1 (p :: rest)).foldl (fun acc q => q ++ acc) [] = p := by simp
  unfold checkCRC
  dsimp only
  rw [if_neg (by simp), h1, if_pos hv, ht]
  exact ⟨fun h => (eq_of_beq h).symm, fun h => by rw [h]; exact beq_self_eq_true v⟩

end Haptics
