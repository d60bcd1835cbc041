import Verif.Stream.SpecUnit
import Verif.Stream.MetaLemmas

/- Lemmas about packets and units. -/
namespace Haptics

theorem fillBitset_aligned {a : Bits} (h : a.length % 8 = 0) : fillBitset a = a := by
  simp [fillBitset, h]

theorem fillBitset_append {a : Bits} (b : Bits) (h : a.length % 8 = 0) :
    fillBitset (a ++ b) = a ++ fillBitset b := by
  have : (a.length + b.length) % 8 = b.length % 8 := by omega
  simp [fillBitset, this]

theorem writeBitset_fill (x : Bits) : writeBitset (fillBitset x) = writeBitset x := by
  rw [← writeBitset_bits, writeBitset_byteBits]

theorem writeBitset_append {a : Bits} (b : Bits) (h : a.length % 8 = 0) :
    writeBitset (a ++ b) = writeBitset a ++ writeBitset b := by
  have e : (writeBitset a ++ writeBitset b).flatMap byteBits = fillBitset (a ++ b) := by
    rw [List.flatMap_append, writeBitset_bits, writeBitset_bits, fillBitset_aligned h,
      fillBitset_append b h]
  rw [← writeBitset_fill, ← e, writeBitset_byteBits]

theorem readNBytes_writeBitset {a : Bits} (b : Bits) (n : Nat) (h : a.length = 8 * n) :
    readNBytes n (writeBitset (a ++ b)) = (a, writeBitset b) := by
  have hal : a.length % 8 = 0 := by omega
  have hl : (writeBitset a).length = n := by rw [writeBitset_length]; omega
  rw [writeBitset_append b hal]
  simp only [readNBytes, takeZ, List.length_append]
  have h0 : n - ((writeBitset a).length + (writeBitset b).length) = 0 := by omega
  rw [h0, List.take_append_of_le_length (by omega), List.take_of_length_le (by omega),
    List.drop_append_of_le_length (by omega), List.drop_of_length_le (by omega)]
  simp [writeBitset_bits, fillBitset_aligned hal]

theorem padToByteBoundary_eq (b : Bits) : padToByteBoundary b = fillBitset b := by
  unfold padToByteBoundary fillBitset
  split
  · rename_i h
    congr 2
    omega
  · rename_i h
    have : b.length % 8 = 0 := by omega
    simp [this]

theorem unitHeader_length (t : Nat) (s l d n : Int) : (unitHeader t s l d n).length = 72 := by
  simp only [unitHeader, List.length_append, writeNBits_length]; rfl

theorem writePacketHeader_length (t n : Nat) : (writeMIHSPacketHeader t n).length = 24 := by
  simp only [writeMIHSPacketHeader, List.length_append, writeNBits_length]; rfl

theorem Packet.encode_length (p : Packet) : p.encode.length = 24 + p.payload.length := by
  simp [Packet.encode]; omega

/-- A unit written with `unitHeader` and the right size is a unit. -/
theorem isUnit_of_header (t : Nat) (s l d : Int) (payload : Bits) (h8 : payload.length % 8 = 0)
    (hs : payload.length / 8 < 2 ^ 31) :
    IsUnit (unitHeader t s l d (payload.length / 8 : Nat) ++ payload) := by
  refine ⟨writeNBits UNIT_TYPE t ++ (writeNBits UNIT_SYNC s ++ (writeNBits UNIT_LAYER l
    ++ writeNBits UNIT_DURATION d)), payload.length / 8, writeNBits UNIT_RESERVED 0, payload,
    by simp only [List.length_append, writeNBits_length]; rfl, by simp, by omega, hs, ?_⟩
  simp [unitHeader, List.append_assoc]

theorem loadLoop_units (length : Nat) : ∀ (us : List Bits), (∀ u ∈ us, IsUnit u) →
    ∀ (fuel byteCount : Nat), us.flatten.length = 8 * (length - byteCount) → byteCount ≤ length →
      us.length < fuel → loadLoop length fuel byteCount (writeBitset us.flatten) = .ok us := by
  intro us
  induction us with
  | nil =>
    intro _ fuel bc hl hb hf
    obtain ⟨f, rfl⟩ : ∃ f, fuel = f + 1 := ⟨fuel - 1, by simp at hf; omega⟩
    have : ¬ bc < length := by simp at hl; omega
    simp [loadLoop, this]
  | cons u us ih =>
    intro hu fuel bc hl hb hf
    obtain ⟨f, rfl⟩ : ∃ f, fuel = f + 1 := ⟨fuel - 1, by simp at hf; omega⟩
    obtain ⟨head, n, res, payload, hh, hr, hp, hn, rfl⟩ := hu u (by simp)
    simp only [List.flatten_cons, List.length_append, writeNBits_length] at hl
    have hlt : bc < length := by omega
    have e1 : ((head ++ (writeNBits 32 n ++ (res ++ payload))) :: us).flatten
        = (head ++ (writeNBits 32 n ++ res)) ++ (payload ++ us.flatten) := by
      simp [List.append_assoc]
    have hd : (head ++ (writeNBits 32 (n : Int) ++ res)).drop 36 = writeNBits 32 n ++ res := by
      rw [List.drop_append_of_le_length (by omega), List.drop_of_length_le (by omega)]; simp
    have hrd : readUInt UNIT_LENGTH (writeNBits 32 (n : Int) ++ res) = .ok ((n : Int), res) :=
      c03_readUInt32 n (by omega) (by exact_mod_cast hn) res
    rw [e1]
    unfold loadLoop
    simp only [hlt, if_true]
    rw [readNBytes_writeBitset _ 9 (by simp [hh, hr])]
    simp only [hd, hrd]
    rw [if_neg (by omega)]
    simp only [Int.toNat_natCast]
    rw [readNBytes_writeBitset _ n hp]
    simp only []
    rw [ih (fun v hv => hu v (by simp [hv])) f (bc + 9 + n) (by omega) (by omega)
      (by simp at hf; omega)]
    simp [List.append_assoc]

/-! ### Readers that terminate -/

/-- The reader terminates on every bit string. -/
def Rd.Term {α : Type} (p : Rd α) : Prop := ∀ s, p s ≠ .error .diverge

theorem Rd.Term.pure {α : Type} (a : α) : Rd.Term (pure a : Rd α) := fun s => by
  simp [Rd.pure_apply]

theorem Rd.Term.error {α : Type} {e : Err} (h : e ≠ .diverge) : Rd.Term (Rd.error e : Rd α) :=
  fun s => by simp [Rd.error, h]

theorem Rd.Term.bind {α β : Type} {p : Rd α} {f : α → Rd β} (hp : p.Term) (hf : ∀ a, (f a).Term) :
    Rd.Term (p >>= f) := fun s => by
  rw [Rd.bind_apply]
  have := hp s
  cases h : p s with
  | error e => rw [h] at this; simpa using this
  | ok x => exact hf x.1 x.2

theorem rdBits_term (n : Nat) : Rd.Term (rdBits n) := fun s => by
  unfold rdBits; split <;> simp

theorem rdU_term (n : Nat) : Rd.Term (rdU n) := fun s => by
  unfold rdU rdBits
  split
  · simp
  · rename_i h; split at h <;> cases h <;> simp

theorem readUInt_term (n : Nat) : Rd.Term (readUInt n) := fun s => by
  unfold readUInt rdBits
  split
  · simp
  · split
    · simp
    · rename_i h; split at h <;> cases h <;> simp

/-! ### Reading packets -/

theorem readPacketHeader_encode (p : Packet) (h : p.WF) (rest : Bits) :
    readPacketHeader (p.encode ++ rest) = .ok ((p.type, p.payload.length), p.payload ++ rest) := by
  have hl : p.payload.length / 8 * 8 = p.payload.length := by have := h.aligned; omega
  unfold readPacketHeader Packet.encode
  simp only [List.append_assoc, Rd.bind_apply,
    readUInt_wn (n := H_MIHS_PACKET_TYPE) (v := p.type) h.type,
    readUInt_wn (n := H_PAYLOAD_LENGTH) h.size, rdBits_append [false] _ 1 rfl, Rd.pure_apply,
    Int.toNat_natCast, hl]

/-- Packets of which more than 72 bits of the unit are left. -/
def cutTail : List Packet → List Packet
  | [] => []
  | p :: ps => if ((p :: ps).flatMap Packet.encode).length ≤ 72 then [] else p :: cutTail ps

/-- `processAll` on the first packets of a unit. -/
def processFirst (d : Dispatch) : List Packet → Reader → Except Err (Bool × Reader)
  | [], r => .ok (true, r)
  | p :: ps, r =>
    if ((p :: ps).flatMap Packet.encode).length ≤ 72 then .ok (true, r)
    else match d p.type (p.payload ++ ps.flatMap Packet.encode) r with
    | .error e => .error e
    | .ok (false, r') => .ok (false, r')
    | .ok (true, r') => processFirst d ps r'

theorem unitLoop_eq (d : Dispatch) (packets : List Packet) : (∀ p ∈ packets, p.WF) →
    ∀ (pre : Bits) (L fuel : Nat) (r : Reader),
      L + 72 = pre.length + (packets.flatMap Packet.encode).length →
      packets.length < fuel →
      unitLoop d (pre ++ packets.flatMap Packet.encode) L fuel pre.length r
        = processFirst d packets r := by
  induction packets with
  | nil =>
    intro _ pre L fuel r hL hf
    obtain ⟨f, rfl⟩ : ∃ f, fuel = f + 1 := ⟨fuel - 1, by simp at hf; omega⟩
    have : ¬ pre.length < L := by simp at hL; omega
    simp [unitLoop, processFirst, this]
  | cons p ps ih =>
    intro hw pre L fuel r hL hf
    obtain ⟨f, rfl⟩ : ∃ f, fuel = f + 1 := ⟨fuel - 1, by simp at hf; omega⟩
    unfold unitLoop processFirst
    rw [if_neg (by simp)]
    by_cases hc : ((p :: ps).flatMap Packet.encode).length ≤ 72
    · rw [if_neg (by omega), if_pos hc]
    · rw [if_pos (by omega), if_neg hc]
      rw [List.drop_append_of_le_length le_rfl, List.drop_length, List.nil_append]
      simp only [List.flatMap_cons, readMIHSPacket]
      rw [readPacketHeader_encode p (hw p (by simp))]
      simp only []
      cases hd : d p.type (p.payload ++ ps.flatMap Packet.encode) r with
      | error e => rfl
      | ok x =>
        obtain ⟨b, r'⟩ := x
        cases b with
        | false => rfl
        | true =>
          simp only []
          have := ih (fun q hq => hw q (by simp [hq])) (pre ++ p.encode) L f r'
            (by simp only [List.flatMap_cons, List.length_append] at hL ⊢; omega)
            (by simp at hf; omega)
          rw [← this, List.append_assoc]
          congr 1
          simp only [List.length_append, Packet.encode_length, H_NBITS]; omega

theorem processFirst_eq (d : Dispatch) (packets : List Packet) (r : Reader)
    (h : ∀ hne : packets ≠ [], 48 < (packets.getLast hne).payload.length) :
    processFirst d packets r = processAll d packets r := by
  induction packets generalizing r with
  | nil => rfl
  | cons p ps ih =>
    unfold processFirst processAll
    have hlen : ¬ ((p :: ps).flatMap Packet.encode).length ≤ 72 := by
      have hl := h (by simp)
      have hmem := List.getLast_mem (l := p :: ps) (by simp)
      have h2 : ((p :: ps).getLast (by simp)).encode.length ≤ ((p :: ps).flatMap Packet.encode).length := by
        rw [List.flatMap_def]
        exact List.Sublist.length_le (List.sublist_flatten_of_mem (List.mem_map_of_mem hmem))
      rw [Packet.encode_length] at h2
      omega
    rw [if_neg hlen]
    have ih' := fun r' => ih r' (fun hne => by
      have := h (by simp)
      rwa [List.getLast_cons hne] at this)
    cases d p.type (p.payload ++ ps.flatMap Packet.encode) r with
    | error e => rfl
    | ok x =>
      obtain ⟨b, r'⟩ := x
      cases b with
      | false => rfl
      | true => exact ih' r'

theorem packets_length_le (packets : List Packet) :
    packets.length ≤ (packets.flatMap Packet.encode).length := by
  induction packets with
  | nil => simp
  | cons p ps ih => simp only [List.length_cons, List.flatMap_cons, List.length_append,
      Packet.encode_length]; omega

theorem packets_aligned (packets : List Packet) (h : ∀ p ∈ packets, p.WF) :
    (packets.flatMap Packet.encode).length % 8 = 0 := by
  induction packets with
  | nil => simp
  | cons p ps ih =>
    have := (h p (by simp)).aligned
    have := ih (fun q hq => h q (by simp [hq]))
    simp only [List.flatMap_cons, List.length_append, Packet.encode_length]; omega

/-- What `readMIHSUnit` does on every unit made of packets. -/
theorem readMIHSUnit_eq (d : Dispatch) (t sync layer duration : Nat) (ht : t < 64) (hs : sync < 4)
    (hl : layer < 16) (hd : duration < 2 ^ 24) (packets : List Packet) (hw : ∀ p ∈ packets, p.WF)
    (hsz : (packets.flatMap Packet.encode).length / 8 < 2 ^ 28) (r : Reader) :
    readMIHSUnit d (unitHeader t sync layer duration
        ((packets.flatMap Packet.encode).length / 8 : Nat) ++ packets.flatMap Packet.encode) r
      = match processFirst d packets { r with waitSync := r.waitSync && !(sync == 0), layer := layer,
                                              packetDuration := duration } with
        | .error e => .error e
        | .ok (false, r') => .ok (true, r')
        | .ok (true, r') => .ok (true, { r' with time := (r'.time + r'.packetDuration) % 2 ^ 32 }) := by
  have hal := packets_aligned packets hw
  have hloop := fun r' => unitLoop_eq d packets hw
    (unitHeader t sync layer duration ((packets.flatMap Packet.encode).length / 8 : Nat))
    (packets.flatMap Packet.encode).length ((packets.flatMap Packet.encode).length + 1) r'
    (by rw [unitHeader_length]; omega)
    (by have := packets_length_le packets; omega)
  simp only [unitHeader_length] at hloop
  generalize hB : packets.flatMap Packet.encode = B at *
  have hL : ((B.length / 8 : Nat) : Int) * 8 = (B.length : Int) := by omega
  have hfold : unitHeader t sync layer duration (B.length / 8 : Nat) ++ B = writeNBits UNIT_TYPE t ++
      (writeNBits UNIT_SYNC sync ++ (writeNBits UNIT_LAYER layer ++ (writeNBits UNIT_DURATION duration
      ++ (writeNBits UNIT_LENGTH (B.length / 8 : Nat) ++ (writeNBits UNIT_RESERVED 0 ++ B))))) := by
    simp [unitHeader, List.append_assoc]
  have hrd : readUInt UNIT_LENGTH (writeNBits UNIT_LENGTH (B.length / 8 : Nat) ++
      (writeNBits UNIT_RESERVED 0 ++ B)) = .ok (((B.length / 8 : Nat) : Int), writeNBits UNIT_RESERVED 0 ++ B) :=
    c03_readUInt32 _ (by omega) (by omega) _
  unfold readMIHSUnit
  conv_lhs => rw [hfold]
  simp only [Rd.bind_apply, readUInt_wn (n := UNIT_TYPE) ht, readUInt_wn (n := UNIT_SYNC) hs,
    readUInt_wn (n := UNIT_LAYER) hl, readUInt_wn (n := UNIT_DURATION) hd, hrd,
    rdBits_append (writeNBits UNIT_RESERVED 0) B 4 (by simp), Rd.pure_apply]
  rw [if_neg (by push Not; exact ⟨by omega, by omega⟩)]
  rw [hL]
  simp only [Int.toNat_natCast]
  rw [← hfold]
  have hse : ((sync : Int) == 0) = (sync == 0) := by
    cases sync with
    | zero => rfl
    | succ n => rfl
  rw [hloop, hse]
  rcases processFirst d packets _ with e | ⟨b, r'⟩
  · rfl
  · cases b <;> rfl

end Haptics
