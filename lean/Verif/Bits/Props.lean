import Verif.Bits.Lemmas
import Verif.Bits.Spec

namespace Haptics

/-! ## C02 – the file reader is a cursor over the zero-extended bit string of the file -/

/-- One read returns the next `n` bits as a number and leaves the cursor exactly `n` bits further. -/
theorem c02_read_is_cursor (n : Nat) (s : FileSt) :
    (readNBitsF n s).1 = fieldAt s.bit 0 n ∧ ∀ i, (readNBitsF n s).2.bit i = s.bit (n + i) := by
  unfold readNBitsF
  by_cases h : n > s.unused.length
  · simp only [h, if_true]
    set nb := n - s.unused.length with hnb
    set B := if nb % 8 = 0 then nb / 8 else nb / 8 + 1 with hB
    have hBn : nb ≤ 8 * B := by rw [hB]; split <;> omega
    have key : ∀ i, i < s.unused.length + 8 * B →
        (s.unused ++ (takeZ B s.rest).flatMap byteBits).getD i false = s.bit i := by
      intro i hi
      have ht := takeZ_getD B s.rest (i - s.unused.length)
      simp only [FileSt.bit, List.getD_eq_getElem?_getD, List.getElem?_append] at ht ⊢
      split
      · rfl
      · rw [ht, if_pos (by omega)]
    constructor
    · rw [orBits_eq]
      unfold fieldAt
      congr 1
      apply List.map_congr_left
      intro i hi
      have hi : i < n := by simpa using hi
      rw [key i (by omega)]; simp
    · intro i
      have hl : (s.unused ++ (takeZ B s.rest).flatMap byteBits).length = s.unused.length + 8 * B := by
        rw [List.length_append, takeZ_bits_length]
      by_cases hi : n + i < s.unused.length + 8 * B
      · rw [← key _ hi]
        simp only [FileSt.bit, List.getD_eq_getElem?_getD, List.getElem?_append, List.length_drop, hl,
          List.getElem?_drop]
        rw [if_pos (by omega)]
      · have hd := flatMap_drop8 s.rest B (i - (s.unused.length + 8 * B - n))
        simp only [FileSt.bit, List.getD_eq_getElem?_getD, List.getElem?_append, List.length_drop, hl]
          at hd ⊢
        rw [if_neg (by omega), if_neg (by omega), hd]
        congr 2; omega
  · simp only [h, if_false]
    constructor
    · rw [orBits_eq]
      unfold fieldAt
      congr 1
      apply List.map_congr_left
      intro i hi
      have hi : i < n := by simpa using hi
      simp only [FileSt.bit, List.getD_eq_getElem?_getD, List.getElem?_append, zero_add]
      rw [if_pos (by omega)]
    · intro i
      simp only [FileSt.bit, List.getD_eq_getElem?_getD, List.getElem?_append, List.length_drop,
        List.getElem?_drop]
      by_cases hi : n + i < s.unused.length
      · rw [if_pos hi, if_pos (by omega)]
      · rw [if_neg hi, if_neg (by omega)]
        congr 2; omega

theorem readAll_spec (ns : List Nat) (s : FileSt) (f : Nat → Bool) (o : Nat)
    (h : ∀ i, s.bit i = f (o + i)) : (readAll ns s).1 = fieldsAt f o ns := by
  induction ns generalizing s o with
  | nil => rfl
  | cons n ns ih =>
    have hc := c02_read_is_cursor n s
    simp only [readAll, fieldsAt]
    congr 1
    · rw [hc.1]; unfold fieldAt
      congr 1
      apply List.map_congr_left
      intro i _; rw [h]; simp
    · apply ih
      intro i
      rw [hc.2, h, Nat.add_assoc]

/-- Any history of reads on any file, from any pending-bits state, returns consecutive fields of the
file's bits (continued by zeros). -/
theorem c02_history_is_cursor (ns : List Nat) (s : FileSt) :
    (readAll ns s).1 = fieldsAt s.bit 0 ns :=
  readAll_spec ns s s.bit 0 (by simp)

-- a history that crosses byte boundaries and the end of the file
example : (readAll [3, 7, 9] ⟨[true], [0xA5, 0xFF]⟩).1 = [6, 75, 508] := by decide

/-! ## C01 – integer fields round-trip at any alignment -/

/-- A sequence of fields `(width, value)`, written with `writeNBits`, completed to whole bytes and
stored, is read back unchanged with the same widths.  Every field starts wherever the previous one
ended, so every alignment occurs. -/
theorem c01_fields_roundtrip (fs : List (Nat × Nat)) (h : ∀ f ∈ fs, f.2 < 2 ^ f.1) :
    (readAll (fs.map Prod.fst)
      ⟨[], writeBitset (fillBitset (fs.flatMap fun f => writeNBits f.1 f.2))⟩).1 = fs.map Prod.snd := by
  rw [c02_history_is_cursor]
  have main : ∀ (fs : List (Nat × Nat)) (pre : Bits) (g : Nat → Bool),
      (∀ f ∈ fs, f.2 < 2 ^ f.1) →
      (∀ i, g i = (pre ++ fs.flatMap fun f => writeNBits f.1 (f.2 : Int)).getD i false) →
      fieldsAt g pre.length (fs.map Prod.fst) = fs.map Prod.snd := by
    intro fs
    induction fs with
    | nil => intros; rfl
    | cons f fs ih =>
      intro pre g hf hg
      simp only [List.map_cons, fieldsAt]
      congr 1
      · have hb : ((List.range f.1).map fun i => g (pre.length + i)) = writeNBits f.1 (f.2 : Int) := by
          apply List.ext_getElem
          · simp
          · intro i h1 h2
            simp only [writeNBits_length] at h2
            simp only [List.getElem_map, List.getElem_range, hg, List.flatMap_cons,
              List.getD_eq_getElem?_getD]
            rw [List.getElem?_append_right (by omega), List.getElem?_append_left (by simp; omega)]
            simp [h2]
        unfold fieldAt
        rw [hb, bitsVal_writeNBits_nat _ _ (hf f (by simp))]
      · have := ih (pre ++ writeNBits f.1 (f.2 : Int)) g (fun x hx => hf x (by simp [hx]))
          (by intro i; rw [hg]; simp)
        simpa using this
  apply main fs [] _ h
  intro i
  simp only [FileSt.bit, List.nil_append]
  rw [writeBitset_bits, getD_fillBitset, getD_fillBitset]

example : ∀ f ∈ [(3, 5), (25, 2 ^ 24 + 7), (16, 65535), (1, 0)], f.2 < 2 ^ f.1 := by decide

/-- Single-field form: with `pre` pending bits before it and `post` after it, the field is recovered
and the next read starts right after it. -/
theorem c01_field_roundtrip (n v : Nat) (h : v < 2 ^ n) (unused : Bits) (rest : List UInt8) (post : Bits)
    (hs : unused ++ rest.flatMap byteBits = writeNBits n v ++ post) :
    (readNBitsF n ⟨unused, rest⟩).1 = v ∧
      ∀ i, (readNBitsF n ⟨unused, rest⟩).2.bit i = post.getD i false := by
  have hc := c02_read_is_cursor n ⟨unused, rest⟩
  have hb : ∀ i, FileSt.bit ⟨unused, rest⟩ i = (writeNBits n (v : Int) ++ post).getD i false := by
    intro i; simp only [FileSt.bit, hs]
  constructor
  · rw [hc.1]
    have : ((List.range n).map fun i => FileSt.bit ⟨unused, rest⟩ (0 + i)) = writeNBits n (v : Int) := by
      apply List.ext_getElem
      · simp
      · intro i h1 h2
        simp only [writeNBits_length] at h2
        simp only [List.getElem_map, List.getElem_range, hb, List.getD_eq_getElem?_getD, zero_add]
        rw [List.getElem?_append_left (by simp; omega)]
        simp [h2]
    unfold fieldAt
    rw [this, bitsVal_writeNBits_nat _ _ h]
  · intro i
    rw [hc.2, hb]
    simp [List.getD_eq_getElem?_getD, List.getElem?_append]

example : ([true, false] : Bits) ++ [0x80].flatMap byteBits
    = writeNBits 3 5 ++ [false, false, false, false, false, false, false] := by decide

/-- `fillBitset`/`writeBitset` store exactly the bits, followed by fewer than 8 zero bits. -/
theorem c01_packing (b : Bits) :
    (writeBitset b).flatMap byteBits = b ++ List.replicate ((8 - b.length % 8) % 8) false :=
  writeBitset_bits b

/-- Bytes unpacked into bits and packed again are unchanged. -/
theorem c01_packing_inverse (l : List UInt8) : writeBitset (l.flatMap byteBits) = l :=
  writeBitset_byteBits l

/-! ## C03 – signed and unsigned integers of the MIHS bit layer -/

/-- `readUInt` inverts `writeNBits` for values that fit (below 2^31, the range of its `int` result). -/
theorem c03_readUInt (n v : Nat) (hn : 0 < n) (hn31 : n ≤ 31) (h : v < 2 ^ n) (post : Bits) :
    readUInt n (writeNBits n v ++ post) = .ok ((v : Int), post) := by
  unfold readUInt
  rw [if_neg (by omega), rdBits_append _ _ _ (writeNBits_length n v)]
  simp [hn31, bitsVal_writeNBits_nat n v h]

/-- 32-bit fields come back as the `int` with the same 32 bits. -/
theorem c03_readUInt32 (v : Int) (h1 : -2 ^ 31 ≤ v) (h2 : v < 2 ^ 31) (post : Bits) :
    readUInt 32 (writeNBits 32 v ++ post) = .ok (v, post) := by
  unfold readUInt
  rw [if_neg (by omega), rdBits_append _ _ _ (writeNBits_length 32 v)]
  have hb := bitsVal_writeNBits 32 v
  have hlt : bitsVal (writeNBits 32 v) < 2 ^ 32 := by simpa using bitsVal_lt (writeNBits 32 v)
  have e : bitsVal (writeNBits 32 v) % 2 ^ 32 = (v % 2 ^ 32).toNat := by
    rw [Nat.mod_eq_of_lt hlt]; omega
  simp only [e]
  rw [toSigned_emod 32 (by omega) v (by simpa using h1) (by simpa using h2)]
  simp

theorem map_not_not (l : Bits) : (l.map not).map not = l := by
  simp [Function.comp_def]

theorem bitsVal_map_not (l : Bits) : bitsVal (l.map not) + bitsVal l + 1 = 2 ^ l.length := by
  induction l with
  | nil => rfl
  | cons b l ih =>
    rw [List.map_cons, bitsVal_cons, bitsVal_cons, List.length_map, List.length_cons, pow_succ]
    cases b <;> simp <;> omega

/-- `readInt` inverts `writeNBits` on every two's-complement value of the field. -/
theorem c03_readInt (n : Nat) (hn : 0 < n) (hn31 : n ≤ 31) (v : Int)
    (h1 : -2 ^ (n - 1) ≤ v) (h2 : v < 2 ^ (n - 1)) (post : Bits) :
    readInt n (writeNBits n v ++ post) = .ok (v, post) := by
  obtain ⟨m, rfl⟩ : ∃ m, n = m + 1 := ⟨n - 1, by omega⟩
  simp only [Nat.add_sub_cancel] at h1 h2
  have hp : (2 : Int) ^ (m + 1) = 2 * 2 ^ m := by ring
  have hpos : (0 : Int) < 2 ^ m := by positivity
  have hbv := bitsVal_writeNBits (m + 1) v
  have hcons : ∃ b t, writeNBits (m + 1) v = b :: t ∧ b = decide (v < 0) := by
    refine ⟨_, _, writeNBits_succ m v, ?_⟩
    rcases lt_or_ge v 0 with hv | hv
    · have : v / 2 ^ m = -1 := by
        rw [Int.ediv_eq_iff_of_pos hpos]; constructor <;> omega
      simp [this, hv]
    · have : v / 2 ^ m = 0 := Int.ediv_eq_zero_of_lt hv h2
      simp [this, hv]
  obtain ⟨b, t, ht, hb⟩ := hcons
  rcases lt_or_ge v 0 with hv | hv
  · have hbt : b = true := by simpa [hv] using hb
    subst hbt
    have hlen : ((writeNBits (m + 1) v).map not).length = m + 1 := by simp
    have hr : readUInt (m + 1) ((writeNBits (m + 1) v).map not ++ post.map not)
        = .ok ((bitsVal ((writeNBits (m + 1) v).map not) : Int), post.map not) := by
      unfold readUInt
      rw [if_neg (by omega), rdBits_append _ _ _ hlen]
      simp [hn31]
    have e : readInt (m + 1) (writeNBits (m + 1) v ++ post)
        = match readUInt (m + 1) ((writeNBits (m + 1) v ++ post).map not) with
          | .ok (v, s') => .ok (-(v + 1), s'.map not)
          | .error e => .error e := by
      rw [ht]; rfl
    rw [e, List.map_append, hr]
    simp only [map_not_not]
    have hn := bitsVal_map_not (writeNBits (m + 1) v)
    rw [writeNBits_length] at hn
    have hvm : v % 2 ^ (m + 1) = v + 2 ^ (m + 1) := by
      rw [← Int.add_emod_right, Int.emod_eq_of_lt (by omega) (by omega)]
    have hn' : (bitsVal ((writeNBits (m + 1) v).map not) : Int) + bitsVal (writeNBits (m + 1) v) + 1
        = 2 ^ (m + 1) := by exact_mod_cast hn
    rw [hbv, hvm] at hn'
    congr 2
    omega
  · have hbt : b = false := by rw [hb]; simpa using hv
    subst hbt
    have e : readInt (m + 1) (writeNBits (m + 1) v ++ post)
        = readUInt (m + 1) (writeNBits (m + 1) v ++ post) := by
      rw [ht]; rfl
    obtain ⟨k, rfl⟩ : ∃ k : Nat, v = k := ⟨v.toNat, by omega⟩
    rw [e, c03_readUInt (m + 1) k (by omega) hn31 (by
      have : (k : Int) < 2 ^ (m + 1) := by omega
      exact_mod_cast this)]

example : readInt 25 (writeNBits 25 (-16777216) ++ [true]) = .ok (-16777216, [true]) := by decide
example : readInt 25 (writeNBits 25 12345 ++ [true]) = .ok (12345, [true]) := by decide

/-- Reading past the end of the bit vector is undefined behaviour, not a value. -/
theorem c03_short_is_ub (n : Nat) (hn : 0 < n) (s : Bits) (h : s.length < n) :
    readUInt n s = .error .ub := by
  unfold readUInt
  rw [if_neg (by omega)]
  simp [rdBits, Nat.not_le.mpr h]

/-! ## C04 – strings of the binary file format -/

theorem readChars (t : List UInt8) (post : Bits) :
    rdList (do let v ← frdU 8; pure (UInt8.ofNat v)) t.length (strBits t ++ post) = .ok (t, post) := by
  have := rdList_append (do let v ← frdU 8; pure (UInt8.ofNat v)) byteBits id t
    (by intro x _ r; simp [Rd.bind_apply, frdU_append _ _ _ (byteBits_length x), bitsVal_byteBits,
      Rd.pure_apply]) post t.length rfl
  simpa [strBits] using this

/-- Texts of at most 255 bytes round-trip and the cursor ends right after them.
Partial: the full property also asks that a longer text not corrupt what follows; see
`c04_long_string_desynchronises`. -/
theorem c04_string_roundtrip_partial (t : List UInt8) (h : t.length ≤ 255) (post : Bits) :
    readStringF (writeString t ++ post) = .ok (t, post) := by
  unfold readStringF writeString
  rw [if_neg (by omega), List.append_assoc, Rd.bind_apply, frdU_writeNBits 8 t.length _ (by omega)]
  exact readChars t post

example : ("HAPTIC é".toUTF8.toList).length ≤ 255 := by decide +kernel

/-- A text longer than 255 bytes is cut, and what the next read sees is the rest of the text
instead of the next field: the file is desynchronised from there on. -/
theorem c04_long_string_desynchronises (t : List UInt8) (h : 255 < t.length) (post : Bits) :
    readStringF (writeString t ++ post) = .ok (t.take 255, strBits (t.drop 255) ++ post) := by
  unfold readStringF writeString
  rw [if_pos h, List.append_assoc, Rd.bind_apply]
  have := frdU_writeNBits 8 255 (strBits t ++ post) (by omega)
  have e : writeNBits 8 255 = writeNBits 8 ((255 : Nat) : Int) := rfl
  rw [e, this]
  have hs : strBits t = strBits (t.take 255) ++ strBits (t.drop 255) := by
    unfold strBits
    rw [← List.flatMap_append, List.take_append_drop]
  simp only [hs, List.append_assoc]
  have hr := readChars (t.take 255) (strBits (t.drop 255) ++ post)
  rw [List.length_take, Nat.min_eq_left (by omega)] at hr
  exact hr

/-- Negation of the full property: a concrete experience text after which the following 8-bit field
(here 7) is read as something else (here 65, the 256th character). -/
theorem c04_negation : ∃ t : List UInt8, ∃ post : Bits,
    (do let _ ← readStringF; frdU 8) (writeString t ++ (writeNBits 8 7 ++ post)) ≠ .ok (7, post) := by
  refine ⟨List.replicate 256 65, [], ?_⟩
  rw [Rd.bind_apply, c04_long_string_desynchronises _ (by rw [List.length_replicate]; decide)]
  decide

/-! ## C01 for vectors -/

/-- Three signed bytes. -/
theorem c01_vector_roundtrip (v : Vector3) (hx : -128 ≤ v.X ∧ v.X < 128) (hy : -128 ≤ v.Y ∧ v.Y < 128)
    (hz : -128 ≤ v.Z ∧ v.Z < 128) (post : Bits) :
    readVectorF (writeVector v ++ post) = .ok (v, post) := by
  have key : ∀ (x : Int) (r : Bits), -128 ≤ x ∧ x < 128 →
      frdI8 (writeNBits 8 x ++ r) = .ok (x, r) := by
    intro x r hx
    unfold frdI8
    rw [Rd.bind_apply, frdU_writeNBits_emod]
    simp only [Rd.pure_apply]
    rw [toSigned_emod 8 (by omega) x (by omega) (by omega)]
  unfold readVectorF writeVector
  simp only [List.append_assoc, Rd.bind_apply, key _ _ hx, key _ _ hy, key _ _ hz, Rd.pure_apply]

example : readVectorF (writeVector ⟨-128, 0, 127⟩ ++ [true]) = .ok (⟨-128, 0, 127⟩, [true]) := by decide

end Haptics
