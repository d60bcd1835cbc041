import Verif.Json.Base64
import Verif.Json.SpecBase64
import Verif.Spiht.PropsSpiht

/-! C25: the base64 text of a wavelet payload. -/

namespace Haptics.Json
open Haptics Haptics.Spiht

/-- A list without the `z` at its end. -/
def strip {α : Type} [DecidableEq α] (z : α) (l : List α) : List α := (l.reverse.dropWhile (· == z)).reverse

theorem strip_nil {α : Type} [DecidableEq α] (z : α) : strip z [] = [] := rfl

theorem strip_cons {α : Type} [DecidableEq α] (z a : α) (l : List α) :
    strip z (a :: l) = if strip z l = [] ∧ a = z then [] else a :: strip z l := by
  unfold strip
  rw [List.reverse_cons, List.dropWhile_append]
  by_cases h : (l.reverse.dropWhile (· == z)) = []
  · simp only [h, List.isEmpty_nil, if_true, List.reverse_nil, true_and]
    by_cases ha : a = z
    · simp [ha]
    · simp [ha]
  · simp [h]

theorem strip_zeros {α : Type} [DecidableEq α] (z : α) (l : List α) (n : Nat) :
    strip z (l ++ List.replicate n z) = strip z l := by
  induction l with
  | nil =>
    induction n with
    | zero => rfl
    | succ n ih => rw [List.nil_append] at ih ⊢; rw [List.replicate_succ, strip_cons, ih]; simp [strip_nil]
  | cons a l ih => rw [List.cons_append, strip_cons, strip_cons, ih]

theorem strip_strip {α : Type} [DecidableEq α] (z : α) (l : List α) :
    strip z (strip z l) = strip z l := by
  induction l with
  | nil => rfl
  | cons a l ih =>
    rw [strip_cons]
    split
    · rfl
    · next h => rw [strip_cons, ih, if_neg h]

theorem cutZeros_eq (l : List Bool) (h : ∃ b ∈ l, b = true) : cutZeros l = .ok (strip false l) := by
  unfold cutZeros
  rw [if_neg]
  · rfl
  · obtain ⟨b, hb, rfl⟩ := h
    intro hall
    have := List.all_eq_true.mp hall true hb
    simp at this

theorem digits_toChar : ∀ t : Fin 64, digits 6 (ofChar (toChar t.val)) = digits 6 t.val := by decide +kernel

theorem base64_spec : ∀ l : List Bool, ∃ m n,
    (bits2base64 l).flatMap (fun c => digits 6 (ofChar c)) ++ List.replicate m false
      = l ++ List.replicate n false := by
  intro l
  have short : ∀ l : List Bool, l.length < 6 → ∃ m n,
      (bits2base64 l).flatMap (fun c => digits 6 (ofChar c)) ++ List.replicate m false
        = l ++ List.replicate n false := by
    intro l hl
    refine ⟨if true ∈ l then 0 else l.length, if true ∈ l then 6 - l.length else 0, ?_⟩
    match l with
    | [] => rfl
    | [a] => revert a; decide +kernel
    | [a, b] => revert a b; decide +kernel
    | [a, b, c] => revert a b c; decide +kernel
    | [a, b, c, d] => revert a b c d; decide +kernel
    | [a, b, c, d, e] => revert a b c d e; decide +kernel
    | _ :: _ :: _ :: _ :: _ :: _ :: _ => simp at hl; omega
  induction hn : l.length using Nat.strong_induction_on generalizing l with
  | _ n ih =>
  match l with
  | [] => exact short _ (by simp)
  | [_] => exact short _ (by simp)
  | [_, _] => exact short _ (by simp)
  | [_, _, _] => exact short _ (by simp)
  | [_, _, _, _] => exact short _ (by simp)
  | [_, _, _, _, _] => exact short _ (by simp)
  | a :: b :: c :: d :: e :: f :: l =>
    obtain ⟨m, k, h⟩ := ih l.length (by subst hn; simp; omega) l rfl
    refine ⟨m, k, ?_⟩
    have hsplit : ∃ ch, bits2base64 (a :: b :: c :: d :: e :: f :: l) = ch :: bits2base64 l ∧
        digits 6 (ofChar ch) = [a, b, c, d, e, f] := by
      have h6 : ∀ a b c d e f : Bool, digits 6 (ofChar ((bits2base64 [a, b, c, d, e, f]).headD 0))
          = [a, b, c, d, e, f] := by decide +kernel
      refine ⟨(bits2base64 [a, b, c, d, e, f]).headD 0, ?_, h6 a b c d e f⟩
      simp [bits2base64, base64Loop]
    obtain ⟨ch, h1, h2⟩ := hsplit
    rw [h1, List.flatMap_cons, h2, List.append_assoc, h]
    rfl

theorem ones_of_strip (l : List Bool) (h : strip false l ≠ []) : ∃ b ∈ l, b = true := by
  by_contra hc
  push Not at hc
  apply h
  have : l = [] ++ List.replicate l.length false := by
    rw [List.nil_append]
    exact List.eq_replicate_iff.mpr ⟨rfl, fun b hb => by simpa using hc b hb⟩
  rw [this, strip_zeros]; rfl

/-- Reading back the text of bits that end in a one (or of none at all). -/
theorem base642bits_bits2base64 (l : List Bool) (h : strip false l = l) :
    base642bits (bits2base64 l) = .ok l := by
  obtain ⟨m, n, hs⟩ := base64_spec l
  have hstrip : strip false ((bits2base64 l).flatMap (fun c => digits 6 (ofChar c))) = l := by
    rw [← strip_zeros false _ m, hs, strip_zeros, h]
  by_cases hl : l = []
  · subst hl; rfl
  · unfold base642bits
    split
    · next heq => rw [heq] at hstrip; exact absurd hstrip.symm hl
    · next c l' heq =>
      rw [← heq, cutZeros_eq _ (ones_of_strip _ (by rw [hstrip]; exact hl)), hstrip]

theorem bitsOf_length (v : UInt8) : (bitsOf v).length = 8 := by simp [bitsOf]

theorem byteOf_bitsOf (v : UInt8) : byteOf (bitsOf v) = v.toNat := by
  have h : ∀ n : Fin 256, byteOf ((List.range 8).map (fun j => n.val.testBit j)) = n.val := by decide +kernel
  exact h ⟨v.toNat, v.toNat_lt⟩

theorem convert2bytes_cons (v : UInt8) (r : List Bool) :
    convert2bytes (bitsOf v ++ r) = v :: convert2bytes r := by
  have hlen := bitsOf_length v
  obtain ⟨b, t, hbt⟩ : ∃ b t, bitsOf v = b :: t := by
    cases h : bitsOf v with
    | nil => rw [h] at hlen; simp at hlen
    | cons b t => exact ⟨b, t, rfl⟩
  have ht : t.length = 7 := by rw [hbt] at hlen; simpa using hlen
  rw [hbt, List.cons_append, convert2bytes]
  rw [List.drop_append_of_le_length (by omega), show t.drop 7 = [] from List.drop_eq_nil_of_le (by omega),
    List.nil_append, show b :: (t ++ r) = (b :: t) ++ r from rfl, ← hbt, List.take_append_of_le_length (by omega),
    List.take_of_length_le (by omega), byteOf_bitsOf]
  simp

theorem bytes_strip_single (v : UInt8) (h : v ≠ 0) :
    strip false (bitsOf v) ≠ [] ∧ convert2bytes (strip false (bitsOf v)) = [v] := by
  have hb : ∀ n : Fin 256, n.val ≠ 0 →
      (strip false ((List.range 8).map (fun j => n.val.testBit j)) ≠ [] ∧
        (strip false ((List.range 8).map (fun j => n.val.testBit j))).length ≤ 8 ∧
        byteOf (strip false ((List.range 8).map (fun j => n.val.testBit j))) = n.val) := by decide +kernel
  have hv : v.toNat ≠ 0 := fun h0 => h (by apply UInt8.toNat_inj.mp; simpa using h0)
  obtain ⟨h1, h2, h3⟩ := hb ⟨v.toNat, v.toNat_lt⟩ hv
  refine ⟨h1, ?_⟩
  change strip false (bitsOf v) ≠ [] at h1
  change (strip false (bitsOf v)).length ≤ 8 at h2
  change byteOf (strip false (bitsOf v)) = v.toNat at h3
  cases hs : strip false (bitsOf v) with
  | nil => exact absurd hs h1
  | cons b t =>
    rw [hs] at h2 h3
    rw [convert2bytes, List.take_of_length_le h2, h3]
    rw [show t.drop 7 = [] from List.drop_eq_nil_of_le (by simpa using h2), convert2bytes]
    simp

theorem strip_append {α : Type} [DecidableEq α] (z : α) (a l : List α) :
    strip z (a ++ l) = if strip z l = [] then strip z a else a ++ strip z l := by
  induction a with
  | nil => by_cases h : strip z l = [] <;> simp [h, strip_nil]
  | cons x a ih =>
    rw [List.cons_append, strip_cons, ih, strip_cons]
    by_cases h : strip z l = []
    · simp [h]
    · simp [h]

theorem strip_bitsOf_zero : strip false (bitsOf 0) = [] := by decide +kernel

theorem strip_bits (s : List UInt8) :
    (strip false (convert2bits s) = [] ↔ strip 0 s = []) ∧
      convert2bytes (strip false (convert2bits s)) = strip 0 s := by
  induction s with
  | nil => exact ⟨⟨fun _ => rfl, fun _ => rfl⟩, by simp [convert2bits, strip_nil, convert2bytes]⟩
  | cons v s ih =>
    obtain ⟨ih1, ih2⟩ := ih
    rw [convert2bits, List.flatMap_cons, show List.flatMap bitsOf s = convert2bits s from rfl, strip_append,
      strip_cons]
    by_cases hs : strip 0 s = []
    · rw [if_pos (ih1.mpr hs)]
      by_cases hv : v = 0
      · subst hv; simp [hs, strip_bitsOf_zero, convert2bytes]
      · obtain ⟨h1, h2⟩ := bytes_strip_single v hv
        simp [hv, hs, h1, h2]
    · rw [if_neg (fun h => hs (ih1.mp h)), if_neg (fun h => hs h.1), convert2bytes_cons, ih2]
      refine ⟨⟨fun h => ?_, fun h => by simp at h⟩, rfl⟩
      have := congrArg List.length h
      simp [bitsOf_length] at this

theorem strip_ne_nil (s : List UInt8) (h : ∃ v ∈ s, v ≠ 0) : strip 0 s ≠ [] := by
  induction s with
  | nil => obtain ⟨v, hv, -⟩ := h; simp at hv
  | cons a s ih =>
    rw [strip_cons]
    split
    · next hc =>
      obtain ⟨v, hv, h0⟩ := h
      rcases List.mem_cons.mp hv with rfl | hv
      · exact absurd hc.2 h0
      · exact absurd hc.1 (ih ⟨v, hv, h0⟩)
    · simp

theorem bytes2bits_eq (s : List UInt8) (h : s = [] ∨ ∃ v ∈ s, v ≠ 0) :
    bytes2bits s = .ok (strip false (convert2bits s)) := by
  rcases h with rfl | h
  · rfl
  · have hb := cutZeros_eq (convert2bits s)
      (ones_of_strip _ (fun hc => strip_ne_nil s h ((strip_bits s).1.mp hc)))
    unfold bytes2bits
    split
    · obtain ⟨v, hv, -⟩ := h; simp at hv
    · exact hb

/-- **C25.** Every payload that is empty or has a byte other than zero is written as text, and reading
that text gives the payload without the zero bytes at its end. -/
theorem c25_roundtrip (s : List UInt8) (h : s = [] ∨ ∃ v ∈ s, v ≠ 0) :
    ∃ text, writePayload s = .ok text ∧ readPayload text = .ok (withoutFinalZeros s) := by
  refine ⟨bits2base64 (strip false (convert2bits s)), by rw [writePayload, bytes2bits_eq s h], ?_⟩
  unfold readPayload
  rw [base642bits_bits2base64 _ (strip_strip _ _)]
  exact congrArg Except.ok (strip_bits s).2

example : ([0, 200, 3, 0, 0] : List UInt8) = [] ∨ ∃ v ∈ ([0, 200, 3, 0, 0] : List UInt8), v ≠ 0 := by decide
example : (writePayload [0, 200, 3, 0, 0]).toOption = some ("ABP".toList.map (fun c => c.toNat.toUInt8)) := by
  decide +kernel
example : withoutFinalZeros [0, 200, 3, 0, 0] = [0, 200, 3] := by decide

theorem toChar_mem : ∀ t : Nat, toChar t ∈ alphabet := by
  have h : ∀ t : Fin 64, toChar t.val ∈ alphabet := by decide +kernel
  intro t
  by_cases ht : t < 64
  · exact h ⟨t, ht⟩
  · have : toChar t = 47 := by unfold toChar; repeat rw [if_neg (by omega)]
    rw [this]; decide +kernel

/-- **C25.** The text only has characters of the base64 alphabet, so the JSON writer neither cuts it at a
NUL character nor escapes anything. -/
theorem c25_alphabet (s : List UInt8) (text : List UInt8) (h : writePayload s = .ok text) :
    ∀ c ∈ text, c ∈ alphabet := by
  have hl : ∀ (l : List Bool) n t, ∀ c ∈ base64Loop n t l, c ∈ alphabet := by
    intro l
    induction l with
    | nil => intro n t c hc; unfold base64Loop at hc; split at hc <;> simp at hc; rw [hc]; exact toChar_mem _
    | cons b l ih =>
      intro n t c hc
      unfold base64Loop at hc
      simp only at hc
      split at hc
      · rcases List.mem_cons.mp hc with rfl | hc
        · exact toChar_mem _
        · exact ih _ _ c hc
      · exact ih _ _ c hc
  unfold writePayload at h
  split at h
  · cases h; exact hl _ _ _
  · cases h

/-- A block of the wavelet encoder never ends in a zero byte. -/
theorem convert2bytes_last (l : List Bool) (h : strip false l = l) :
    withoutFinalZeros (convert2bytes l) = convert2bytes l := by
  obtain ⟨n, hn⟩ := convert_roundtrip l
  have := (strip_bits (convert2bytes l)).2
  rw [hn, strip_zeros, h] at this
  exact this.symm

theorem encode_strip (l : List (Bool × Nat)) (counters out counters')
    (h : encode l counters = .ok (out, counters')) : strip false out = out := by
  unfold encode at h
  split at h
  · cases h
  · split at h
    · cases h
    · next o ho =>
      cases h
      unfold cutZeros at ho
      split at ho
      · cases ho
      · cases ho; exact strip_strip _ _

theorem nonzero_of_strip (s : List UInt8) (h : strip 0 s = s) : s = [] ∨ ∃ v ∈ s, v ≠ 0 := by
  by_cases hs : s = []
  · exact .inl hs
  · right
    by_contra hc
    push Not at hc
    have : s = [] ++ List.replicate s.length 0 := by
      rw [List.nil_append]
      exact List.eq_replicate_iff.mpr ⟨rfl, hc⟩
    rw [this, strip_zeros, strip_nil, ← this] at h
    exact hs h.symm

/-- **C25.** Every payload the wavelet encoder makes is read back from its text byte for byte. -/
theorem c25_encoder (e : Encoder) (block : List Int) (bits : Nat) (scalar : Rat) (bytes : List UInt8)
    (e' : Encoder) (h : e.encodeEffect block bits scalar = .ok (bytes, e')) :
    ∃ text, writePayload bytes = .ok text ∧ readPayload text = .ok bytes := by
  have hs : withoutFinalZeros bytes = bytes := by
    unfold Encoder.encodeEffect at h
    split at h
    · cases h; rfl
    · split at h
      · cases h; rfl
      · simp only [bind, Except.bind] at h
        split at h
        · cases h
        · split at h
          · cases h
          · next r hr => cases h; exact convert2bytes_last _ (encode_strip _ _ _ _ hr)
  have := c25_roundtrip bytes (nonzero_of_strip bytes hs)
  rwa [hs] at this

example : ((({} : Encoder).encodeEffect [3, -1, 0, 0, 0, 2, 0, 0] 2 (1 / 2)).toOption.map (·.1)) =
    some [34, 112, 147, 145, 170, 2] := by
  decide +kernel

/-- **C25.** A payload without a byte other than zero, but with bytes, cannot be written: the writer
throws. -/
theorem c25_zeros_negation (n : Nat) : writePayload (List.replicate (n + 1) 0) = .error .throw := by
  unfold writePayload bytes2bits
  rw [List.replicate_succ]
  simp only
  rw [← List.replicate_succ]
  have : cutZeros (convert2bits (List.replicate (n + 1) 0)) = .error .throw := by
    unfold cutZeros
    rw [if_pos]
    rw [List.all_eq_true]
    intro b hb
    unfold convert2bits at hb
    obtain ⟨v, hv, hb⟩ := List.mem_flatMap.mp hb
    rw [List.eq_of_mem_replicate hv] at hb
    have h0 : ∀ b ∈ bitsOf 0, (b == false) = true := by decide +kernel
    exact h0 b hb
  rw [this]

/-- **C25.** A text of letters `A` in a file makes the reader throw instead of reporting an error. -/
theorem c25_read_negation (n : Nat) : readPayload (List.replicate (n + 1) 65) = .error .throw := by
  unfold readPayload base642bits
  rw [List.replicate_succ]
  simp only
  rw [← List.replicate_succ]
  have : cutZeros ((List.replicate (n + 1) 65).flatMap (fun c => digits 6 (ofChar c))) = .error .throw := by
    unfold cutZeros
    rw [if_pos]
    rw [List.all_eq_true]
    intro b hb
    obtain ⟨v, hv, hb⟩ := List.mem_flatMap.mp hb
    rw [List.eq_of_mem_replicate hv] at hb
    have h0 : ∀ b ∈ digits 6 (ofChar 65), (b == false) = true := by decide +kernel
    exact h0 b hb
  rw [this]

end Haptics.Json
