import Verif.Bits.Model
import Mathlib.Tactic.Ring
import Mathlib.Tactic.Linarith
import Mathlib.Data.Nat.Bitwise
import Mathlib.Data.List.Basic

namespace Haptics

/-! ### Values of bit strings -/

theorem foldl_bits (l : Bits) (a : Nat) :
    l.foldl (fun acc b => 2 * acc + b.toNat) a = a * 2 ^ l.length + bitsVal l := by
  induction l generalizing a with
  | nil => simp [bitsVal]
  | cons b l ih =>
    simp only [List.foldl_cons, List.length_cons, bitsVal]
    rw [ih, ih (2 * 0 + b.toNat)]
    ring

@[simp] theorem bitsVal_nil : bitsVal [] = 0 := rfl

theorem bitsVal_cons (b : Bool) (l : Bits) :
    bitsVal (b :: l) = b.toNat * 2 ^ l.length + bitsVal l := by
  rw [bitsVal, List.foldl_cons, foldl_bits]; simp

theorem bitsVal_append (a b : Bits) :
    bitsVal (a ++ b) = bitsVal a * 2 ^ b.length + bitsVal b := by
  rw [bitsVal, List.foldl_append, foldl_bits]; rfl

theorem bitsVal_lt (l : Bits) : bitsVal l < 2 ^ l.length := by
  induction l with
  | nil => simp
  | cons b l ih =>
    rw [bitsVal_cons, List.length_cons, Nat.pow_succ]
    cases b <;> simp <;> omega

@[simp] theorem bitsVal_replicate_false (n : Nat) : bitsVal (List.replicate n false) = 0 := by
  induction n with
  | zero => rfl
  | succ n ih => simp [List.replicate_succ, bitsVal_cons, ih]

@[simp] theorem writeNBits_length (n : Nat) (v : Int) : (writeNBits n v).length = n := by
  simp [writeNBits]

@[simp] theorem writeNBits_zero (v : Int) : writeNBits 0 v = [] := rfl

theorem writeNBits_succ (n : Nat) (v : Int) :
    writeNBits (n + 1) v = decide (v / 2 ^ n % 2 = 1) :: writeNBits n v := by
  simp only [writeNBits, List.range_succ_eq_map, List.map_cons, List.map_map]
  congr 1
  apply List.map_congr_left
  intro i hi
  simp only [Function.comp]
  have : n + 1 - (i + 1) - 1 = n - i - 1 := by omega
  rw [Nat.succ_eq_add_one, this]

theorem int_emod_mul (x a b : Int) (ha : 0 ≤ a) : x % (a * b) = x % a + a * (x / a % b) := by
  rw [Int.emod_def, Int.emod_def, Int.emod_def, Int.ediv_ediv_of_nonneg ha]; ring

theorem bitsVal_writeNBits (n : Nat) (v : Int) : (bitsVal (writeNBits n v) : Int) = v % 2 ^ n := by
  induction n with
  | zero => simp
  | succ n ih =>
    rw [writeNBits_succ, bitsVal_cons, writeNBits_length]
    push_cast
    rw [ih]
    have h1 : v % 2 ^ (n + 1) = v % 2 ^ n + 2 ^ n * (v / 2 ^ n % 2) := by
      rw [pow_succ]; exact int_emod_mul _ _ _ (by positivity)
    rw [h1]
    rcases Int.emod_two_eq_zero_or_one (v / 2 ^ n) with h | h <;> (simp [h]; try ring)

theorem bitsVal_writeNBits_nat (n v : Nat) (h : v < 2 ^ n) : bitsVal (writeNBits n (v : Int)) = v := by
  have := bitsVal_writeNBits n v
  rw [Int.emod_eq_of_lt (by positivity) (by exact_mod_cast h)] at this
  exact_mod_cast this

theorem writeNBits_emod (n : Nat) (v w : Int) (h : v % 2 ^ n = w % 2 ^ n) :
    writeNBits n v = writeNBits n w := by
  apply List.map_congr_left
  intro i hi
  have hi : i < n := by simpa using hi
  have key : ∀ x : Int, x / 2 ^ (n - i - 1) % 2 = (x % 2 ^ n) / 2 ^ (n - i - 1) % 2 := by
    intro x
    have e : (2 : Int) ^ n = 2 ^ (n - i - 1) * 2 ^ (i + 1) := by
      rw [← pow_add]; congr 1; omega
    rw [e, int_emod_mul _ _ _ (by positivity), Int.add_mul_ediv_left _ _ (by positivity),
      Int.ediv_eq_zero_of_lt (Int.emod_nonneg _ (by positivity)) (Int.emod_lt_of_pos _ (by positivity)),
      zero_add, pow_succ', Int.emod_emod_of_dvd]
    exact Dvd.intro _ rfl
  rw [key v, key w, h]

theorem eq_of_bitsVal {a b : Bits} (hl : a.length = b.length) (h : bitsVal a = bitsVal b) : a = b := by
  induction a generalizing b with
  | nil => cases b <;> simp_all
  | cons x a ih =>
    cases b with
    | nil => simp at hl
    | cons y b =>
      simp only [List.length_cons, Nat.add_right_cancel_iff] at hl
      rw [bitsVal_cons, bitsVal_cons, hl] at h
      have ha := bitsVal_lt a
      have hb := bitsVal_lt b
      rw [hl] at ha
      have : x = y := by
        cases x <;> cases y <;> simp at h ⊢ <;> omega
      subst this
      rw [ih hl (by omega)]

theorem writeNBits_bitsVal (l : Bits) : writeNBits l.length (bitsVal l : Int) = l :=
  eq_of_bitsVal (by simp) (bitsVal_writeNBits_nat _ _ (bitsVal_lt l))

/-! ### The OR loop -/

theorem or_shift_disjoint (m k : Nat) (h : 2 ^ (k + 1) ∣ m) : m ||| (1 <<< k) = m + 2 ^ k := by
  obtain ⟨c, rfl⟩ := h
  rw [Nat.one_shiftLeft, Nat.two_pow_add_eq_or_of_lt (Nat.pow_lt_pow_right (by omega) (by omega))]

theorem orBits_aux (n : Nat) (l : Bits) (k : Nat) (hk : k ≤ n) :
    (List.range k).foldl (fun acc i => if l.getD i false then acc ||| (1 <<< (n - i - 1)) else acc) 0
      = bitsVal ((List.range k).map fun i => l.getD i false) * 2 ^ (n - k) := by
  induction k with
  | zero => simp
  | succ k ih =>
    rw [List.range_succ, List.foldl_append, ih (by omega), List.map_append, bitsVal_append]
    simp only [List.foldl_cons, List.foldl_nil, List.map_cons, List.map_nil, List.length_cons,
      List.length_nil]
    have e : n - k = (n - (k + 1)) + 1 := by omega
    have e2 : n - k - 1 = n - (k + 1) := by omega
    cases hb : l.getD k false
    · simp [bitsVal_cons, e, pow_succ]; ring
    · simp only [if_true]
      rw [or_shift_disjoint, e2, e]
      · simp [bitsVal_cons, pow_succ]; ring
      · rw [e2, e]; exact Dvd.intro_left _ rfl

theorem orBits_eq (n : Nat) (l : Bits) :
    orBits n l = bitsVal ((List.range n).map fun i => l.getD i false) := by
  rw [orBits, orBits_aux n l n le_rfl]; simp

/-! ### Reader combinators -/

theorem Rd.pure_apply {α : Type} (a : α) (s : Bits) : (pure a : Rd α) s = .ok (a, s) := rfl

theorem Rd.bind_apply {α β : Type} (p : Rd α) (f : α → Rd β) (s : Bits) :
    (p >>= f) s = match p s with
      | .ok (a, s') => f a s'
      | .error e => .error e := rfl

theorem Rd.map_apply {α β : Type} (p : Rd α) (f : α → β) (s : Bits) :
    (f <$> p) s = match p s with
      | .ok (a, s') => .ok (f a, s')
      | .error e => .error e := rfl

theorem Rd.ite_apply {α : Type} (c : Prop) [Decidable c] (p q : Rd α) (s : Bits) :
    (if c then p else q) s = if c then p s else q s := by split <;> rfl

theorem rdBits_append (a r : Bits) (n : Nat) (h : a.length = n) :
    rdBits n (a ++ r) = .ok (a, r) := by
  subst h; simp [rdBits]

theorem rdU_append (a r : Bits) (n : Nat) (h : a.length = n) :
    rdU n (a ++ r) = .ok (bitsVal a, r) := by
  simp [rdU, rdBits_append a r n h]

theorem rdU_writeNBits_emod (n : Nat) (v : Int) (r : Bits) :
    rdU n (writeNBits n v ++ r) = .ok ((v % 2 ^ n).toNat, r) := by
  rw [rdU_append _ _ _ (writeNBits_length n v), ← bitsVal_writeNBits]; simp

theorem rdU_writeNBits (n v : Nat) (r : Bits) (h : v < 2 ^ n) :
    rdU n (writeNBits n (v : Int) ++ r) = .ok (v, r) := by
  rw [rdU_append _ _ _ (writeNBits_length n v), bitsVal_writeNBits_nat n v h]

theorem frdU_append (a r : Bits) (n : Nat) (h : a.length = n) :
    frdU n (a ++ r) = .ok (bitsVal a, r) := by
  subst h; simp [frdU]

theorem frdU_writeNBits_emod (n : Nat) (v : Int) (r : Bits) :
    frdU n (writeNBits n v ++ r) = .ok ((v % 2 ^ n).toNat, r) := by
  rw [frdU_append _ _ _ (writeNBits_length n v), ← bitsVal_writeNBits]; simp

theorem frdU_writeNBits (n v : Nat) (r : Bits) (h : v < 2 ^ n) :
    frdU n (writeNBits n (v : Int) ++ r) = .ok (v, r) := by
  rw [frdU_append _ _ _ (writeNBits_length n v), bitsVal_writeNBits_nat n v h]

theorem rdList_append {α β : Type} (p : Rd α) (w : β → Bits) (q : β → α) (l : List β)
    (h : ∀ x ∈ l, ∀ r, p (w x ++ r) = .ok (q x, r)) (r : Bits) (n : Nat) (hn : n = l.length) :
    rdList p n (l.flatMap w ++ r) = .ok (l.map q, r) := by
  subst hn
  induction l with
  | nil => rfl
  | cons x l ih =>
    simp only [List.length_cons, rdList, List.flatMap_cons, List.append_assoc, List.map_cons,
      Rd.bind_apply, h x (by simp), ih (fun y hy => h y (by simp [hy])), Rd.pure_apply]

theorem byteBits_length (b : UInt8) : (byteBits b).length = 8 := writeNBits_length _ _

theorem bitsVal_byteBits (b : UInt8) : bitsVal (byteBits b) = b.toNat :=
  bitsVal_writeNBits_nat 8 _ b.toNat_lt

theorem rdStr_strBits (t : List UInt8) (r : Bits) (n : Nat) (hn : n = t.length) :
    rdStr n (strBits t ++ r) = .ok (t, r) := by
  have := rdList_append (do let v ← rdU 8; pure (UInt8.ofNat v)) byteBits id t
    (by intro x _ r; simp [Rd.bind_apply, rdU_append _ _ _ (byteBits_length x), bitsVal_byteBits,
      Rd.pure_apply]) r n hn
  simpa [rdStr, strBits] using this

theorem toSigned_emod (n : Nat) (hn : 0 < n) (v : Int) (h1 : -2 ^ (n - 1) ≤ v) (h2 : v < 2 ^ (n - 1)) :
    toSigned n ((v % 2 ^ n).toNat) = v := by
  obtain ⟨m, rfl⟩ : ∃ m, n = m + 1 := ⟨n - 1, by omega⟩
  simp only [Nat.add_sub_cancel] at h1 h2
  have hp : (2 : Int) ^ (m + 1) = 2 * 2 ^ m := by ring
  have hpos : (0 : Int) < 2 ^ m := by positivity
  unfold toSigned
  rcases le_or_gt 0 v with hv | hv
  · rw [Int.emod_eq_of_lt hv (by omega)]
    have : v.toNat < 2 ^ m := by
      zify; rw [Int.toNat_of_nonneg hv]; exact h2
    simp [this, hv]
  · have e : v % 2 ^ (m + 1) = v + 2 ^ (m + 1) := by
      rw [← Int.add_emod_right, Int.emod_eq_of_lt (by omega) (by omega)]
    rw [e]
    have : ¬ ((v + 2 ^ (m + 1)).toNat < 2 ^ m) := by
      zify; rw [Int.toNat_of_nonneg (by omega)]; omega
    simp only [Nat.add_sub_cancel, this, if_false]
    rw [Int.toNat_of_nonneg (by omega)]; omega

/-! ### Packing bits into bytes -/

theorem pack8 : ∀ a b c d e f g h : Bool,
    byteBits ([a, b, c, d, e, f, g, h].zipIdx.foldl
      (fun acc x => if x.1 then acc ||| ((1 : UInt8) <<< (UInt8.ofNat (7 - x.2))) else acc) 0)
      = [a, b, c, d, e, f, g, h] := by
  decide +kernel

theorem byteBits_packByte (b : Bits) (i : Nat) :
    byteBits (packByte b i) = (List.range 8).map fun j => b.getD (i + j) false := by
  have h := pack8 (b.getD (i + 0) false) (b.getD (i + 1) false) (b.getD (i + 2) false)
    (b.getD (i + 3) false) (b.getD (i + 4) false) (b.getD (i + 5) false) (b.getD (i + 6) false)
    (b.getD (i + 7) false)
  exact h

theorem fillBitset_length (b : Bits) : (fillBitset b).length = 8 * ((b.length + 7) / 8) := by
  simp only [fillBitset, List.length_append, List.length_replicate]; omega

theorem getD_fillBitset (b : Bits) (i : Nat) : (fillBitset b).getD i false = b.getD i false := by
  unfold fillBitset
  simp only [List.getD_eq_getElem?_getD, List.getElem?_append, List.getElem?_replicate]
  split
  · rfl
  · rename_i h
    rw [List.getElem?_eq_none (by omega)]
    split <;> simp

theorem flatMap_range8 (f : Nat → Bool) (k : Nat) :
    (List.range k).flatMap (fun q => (List.range 8).map fun j => f (8 * q + j))
      = (List.range (8 * k)).map f := by
  induction k with
  | zero => rfl
  | succ k ih =>
    rw [List.range_succ (n := k), List.flatMap_append, ih, Nat.mul_succ, List.range_add, List.map_append]
    simp

theorem map_range_getD (b : Bits) : ((List.range b.length).map fun i => b.getD i false) = b := by
  apply List.ext_getElem
  · simp
  · intro i h1 h2
    simp [List.getD_eq_getElem?_getD, h2]

theorem writeBitset_bits (b : Bits) : (writeBitset b).flatMap byteBits = fillBitset b := by
  have h := map_range_getD (fillBitset b)
  rw [fillBitset_length] at h
  rw [← h, ← flatMap_range8, writeBitset, List.flatMap_map]
  apply List.flatMap_congr
  intro q _
  rw [byteBits_packByte]
  apply List.map_congr_left
  intro j _
  rw [getD_fillBitset]

theorem writeBitset_length (b : Bits) : (writeBitset b).length = (b.length + 7) / 8 := by
  simp [writeBitset]

theorem writeBitset_byteBits (l : List UInt8) : writeBitset (l.flatMap byteBits) = l := by
  have hlen : (l.flatMap byteBits).length = 8 * l.length := by
    rw [List.length_flatMap]
    simp [byteBits_length, mul_comm]
  have h := writeBitset_bits (l.flatMap byteBits)
  have hf : fillBitset (l.flatMap byteBits) = l.flatMap byteBits := by
    unfold fillBitset; rw [hlen]
    have : (8 - 8 * l.length % 8) % 8 = 0 := by omega
    rw [this]; simp
  rw [hf] at h
  have hl : (writeBitset (l.flatMap byteBits)).length = l.length := by
    rw [writeBitset_length, hlen]; omega
  generalize writeBitset (l.flatMap byteBits) = m at h hl
  clear hf hlen
  induction l generalizing m with
  | nil => simpa using hl
  | cons x l ih =>
    cases m with
    | nil => simp at hl
    | cons y m =>
      simp only [List.flatMap_cons] at h
      have h' := List.append_inj h (by simp [byteBits_length])
      have hxy : y = x := by
        have := congrArg bitsVal h'.1
        rw [bitsVal_byteBits, bitsVal_byteBits] at this
        exact UInt8.toNat_inj.mp this
      rw [hxy, ih m h'.2 (by simpa using hl)]

/-! ### The file reader -/

theorem takeZ_getD (n : Nat) (l : List UInt8) (i : Nat) :
    ((takeZ n l).flatMap byteBits).getD i false
      = if i < 8 * n then (l.flatMap byteBits).getD i false else false := by
  induction n generalizing l i with
  | zero => simp [takeZ]
  | succ n ih =>
    cases l with
    | nil =>
      have hz : ∀ k : Nat, ((List.replicate k (0 : UInt8)).flatMap byteBits)
          = List.replicate (8 * k) false := by
        intro k
        induction k with
        | zero => rfl
        | succ k ihk =>
          rw [List.replicate_succ, List.flatMap_cons, ihk, Nat.mul_succ, Nat.add_comm,
            List.replicate_add]
          rfl
      simp only [takeZ, List.take_nil, List.length_nil, Nat.sub_zero, List.nil_append, hz,
        List.getD_eq_getElem?_getD, List.getElem?_replicate, List.flatMap_nil, List.getElem?_nil]
      split <;> simp
    | cons x l =>
      have e : takeZ (n + 1) (x :: l) = x :: takeZ n l := by simp [takeZ]
      rw [e, List.flatMap_cons, List.flatMap_cons]
      have hl := byteBits_length x
      simp only [List.getD_eq_getElem?_getD, List.getElem?_append, hl] at ih ⊢
      by_cases h : i < 8
      · simp [h]; omega
      · simp only [h, if_false]
        rw [ih]
        by_cases h2 : i < 8 * (n + 1)
        · rw [if_pos h2, if_pos (by omega)]
        · rw [if_neg h2, if_neg (by omega)]

theorem takeZ_bits_length (n : Nat) (l : List UInt8) :
    ((takeZ n l).flatMap byteBits).length = 8 * n := by
  rw [List.length_flatMap]
  have hl : (takeZ n l).length = n := by simp [takeZ]; omega
  simp [byteBits_length, hl, mul_comm]

theorem flatMap_drop8 (l : List UInt8) (k i : Nat) :
    ((l.drop k).flatMap byteBits).getD i false = (l.flatMap byteBits).getD (8 * k + i) false := by
  induction k generalizing l with
  | zero => simp
  | succ k ih =>
    cases l with
    | nil => simp
    | cons x l =>
      simp only [List.drop_succ_cons, List.flatMap_cons]
      rw [ih]
      have hl := byteBits_length x
      simp only [List.getD_eq_getElem?_getD, List.getElem?_append, hl]
      rw [if_neg (by omega)]
      congr 2; omega

end Haptics
