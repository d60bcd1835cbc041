import Verif.Stream.SpecCut
import Verif.Stream.PropsLoss

/-! **C113** What is received from a stream file that was cut off. -/

namespace Haptics

theorem readNBytes_prefix (x : Bits) (n : Nat) (h : x.length = 8 * n) (l : List UInt8) : readNBytes n (writeBitset x ++ l) = (x, l) := by
  have hl : (writeBitset x).length = n := by rw [writeBitset_length]; omega
  unfold readNBytes takeZ
  rw [List.take_append_of_le_length (by omega), List.take_of_length_le (by omega), List.length_append, hl, Nat.sub_eq_zero_of_le (by omega),
    List.replicate_zero, List.append_nil, writeBitset_bits, fillBitset_aligned (by omega), List.drop_left' hl]

theorem isUnit_length {u : Bits} (h : IsUnit u) : u.length % 8 = 0 ∧ 72 ≤ u.length := by
  obtain ⟨head, n, res, payload, hh, hr, hp, hn, rfl⟩ := h
  simp only [List.length_append, writeNBits_length]
  omega

theorem units_length {us : List Bits} (h : ∀ u ∈ us, IsUnit u) : us.flatten.length % 8 = 0 := by
  induction us with
  | nil => rfl
  | cons u us ih =>
    have h1 := isUnit_length (h u (by simp))
    have h2 := ih (fun v hv => h v (by simp [hv]))
    rw [List.flatten_cons, List.length_append]
    omega

/-- The units at the start of a file, whatever follows. -/
theorem loadLoop_prefix (length : Nat) (tail : List UInt8) : ∀ (us : List Bits), (∀ u ∈ us, IsUnit u) → ∀ (fuel byteCount : Nat),
    byteCount + bytesOf us ≤ length →
    loadLoop length (us.length + fuel) byteCount (writeBitset us.flatten ++ tail) =
      match loadLoop length fuel (byteCount + bytesOf us) tail with
      | .error e => .error e
      | .ok vs => .ok (us ++ vs)
  | [], _, fuel, bc, _ => by
    have : (writeBitset ([] : List Bits).flatten) = [] := by decide
    rw [this]
    simp only [List.length_nil, Nat.zero_add, List.nil_append, bytesOf, List.flatten_nil, Nat.zero_div, Nat.add_zero]
    split <;> rename_i h <;> exact h
  | u :: us, hu, fuel, bc, hb => by
    have hus : ∀ v ∈ us, IsUnit v := fun v hv => hu v (by simp [hv])
    have hal := units_length hus
    have ih := loadLoop_prefix length tail us hus fuel (bc + u.length / 8)
    obtain ⟨head, n, res, payload, hh, hr, hp, hn, rfl⟩ := hu u (by simp)
    have hul : (head ++ (writeNBits 32 (n : Int) ++ (res ++ payload))).length = 72 + 8 * n := by
      simp only [List.length_append, writeNBits_length]; omega
    have hbytes : bytesOf ((head ++ (writeNBits 32 (n : Int) ++ (res ++ payload))) :: us) = 9 + n + bytesOf us := by
      unfold bytesOf
      rw [List.flatten_cons, List.length_append, hul]
      omega
    rw [hul] at ih
    rw [hbytes] at hb ⊢
    have e1 : ((head ++ (writeNBits 32 (n : Int) ++ (res ++ payload))) :: us).flatten
        = (head ++ (writeNBits 32 n ++ res)) ++ (payload ++ us.flatten) := by
      simp [List.append_assoc]
    have hd : (head ++ (writeNBits 32 (n : Int) ++ res)).drop 36 = writeNBits 32 n ++ res := by
      rw [List.drop_append_of_le_length (by omega), List.drop_of_length_le (by omega)]; simp
    have hrd : readUInt UNIT_LENGTH (writeNBits 32 (n : Int) ++ res) = .ok ((n : Int), res) :=
      c03_readUInt32 n (by omega) (by exact_mod_cast hn) res
    have h9 : (head ++ (writeNBits 32 (n : Int) ++ res)).length = 8 * 9 := by
      simp only [List.length_append, writeNBits_length]; omega
    rw [e1, writeBitset_append (a := head ++ (writeNBits 32 (n : Int) ++ res)) _ (by omega), writeBitset_append (a := payload) _ (by omega),
      List.append_assoc, List.append_assoc,
      List.length_cons, Nat.add_right_comm us.length 1 fuel]
    rw [loadLoop]
    rw [if_pos (by omega), readNBytes_prefix _ 9 h9]
    simp only [hd, hrd]
    rw [if_neg (by omega)]
    simp only [Int.toNat_natCast]
    rw [readNBytes_prefix _ n hp]
    simp only []
    have hq : (72 + 8 * n) / 8 = 9 + n := by omega
    rw [hq] at ih
    rw [Nat.add_assoc bc 9 n, ih (by omega), Nat.add_assoc bc (9 + n)]
    split <;> rename_i h <;> split at h
    · cases h; rfl
    · cases h
    · cases h
    · cases h; simp [List.append_assoc]

/-- The bytes at the start of a unit. -/
theorem writeBitset_take (x : Bits) (hx : x.length % 8 = 0) (m : Nat) : (writeBitset x).take m = writeBitset (x.take (8 * m)) := by
  by_cases hm : 8 * m ≤ x.length
  · have hl : (x.take (8 * m)).length = 8 * m := by rw [List.length_take]; omega
    conv_lhs => rw [← List.take_append_drop (8 * m) x]
    rw [writeBitset_append _ (by omega), List.take_left' (by rw [writeBitset_length]; omega)]
  · rw [List.take_of_length_le (l := x) (by omega), List.take_of_length_le (by rw [writeBitset_length]; omega)]

/-- Reading past the end gives zeros. -/
theorem readNBytes_short (x : Bits) (n : Nat) (h8 : x.length % 8 = 0) (h : x.length ≤ 8 * n) :
    readNBytes n (writeBitset x) = (x ++ List.replicate (8 * n - x.length) false, []) := by
  have hl : (writeBitset x).length = x.length / 8 := by rw [writeBitset_length]; omega
  have hz : ∀ k, (List.replicate k (0 : UInt8)).flatMap byteBits = List.replicate (8 * k) false := by
    intro k
    induction k with
    | zero => rfl
    | succ k ih =>
      rw [List.replicate_succ, List.flatMap_cons, ih]
      have : byteBits 0 = List.replicate 8 false := by decide
      rw [this, List.replicate_append_replicate]
      congr 1
      omega
  unfold readNBytes takeZ
  rw [List.take_of_length_le (by omega), List.drop_of_length_le (by omega), List.flatMap_append, writeBitset_bits, fillBitset_aligned h8, hl, hz]
  congr 3
  omega

theorem bytesOf_length {us : List Bits} (h : ∀ u ∈ us, IsUnit u) : us.length ≤ bytesOf us := by
  unfold bytesOf
  induction us with
  | nil => simp
  | cons u us ih =>
    have h1 := isUnit_length (h u (by simp))
    have h2 := ih (fun v hv => h v (by simp [hv]))
    rw [List.flatten_cons, List.length_append, List.length_cons]
    omega

/-- The bits of a number the last of which are lost. -/
theorem writeNBits_cut (n j : Nat) (hj : j ≤ 32) (hn : n < 2 ^ 32) :
    (writeNBits 32 (n : Int)).take (32 - j) ++ List.replicate j false = writeNBits 32 ((n / 2 ^ j * 2 ^ j : Nat) : Int) := by
  have hle : n / 2 ^ j * 2 ^ j < 2 ^ 32 := lt_of_le_of_lt (Nat.div_mul_le_self _ _) hn
  refine eq_of_bitsVal ?_ ?_
  · simp only [List.length_append, List.length_take, List.length_replicate, writeNBits_length]
    omega
  · rw [bitsVal_writeNBits_nat _ _ hle, bitsVal_append, bitsVal_replicate_false, List.length_replicate, Nat.add_zero]
    congr 1
    have h1 := bitsVal_writeNBits_nat 32 n hn
    rw [← List.take_append_drop (32 - j) (writeNBits 32 (n : Int)), bitsVal_append] at h1
    have h2 := bitsVal_lt ((writeNBits 32 (n : Int)).drop (32 - j))
    have h3 : ((writeNBits 32 (n : Int)).drop (32 - j)).length = j := by simp only [List.length_drop, writeNBits_length]; omega
    rw [h3] at h1 h2
    conv_rhs => rw [← h1]
    rw [Nat.mul_comm, Nat.mul_add_div (by positivity), Nat.div_eq_of_lt h2, Nat.add_zero]

/-- **C113** What a reader takes for units in a file that was cut off `m` bytes after the start of a unit: all units before it, and
the unit filled up with zeros, up to the length that its head, filled up with zeros, says. -/
theorem c113_units (us vs : List Bits) (u : Bits) (hus : ∀ x ∈ us, IsUnit x) (hu : IsUnit u) (hvs : ∀ x ∈ vs, IsUnit x) (m : Nat)
    (hm : 8 * m ≤ u.length) :
    loadFile ((writeBitset (us ++ u :: vs).flatten).take (bytesOf us + m)) =
      .ok (us ++ if m = 0 then [] else [zeroFilled m (sizeTold m u) u]) := by
  have hal := units_length hus
  have hal' := units_length hvs
  have hul := isUnit_length hu
  have hlen : (writeBitset us.flatten).length = bytesOf us := by rw [writeBitset_length]; unfold bytesOf; omega
  have hfile : (writeBitset (us ++ u :: vs).flatten).take (bytesOf us + m) = writeBitset us.flatten ++ writeBitset (u.take (8 * m)) := by
    rw [List.flatten_append, List.flatten_cons, writeBitset_append _ hal, List.take_append, hlen, List.take_of_length_le (by omega),
      Nat.add_sub_cancel_left, writeBitset_take _ (by rw [List.length_append]; omega), List.take_append_of_le_length (by omega)]
  have hxl : (u.take (8 * m)).length = 8 * m := by rw [List.length_take]; omega
  have hcount := bytesOf_length hus
  unfold loadFile
  rw [hfile, List.length_append, hlen, writeBitset_length, hxl]
  have hq : (8 * m + 7) / 8 = m := by omega
  rw [hq]
  have hf : bytesOf us + m + 1 = us.length + (bytesOf us - us.length + m + 1) := by omega
  rw [hf, loadLoop_prefix _ _ us hus _ 0 (by omega), Nat.zero_add, loadLoop]
  by_cases hm0 : m = 0
  · subst hm0
    simp
  · rw [if_pos (by omega), if_neg hm0]
    obtain ⟨head, n, res, payload, hh, hr, hp, hn, rfl⟩ := hu
    have hul : (head ++ (writeNBits 32 (n : Int) ++ (res ++ payload))).length = 72 + 8 * n := by
      simp only [List.length_append, writeNBits_length]; omega
    have hsize : (72 + 8 * n) / 8 - 9 = n := by omega
    unfold sizeTold zeroFilled
    rw [hul, hsize]
    by_cases h : m < 9
    · rw [readNBytes_short _ 9 (by omega) (by omega), hxl]
      generalize hq' : n / 2 ^ (68 - 8 * m) * 2 ^ (68 - 8 * m) = q
      have hqn : q ≤ n := by rw [← hq']; exact Nat.div_mul_le_self _ _
      have hd : ((head ++ (writeNBits 32 (n : Int) ++ (res ++ payload))).take (8 * m) ++ List.replicate (8 * 9 - 8 * m) false).drop 36 =
          writeNBits 32 (q : Int) ++ List.replicate 4 false := by
        by_cases h4 : m ≤ 4
        · have hq0 : q = 0 := by
            rw [← hq', Nat.div_eq_of_lt, Nat.zero_mul]
            refine lt_of_lt_of_le hn (Nat.pow_le_pow_right (by norm_num) (by omega))
          rw [List.drop_append, List.drop_of_length_le (by omega), List.nil_append, List.drop_replicate, hxl, hq0]
          have : 8 * 9 - 8 * m - (36 - 8 * m) = 36 := by omega
          rw [this]
          decide
        · have e : (head ++ (writeNBits 32 (n : Int) ++ (res ++ payload))).take (8 * m) = head ++ (writeNBits 32 (n : Int)).take (32 - (68 - 8 * m)) := by
            rw [List.take_append, List.take_of_length_le (by omega), List.take_append_of_le_length (by simp only [writeNBits_length]; omega), hh]
            congr 2
            omega
          have e2 : List.replicate (8 * 9 - 8 * m) false = List.replicate (68 - 8 * m) false ++ List.replicate 4 false := by
            rw [List.replicate_append_replicate]
            congr 1
            omega
          rw [e, e2, ← List.append_assoc, List.append_assoc head, writeNBits_cut n _ (by omega) (by omega), hq', List.append_assoc,
            List.drop_left' hh]
      have hrd : readUInt UNIT_LENGTH (writeNBits 32 (q : Int) ++ List.replicate 4 false) = .ok ((q : Int), List.replicate 4 false) :=
        c03_readUInt32 q (by omega) (by exact_mod_cast lt_of_le_of_lt hqn hn) _
      simp only [hd, hrd]
      rw [if_neg (by omega)]
      simp only [Int.toNat_natCast]
      have hnil : ([] : List UInt8) = writeBitset [] := rfl
      rw [hnil, readNBytes_short [] q rfl (by simp)]
      obtain ⟨f, hf'⟩ : ∃ f, bytesOf us - us.length + m = f + 1 := ⟨bytesOf us - us.length + m - 1, by omega⟩
      rw [hf', loadLoop]
      rw [if_neg (by omega)]
      simp only [List.nil_append, List.append_assoc, List.replicate_append_replicate, List.length_nil]
      congr 6
      omega
    · have h9 : (head ++ (writeNBits 32 (n : Int) ++ res)).length = 8 * 9 := by
        simp only [List.length_append, writeNBits_length]; omega
      have e1 : head ++ (writeNBits 32 (n : Int) ++ (res ++ payload)) = (head ++ (writeNBits 32 n ++ res)) ++ payload := by
        simp [List.append_assoc]
      have htake : (head ++ (writeNBits 32 (n : Int) ++ (res ++ payload))).take (8 * m) =
          (head ++ (writeNBits 32 n ++ res)) ++ payload.take (8 * m - 72) := by
        rw [e1, List.take_append, List.take_of_length_le (by omega), h9]
      have hd : (head ++ (writeNBits 32 (n : Int) ++ res)).drop 36 = writeNBits 32 n ++ res := by
        rw [List.drop_append_of_le_length (by omega), List.drop_of_length_le (by omega)]; simp
      have hrd : readUInt UNIT_LENGTH (writeNBits 32 (n : Int) ++ res) = .ok ((n : Int), res) :=
        c03_readUInt32 n (by omega) (by exact_mod_cast hn) res
      have hpl : (payload.take (8 * m - 72)).length = 8 * m - 72 := by rw [List.length_take]; omega
      rw [hul] at hm
      have hp0 : 68 - 8 * m = 0 := by omega
      rw [hp0, pow_zero, Nat.div_one, Nat.mul_one, htake, writeBitset_append (a := head ++ (writeNBits 32 (n : Int) ++ res)) _ (by omega), readNBytes_prefix _ 9 h9]
      simp only [hd, hrd]
      rw [if_neg (by omega)]
      simp only [Int.toNat_natCast]
      rw [readNBytes_short _ n (by omega) (by omega), hpl]
      obtain ⟨f, hf'⟩ : ∃ f, bytesOf us - us.length + m = f + 1 := ⟨bytesOf us - us.length + m - 1, by omega⟩
      rw [hf', loadLoop]
      rw [if_neg (by omega)]
      have hz : 8 * n - (8 * m - 72) = 72 + 8 * n - 8 * m := by omega
      rw [hz]
      simp only [List.append_assoc]

/-- What arrives of a stream that is cut off after `k` units. -/
theorem arrived_take {α : Type} : ∀ (k : Nat) (l : List α), arrived (List.replicate k true ++ List.replicate (l.length - k) false) l = l.take k
  | 0, l => by
    rw [List.replicate_zero, List.nil_append, List.take_zero, Nat.sub_zero]
    induction l with
    | nil => rfl
    | cons a l ih => simpa [List.replicate_succ, arrived] using ih
  | k + 1, [] => by simp [List.replicate_succ, arrived]
  | k + 1, a :: l => by
    have := arrived_take k l
    simp only [List.length_cons, Nat.add_sub_add_right, List.replicate_succ, List.cons_append, arrived, if_true, List.take_succ_cons]
    rw [this]

theorem resumes_lost : ∀ (n : Nat) (b : Bool) (frames : List Frame), Resumes b (List.replicate n false) frames
  | 0, b, _ => by simp [Resumes]
  | n + 1, b, [] => by simp [List.replicate_succ, Resumes]
  | n + 1, b, f :: fs => by
    rw [List.replicate_succ]
    exact ⟨by simp, resumes_lost n _ fs⟩

theorem resumes_take (n : Nat) : ∀ (k : Nat) (frames : List Frame), Resumes false (List.replicate k true ++ List.replicate n false) frames
  | 0, frames => resumes_lost n _ frames
  | k + 1, [] => by simp [List.replicate_succ, Resumes]
  | k + 1, f :: fs => by
    rw [List.replicate_succ, List.cons_append]
    exact ⟨by simp, resumes_take n k fs⟩

theorem clockAfter_le (pd : Nat) : ∀ (fs : List Frame) (c : Nat), c ≤ clockAfter pd fs c
  | [], c => le_rfl
  | f :: fs, c => by
    refine le_trans ?_ (clockAfter_le pd fs (f.next pd c))
    cases f <;> simp [Frame.next]

theorem heardAt_none (pd n : Nat) : ∀ (frames : List Frame) (c : Nat) (x : Int), heardAt pd (List.replicate n false) frames c x = false := by
  induction n with
  | zero => intro frames c x; cases frames <;> rfl
  | succ n ih =>
    intro frames c x
    cases frames with
    | nil => rfl
    | cons f fs => simp [List.replicate_succ, heardAt, ih]

theorem heardAt_take (pd n : Nat) : ∀ (k : Nat) (frames : List Frame) (c : Nat) (x : Int),
    heardAt pd (List.replicate k true ++ List.replicate n false) frames c x = decide ((c : Int) ≤ x ∧ x < (clockAfter pd (frames.take k) c : Int))
  | 0, frames, c, x => by
    rw [List.replicate_zero, List.nil_append, heardAt_none, List.take_zero, clockAfter]
    simp
  | k + 1, [], c, x => by
    simp only [List.replicate_succ, List.cons_append, heardAt, List.take_nil, clockAfter]
    simp
  | k + 1, f :: fs, c, x => by
    have h1 := clockAfter_le pd (fs.take k) (f.next pd c)
    have h2 : c ≤ f.next pd c := by cases f <;> simp [Frame.next]
    simp only [List.replicate_succ, List.cons_append, heardAt, Bool.true_and, List.take_succ_cons, clockAfter]
    rw [heardAt_take pd n k fs _ x, Bool.eq_iff_iff]
    simp only [Bool.or_eq_true, decide_eq_true_eq]
    omega

/-- **C113 (partial)** From a stream file that is cut off at the end of a unit one gets exactly the experience up to the time at which the next
unit would have been due, and the sync points up to there.  Missing: cuts within a unit (`c113_invented_negation`); otherwise the conditions
of `c106_loss_partial`. -/
theorem c113_boundary_partial (h : Experience) (d : Nat) (hd : 0 < d) (hd2 : d < 2 ^ 24) (hs : h.Spaced)
    (hf : h.prune.assignIds.unsynced.StreamFits d) (hi : h.prune.Identified) (hm : h.prune.assignIds.Modest d)
    (hkey : h.prune.Keyframed) (ho : h.prune.assignIds.OffGrid d) :
    ∃ (file : List UInt8) (units : List Bits) (later : List Frame) (init : Nat → Bits),
      writeStream h d = .ok file ∧ loadFile file = .ok units ∧
      List.Forall₂ (Frame.IsEncoded d 0 init) (.sync 0 :: later) units ∧
      (∀ t, unitTypeOf (init t) = UnitType.Initialization) ∧
      ∀ k, 0 < k → k ≤ units.length → (h.prune.Resendable ∨ (syncTimes ((.sync 0 :: later).take k)).length ≤ 1) →
        readStream (file.take (bytesOf (units.take k))) = .ok (true, some
          ((h.prune.assignIds.during (fun x => decide (0 ≤ x ∧ x < (clockAfter d ((.sync 0 :: later).take k) 0 : Int)))).receivedWith
            ((syncTimes ((.sync 0 :: later).take k)).map h.syncAt))) := by
  obtain ⟨units, later, init, h1, h2, h3, h4, -, -, h7⟩ := c106_loss_partial h d hd hd2 hs hf hi hm hkey ho
  refine ⟨_, units, later, init, h1, c14_split units h2, h3, h4, fun k hk hkl hre => ?_⟩
  have hlen := h3.length_eq
  have hal : (units.take k).flatten.length % 8 = 0 := units_length fun u hu => h2 u (List.mem_of_mem_take hu)
  have hfile : (writeBitset units.flatten).take (bytesOf (units.take k)) = writeBitset (units.take k).flatten := by
    have hsplit : units.flatten = (units.take k).flatten ++ (units.drop k).flatten := by
      rw [← List.flatten_append, List.take_append_drop]
    rw [hsplit, writeBitset_append _ hal, List.take_left']
    rw [writeBitset_length]
    unfold bytesOf
    omega
  obtain ⟨j, rfl⟩ : ∃ j, k = j + 1 := ⟨k - 1, by omega⟩
  have ha : arrived (List.replicate (j + 1) true ++ List.replicate (units.length - (j + 1)) false) (.sync 0 :: later) = (.sync 0 :: later).take (j + 1) := by
    rw [← hlen, arrived_take]
  have h8 := h7 (List.replicate (j + 1) true ++ List.replicate (units.length - (j + 1)) false) (by simp; omega) (by simp)
    (by
      rw [List.replicate_succ, List.cons_append]
      exact ⟨fun _ _ => ⟨0, rfl⟩, resumes_take _ j later⟩) (by rw [ha]; exact hre)
  rw [ha, arrived_take] at h8
  rw [hfile, h8]
  congr 6
  funext x
  rw [heardAt_take]
  simp only [Bool.decide_and, Nat.cast_zero]

/-- What a receiver makes of the first `k` units of a stream and `m` bytes of the next one; the bytes there are. -/
def cutOff (h : Experience) (d k m : Nat) : Option (Nat × Except Err (Bool × Reader)) :=
  match writeUnits h d with
  | .error _ => none
  | .ok units => match units[k]? with
    | none => none
    | some u =>
      let us := units.take k ++ [zeroFilled m u.length u]
      if 9 ≤ m ∧ 8 * m ≤ u.length then some (bytesOf (units.take k) + m, readUnits dispatch us us {}) else none

/-- IOStream.cpp:74-82, the end of `readFile`. -/
def delivered : Except Err (Bool × Reader) → Except Err (Bool × Option Experience)
  | .error e => .error e
  | .ok (false, _) => .ok (true, none)
  | .ok (true, r) => .ok (true, some { r.haptic with timescale := some r.timescale })

theorem cutOff_read {h : Experience} {d : Nat} {units : List Bits} (hw : writeUnits h d = .ok units) (hU : ∀ u ∈ units, IsUnit u) {k m n : Nat}
    {r : Except Err (Bool × Reader)} (hc : cutOff h d k m = some (n, r)) :
    readStream ((writeBitset units.flatten).take n) = delivered r := by
  unfold cutOff at hc
  rw [hw] at hc
  simp only at hc
  cases hu : units[k]? with
  | none => rw [hu] at hc; cases hc
  | some u =>
    rw [hu] at hc
    simp only at hc
    split at hc
    case isFalse => cases hc
    rename_i h9
    have hk : k < units.length := by
      by_contra hk
      rw [List.getElem?_eq_none (by omega)] at hu
      cases hu
    have hsplit : units = units.take k ++ u :: units.drop (k + 1) := by
      rw [List.getElem?_eq_getElem hk, Option.some.injEq] at hu
      rw [← hu, List.getElem_cons_drop, List.take_append_drop]
    have hl := c113_units (units.take k) (units.drop (k + 1)) u (fun x hx => hU x (List.mem_of_mem_take hx))
      (hU u (by rw [hsplit]; simp)) (fun x hx => hU x (List.mem_of_mem_drop hx)) m h9.2
    have hul := isUnit_length (hU u (by rw [hsplit]; simp))
    have hst : sizeTold m u = u.length := by
      unfold sizeTold
      have hp0 : 68 - 8 * m = 0 := by omega
      rw [hp0, pow_zero, Nat.div_one, Nat.mul_one]
      omega
    rw [← hsplit, if_neg (by omega), hst] at hl
    rw [Option.some.injEq, Prod.mk.injEq] at hc
    obtain ⟨rfl, rfl⟩ := hc
    unfold readStream readFile
    rw [hl]
    simp only [delivered]
    generalize readUnits dispatch (units.take k ++ [zeroFilled m u.length u]) (units.take k ++ [zeroFilled m u.length u]) {} = q
    rcases q with e | ⟨b, q⟩
    · rfl
    · cases b <;> rfl

/-- `n` bytes with `k` complete units are there and reading them gives something with `p`. -/
def cutGives (h : Experience) (d k m n : Nat) (p : Except Err (Bool × Reader) → Bool) : Bool :=
  match cutOff h d k m with
  | none => false
  | some (n', r) => decide (n' = n) && p r

/-- The sync points of the example. -/
def cutSyncs : List Sync := [{ timestamp := 0 }, { timestamp := 128 }, { timestamp := 256 }]

/-- **C113, negation.** If only 15 bytes are left of a stream file, the program divides by zero; if 112, it reports success and
delivers an experience with six sync points at time 0, where those sent are at 0, 128 and 256; if 267, so that one byte of the fourth unit is missing, an experience in which
the second keyframe of an effect is at 138 instead of 140. -/
theorem c113_invented_negation :
    ∃ file, writeStream (exampleJoined cutSyncs) 128 = .ok file ∧ file.length = 416 ∧
      readStream (file.take 15) = .error .ub ∧
      (∃ e, readStream (file.take 112) = .ok (true, some e) ∧ e.syncs.map (·.timestamp) = [0, 0, 0, 0, 0, 0]) ∧
      (∃ e, readStream (file.take 267) = .ok (true, some e) ∧ eventsOf e = [[(3, [10, 138])]]) ∧
      (∃ e, readStream (file.take 268) = .ok (true, some e) ∧ eventsOf e = [[(3, [10, 140])]]) := by
  obtain ⟨h1, h2, h3, h4, -, -, -⟩ := exampleJoined_meets cutSyncs rfl
  obtain ⟨_, _, _, _, units, hs, _⟩ := streamed (exampleJoined cutSyncs) 128 (by decide) (by decide) h1 h2 h3 h4
  have hw := hs.written
  have hU := hs.units
  have key : ∀ {k m n : Nat} {p : Except Err (Bool × Reader) → Bool}, cutGives (exampleJoined cutSyncs) 128 k m n p = true →
      ∃ r, cutOff (exampleJoined cutSyncs) 128 k m = some (n, r) ∧ p r = true := by
    intro k m n p hp
    unfold cutGives at hp
    split at hp
    · cases hp
    · rename_i n' r h'
      rw [Bool.and_eq_true, decide_eq_true_eq] at hp
      exact ⟨r, by rw [h', hp.1], hp.2⟩
  have len : (match writeUnits (exampleJoined cutSyncs) 128 with
      | .error _ => 0
      | .ok units => units.flatten.length) = 3328 := by decide +kernel
  rw [hw] at len
  refine ⟨writeBitset units.flatten, by unfold writeStream; rw [hw], by rw [writeBitset_length]; simp only at len; omega, ?_, ?_, ?_, ?_⟩
  · obtain ⟨r, hr, hp⟩ := key (k := 0) (m := 15) (n := 15) (p := fun r => match r with | .error .ub => true | _ => false) (by decide +kernel)
    rw [cutOff_read hw hU hr]
    split at hp
    · rfl
    · cases hp
  · obtain ⟨r, hr, hp⟩ := key (k := 1) (m := 9) (n := 112) (p := fun r => match r with
      | .ok (true, r) => decide (r.haptic.syncs.map (·.timestamp) = [0, 0, 0, 0, 0, 0]) | _ => false) (by decide +kernel)
    rw [cutOff_read hw hU hr]
    split at hp
    · exact ⟨_, rfl, by simpa using hp⟩
    · cases hp
  · obtain ⟨r, hr, hp⟩ := key (k := 3) (m := 30) (n := 267) (p := fun r => match r with
      | .ok (true, r) => decide (eventsOf r.haptic = [[(3, [10, 138])]]) | _ => false) (by decide +kernel)
    rw [cutOff_read hw hU hr]
    split at hp
    · exact ⟨_, rfl, of_decide_eq_true hp⟩
    · cases hp
  · obtain ⟨r, hr, hp⟩ := key (k := 3) (m := 31) (n := 268) (p := fun r => match r with
      | .ok (true, r) => decide (eventsOf r.haptic = [[(3, [10, 140])]]) | _ => false) (by decide +kernel)
    rw [cutOff_read hw hU hr]
    split at hp
    · exact ⟨_, rfl, of_decide_eq_true hp⟩
    · cases hp

/-- Non-vacuity: the hypotheses of `c113_boundary_partial` are met, and with the first two of six units one gets the keyframe at 10. -/
example : ∃ h : Experience, h.syncs.map (·.timestamp) = [0, 128, 256] ∧ h.Spaced ∧
    h.prune.assignIds.unsynced.StreamFits 128 ∧ h.prune.Identified ∧ h.prune.assignIds.Modest 128 ∧ h.prune.Keyframed ∧
    h.prune.assignIds.OffGrid 128 ∧ h.prune.Resendable ∧
    (receivedOf h 128 [true, true, false, false, false, false]).map eventsOf = some [[(3, [10])]] ∧
    eventsOf (h.during (fun x => decide (0 ≤ x ∧ x < (clockAfter 128 (([.sync 0, .data 0 [[]], .sync 128, .data 128 [[]], .sync 256, .data 256 [[]]]).take 2) 0 : Int)))) =
      [[(3, [10])]] := by
  obtain ⟨h1, h2, h3, h4, -, h5, h6⟩ := exampleJoined_meets cutSyncs rfl
  refine ⟨exampleJoined _, rfl, h1, h2, h3, h4, h5, ?_, h6, by decide +kernel, by decide +kernel⟩
  intro b hb e he ht
  have ha : ∀ s, (exampleJoined s).prune.assignIds = exampleJoined s := fun s => rfl
  rw [ha] at hb
  simp only [exampleJoined, Experience.allBands, List.flatMap_cons, List.flatMap_nil, List.append_nil,
    List.mem_cons, List.not_mem_nil, or_false] at hb
  subst hb
  simp only [List.mem_cons, List.not_mem_nil, or_false] at he
  rcases he with rfl | rfl <;> cases ht

end Haptics
