import Verif.Bits.Props
import Verif.Stream.Meta
import Verif.Stream.SpecMeta

/- Reading back single fields of the metadata packets. -/
namespace Haptics

theorem readUInt_w {n : Nat} {v : Int} (h : U n v) (r : Bits) (h0 : 0 < n := by decide)
    (h31 : n ≤ 31 := by decide) : readUInt n (writeNBits n v ++ r) = .ok (v, r) := by
  obtain ⟨k, rfl⟩ := Int.eq_ofNat_of_zero_le h.1
  exact c03_readUInt n k h0 h31 (by exact_mod_cast h.2) r

theorem readUInt_wn {n v : Nat} (h : v < 2 ^ n) (r : Bits) (h0 : 0 < n := by decide)
    (h31 : n ≤ 31 := by decide) : readUInt n (writeNBits n (v : Int) ++ r) = .ok ((v : Int), r) :=
  c03_readUInt n v h0 h31 h r

theorem wN_mod (n : Nat) (v : Int) : writeNBits n v = writeNBits n (v % 2 ^ n) :=
  (writeNBits_emod n v (v % 2 ^ n) (by simp))

theorem readUInt_any {n : Nat} (v : Int) (r : Bits) (h0 : 0 < n := by decide)
    (h31 : n ≤ 31 := by decide) : readUInt n (writeNBits n v ++ r) = .ok (v % 2 ^ n, r) := by
  rw [wN_mod]
  exact readUInt_w ⟨Int.emod_nonneg _ (by positivity), Int.emod_lt_of_pos _ (by positivity)⟩ r h0 h31

theorem readUInt_w32 (v : Int) (r : Bits) :
    ∃ w, readUInt 32 (writeNBits 32 v ++ r) = .ok (w, r) ∧ w % 2 ^ 32 = v % 2 ^ 32 := by
  have hlt : v % 2 ^ 32 < 2 ^ 32 := Int.emod_lt_of_pos _ (by norm_num)
  have hge : 0 ≤ v % 2 ^ 32 := Int.emod_nonneg _ (by norm_num)
  by_cases h : v % 2 ^ 32 < 2 ^ 31
  · refine ⟨v % 2 ^ 32, ?_, by simp⟩
    rw [wN_mod, c03_readUInt32 _ (by omega) h]
  · refine ⟨v % 2 ^ 32 - 2 ^ 32, ?_, by simp⟩
    have : writeNBits 32 v = writeNBits 32 (v % 2 ^ 32 - 2 ^ 32) :=
      writeNBits_emod 32 _ _ (by simp)
    rw [this, c03_readUInt32 _ (by omega) (by omega)]

theorem readUInt32_toU32 {v : Nat} (h : v < 2 ^ 32) (r : Bits) :
    ∃ w, readUInt 32 (writeNBits 32 (v : Int) ++ r) = .ok (w, r) ∧ toU32 w = v := by
  obtain ⟨w, h1, h2⟩ := readUInt_w32 v r
  refine ⟨w, h1, ?_⟩
  unfold toU32
  rw [h2]
  omega

theorem toI8_emod {v : Int} (h : I8 v) : toI8 (v % 2 ^ 8) = v := by
  unfold toI8
  rw [Int.emod_emod]
  exact toSigned_emod 8 (by norm_num) v (by simpa using h.1) (by simpa using h.2)

theorem rStr8_w {s : Str} (h : s.length < 256) (r : Bits) : rStr8 (wStr8 s ++ r) = .ok (s, r) := by
  unfold rStr8 wStr8
  rw [List.append_assoc, Rd.bind_apply, readUInt_wn h]
  exact rdStr_strBits s r _ (by simp)

theorem prioOf_w (p : Option Int) : prioOf (priorityOrDefault p) = receivedPriority p := by
  cases p with
  | none => rfl
  | some v =>
    by_cases hv : v = 0 <;> simp [prioOf, priorityOrDefault, receivedPriority, Option.filter, hv]

theorem U_priority {p : Option Int} (h : ∀ v ∈ p, U 8 v) : U 8 (priorityOrDefault p) := by
  cases p with
  | none => exact ⟨by simp [priorityOrDefault], by simp [priorityOrDefault]⟩
  | some v => exact h v rfl

theorem rOptF_w (n : Nat) (hn : n ≤ 52) (mn mx : ℚ) (x : Option ℚ) (r : Bits) :
    rOptF n mn mx x.isSome (wOptF n mn mx x ++ r) = .ok (x.map (quantF n mn mx), r) := by
  cases x with
  | none => rfl
  | some v =>
    simp only [rOptF, wOptF, Option.isSome_some, if_true, Rd.bind_apply, readFloatNBits_write n hn,
      Rd.pure_apply, Option.map_some]

theorem rOptN_w (n : Nat) (x : Option Nat) (h : ∀ v ∈ x, v < 2 ^ n) (r : Bits)
    (h0 : 0 < n := by decide) (h31 : n ≤ 31 := by decide) :
    rOptN n x.isSome (wOptN n x ++ r) = .ok (x, r) := by
  cases x with
  | none => rfl
  | some v =>
    simp only [rOptN, wOptN, Option.isSome_some, if_true, Rd.bind_apply,
      readUInt_wn (h v rfl) r h0 h31, Rd.pure_apply, Int.toNat_natCast]

theorem rOptI_w (n : Nat) (x : Option Int) (h : ∀ v ∈ x, U n v) (r : Bits)
    (h0 : 0 < n := by decide) (h31 : n ≤ 31 := by decide) :
    rOptI n x.isSome (wOptI n x ++ r) = .ok (x, r) := by
  cases x with
  | none => rfl
  | some v =>
    simp only [rOptI, wOptI, Option.isSome_some, if_true, Rd.bind_apply,
      readUInt_w (h v rfl) r h0 h31, Rd.pure_apply]

theorem readScheme_w (x : Option Str) (h : ∀ s ∈ x, s.length < 256) (r : Bits) :
    readScheme (writeScheme x ++ r) = .ok (x, r) := by
  cases x with
  | none =>
    simp only [readScheme, writeScheme, Rd.bind_apply,
      readUInt_w (n := MDPERCE_FLAG_SEMANTIC) (v := 0) (by decide)]
    rfl
  | some t =>
    simp only [readScheme, writeScheme, Rd.bind_apply, List.append_assoc,
      readUInt_w (n := MDPERCE_FLAG_SEMANTIC) (v := 1) (by decide), if_true,
      readUInt_wn (n := MDPERCE_SCHEME_LENGTH) (h t rfl), Int.toNat_natCast,
      rdStr_strBits t _ _ rfl, Rd.pure_apply]

theorem rVec8_w (v : Vector3) (h : v.Fits) (r : Bits) : rVec8 (writeVector v ++ r) = .ok (v, r) := by
  simp only [rVec8, writeVector, List.append_assoc, Rd.bind_apply, readUInt_any (n := 8),
    Rd.pure_apply, toI8_emod h.X, toI8_emod h.Y, toI8_emod h.Z]

theorem wList_ok {α β : Type} {w : α → Except Err Bits} {p : Rd β} {q : α → β} {l : List α}
    (hw : ∀ x ∈ l, ∃ b, w x = .ok b ∧ ∀ r, p (b ++ r) = .ok (q x, r)) :
    ∃ b, wList w l = .ok b ∧ ∀ r n, n = l.length → rdList p n (b ++ r) = .ok (l.map q, r) := by
  induction l with
  | nil => exact ⟨[], rfl, by rintro r _ rfl; rfl⟩
  | cons a l ih =>
    obtain ⟨b, hb, hp⟩ := hw a (by simp)
    obtain ⟨c, hc, hq⟩ := ih (fun x hx => hw x (by simp [hx]))
    refine ⟨b ++ c, by simp [wList, hb, hc], ?_⟩
    rintro r _ rfl
    simp only [List.length_cons, rdList, Rd.bind_apply, List.append_assoc, hp, hq _ _ rfl,
      Rd.pure_apply, List.map_cons]

end Haptics
