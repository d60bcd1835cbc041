import Verif.Tools.SpecNumber
import Verif.Tools.Text
import Mathlib.Data.List.Induction
import Mathlib.Tactic.Ring
import Mathlib.Data.List.TakeWhile

namespace Haptics

theorem digitsValue_eq (s : Str) : digitsValue s = Nat.ofDigits 10 (s.reverse.map (fun b => b.toNat - 48)) := by
  induction s using List.reverseRecOn with
  | nil => rfl
  | append_singleton s b ih =>
    unfold digitsValue at ih ⊢
    rw [List.foldl_append, List.reverse_append, List.map_append, ih]
    simp [Nat.ofDigits_cons]
    ring

theorem isSpace_iff (b : UInt8) : isSpace b = true ↔ b ∈ ([9, 10, 11, 12, 13, 32] : List UInt8) := by
  unfold isSpace
  simp only [Bool.or_eq_true, beq_iff_eq, Bool.and_eq_true, decide_eq_true_eq, List.mem_cons, List.not_mem_nil, or_false,
    UInt8.le_iff_toNat_le, ← UInt8.toNat_inj]
  change _ = 32 ∨ 9 ≤ _ ∧ _ ≤ 13 ↔ _ = 9 ∨ _ = 10 ∨ _ = 11 ∨ _ = 12 ∨ _ = 13 ∨ _ = 32
  omega

theorem isDigit_iff (b : UInt8) : isDigit b = true ↔ 48 ≤ b ∧ b ≤ 57 := by
  unfold isDigit
  simp

theorem takeWhile_digits {digits rest : Str} (hd : ∀ b ∈ digits, 48 ≤ b ∧ b ≤ 57) (hr : ∀ b ∈ rest.head?, ¬ (48 ≤ b ∧ b ≤ 57)) :
    (digits ++ rest).takeWhile isDigit = digits := by
  rw [List.takeWhile_append_of_pos fun b hb => (isDigit_iff b).mpr (hd b hb)]
  cases rest with
  | nil => simp
  | cons b rest =>
    rw [List.takeWhile_cons_of_neg]
    · simp
    · rw [isDigit_iff]; exact hr b rfl

/-- **C82.** A text is read as the number it begins with, if that is an `int`; otherwise an exception is thrown. -/
theorem c82_number (s : Str) :
    (∀ v, stoi s = .ok v ↔ Numeral s v ∧ -2 ^ 31 ≤ v ∧ v < 2 ^ 31) ∧ (∀ e, stoi s = .error e → e = .throw) := by
  constructor
  · intro v
    constructor
    · intro h
      obtain ⟨hne, hval, hv⟩ : ¬ ((signOf (s.dropWhile isSpace)).2.takeWhile isDigit).isEmpty = true ∧
          (if (signOf (s.dropWhile isSpace)).1 = true then -(digitsValue ((signOf (s.dropWhile isSpace)).2.takeWhile isDigit) : Int)
            else digitsValue ((signOf (s.dropWhile isSpace)).2.takeWhile isDigit)) = v ∧ (-2 ^ 31 ≤ v ∧ v < 2 ^ 31) := by
        unfold stoi at h
        simp only at h
        by_cases hne : ((signOf (s.dropWhile isSpace)).2.takeWhile isDigit).isEmpty = true
        · rw [if_pos hne] at h; cases h
        · rw [if_neg hne] at h
          revert h
          generalize (if (signOf (s.dropWhile isSpace)).1 = true then -(digitsValue ((signOf (s.dropWhile isSpace)).2.takeWhile isDigit) : Int)
            else digitsValue ((signOf (s.dropWhile isSpace)).2.takeWhile isDigit)) = w
          intro h
          by_cases hw : -2 ^ 31 ≤ w ∧ w < 2 ^ 31
          · rw [if_pos hw] at h
            have := Except.ok.inj h
            subst this
            exact ⟨hne, rfl, hw⟩
          · rw [if_neg hw] at h; cases h
      refine ⟨?_, hv⟩
      have hs : s = s.takeWhile isSpace ++ s.dropWhile isSpace := (List.takeWhile_append_dropWhile).symm
      have hblank : ∀ b ∈ s.takeWhile isSpace, b ∈ ([9, 10, 11, 12, 13, 32] : List UInt8) :=
        fun b hb => (isSpace_iff b).mp (List.mem_takeWhile_imp hb)
      revert hval hne hs
      generalize s.dropWhile isSpace = t
      intro hne hval hs
      have hrest : ∀ u : Str, ∀ b ∈ (u.dropWhile isDigit).head?, ¬ (48 ≤ b ∧ b ≤ 57) := by
        intro u b hb hd
        have := List.head?_dropWhile_not isDigit u
        rw [hb] at this
        simp only at this
        rw [(isDigit_iff b).mpr hd] at this
        cases this
      have hdig : ∀ u : Str, ∀ b ∈ u.takeWhile isDigit, 48 ≤ b ∧ b ≤ 57 := fun u b hb => (isDigit_iff b).mp (List.mem_takeWhile_imp hb)
      have key : ∀ (sign u : Str), t = sign ++ u → (signOf t).2 = u →
          s = s.takeWhile isSpace ++ sign ++ u.takeWhile isDigit ++ u.dropWhile isDigit := by
        intro sign u h1 _
        rw [List.append_assoc, List.append_assoc, List.takeWhile_append_dropWhile, ← h1]
        exact hs
      rw [digitsValue_eq] at hval
      cases t with
      | nil =>
        exact absurd rfl hne
      | cons b t =>
        by_cases h45 : b = 45
        · have hsign : signOf (b :: t) = (true, t) := by simp only [signOf, if_pos h45]
          rw [hsign] at hne hval
          refine ⟨_, [45], t.takeWhile isDigit, t.dropWhile isDigit, key [45] t (by rw [h45]; rfl) (by rw [hsign]), hblank, ?_, hdig t, hrest t, Or.inl ⟨rfl, ?_⟩⟩
          · simpa using hne
          · rw [← hval, if_pos rfl]
        · by_cases h43 : b = 43
          · have hsign : signOf (b :: t) = (false, t) := by simp only [signOf, if_neg h45, if_pos h43]
            rw [hsign] at hne hval
            refine ⟨_, [43], t.takeWhile isDigit, t.dropWhile isDigit, key [43] t (by rw [h43]; rfl) (by rw [hsign]), hblank, ?_, hdig t, hrest t, Or.inr ⟨Or.inl rfl, ?_⟩⟩
            · simpa using hne
            · rw [← hval, if_neg Bool.false_ne_true]
          · have hsign : signOf (b :: t) = (false, b :: t) := by simp only [signOf, if_neg h45, if_neg h43]
            rw [hsign] at hne hval
            refine ⟨_, [], (b :: t).takeWhile isDigit, (b :: t).dropWhile isDigit, key [] (b :: t) rfl (by rw [hsign]), hblank, ?_, hdig _, hrest _, Or.inr ⟨Or.inr rfl, ?_⟩⟩
            · simpa using hne
            · rw [← hval, if_neg Bool.false_ne_true]
    · rintro ⟨⟨blanks, sign, digits, rest, rfl, hb, hne, hd, hr, hv⟩, h1, h2⟩
      have hfirst : ∃ b t, digits = b :: t ∧ 48 ≤ b ∧ b ≤ 57 := by
        cases digits with
        | nil => exact absurd rfl hne
        | cons b t => exact ⟨b, t, rfl, hd b List.mem_cons_self⟩
      obtain ⟨b, t, hbt, hb1, hb2⟩ := hfirst
      have hnd : isSpace b = false := by
        rw [Bool.eq_false_iff]
        intro h
        have := (isSpace_iff b).mp h
        simp only [List.mem_cons, List.not_mem_nil, or_false] at this
        rcases this with rfl | rfl | rfl | rfl | rfl | rfl <;> revert hb1 <;> decide
      have hdrop : (blanks ++ sign ++ digits ++ rest).dropWhile isSpace = sign ++ digits ++ rest := by
        rw [List.append_assoc, List.append_assoc, List.dropWhile_append_of_pos fun x hx => (isSpace_iff x).mpr (hb x hx), ← List.append_assoc]
        rcases hv with ⟨rfl, _⟩ | ⟨rfl | rfl, _⟩
        · exact List.dropWhile_cons_of_neg (by decide)
        · exact List.dropWhile_cons_of_neg (by decide)
        · rw [hbt]; exact List.dropWhile_cons_of_neg (by rw [hnd]; decide)
      have hsign : ∃ neg, signOf (sign ++ digits ++ rest) = (neg, digits ++ rest) ∧
          v = if neg = true then -(digitsValue digits : Int) else digitsValue digits := by
        rw [digitsValue_eq]
        rcases hv with ⟨rfl, rfl⟩ | ⟨rfl | rfl, rfl⟩
        · exact ⟨true, rfl, rfl⟩
        · exact ⟨false, rfl, rfl⟩
        · refine ⟨false, ?_, rfl⟩
          rw [hbt]
          show signOf (b :: (t ++ rest)) = _
          have h45 : b ≠ 45 := by rintro rfl; revert hb1; decide
          have h43 : b ≠ 43 := by rintro rfl; revert hb1; decide
          simp only [signOf, if_neg h45, if_neg h43]
          rfl
      obtain ⟨neg, hs, hval⟩ := hsign
      unfold stoi
      simp only
      rw [hdrop, hs]
      simp only
      rw [takeWhile_digits hd hr, if_neg (by simpa using hne), ← hval, if_pos ⟨h1, h2⟩]
  · intro e h
    unfold stoi at h
    simp only at h
    by_cases hne : ((signOf (s.dropWhile isSpace)).2.takeWhile isDigit).isEmpty = true
    · rw [if_pos hne] at h; exact (Except.error.inj h).symm
    · rw [if_neg hne] at h
      revert h
      generalize (if (signOf (s.dropWhile isSpace)).1 = true then -(digitsValue ((signOf (s.dropWhile isSpace)).2.takeWhile isDigit) : Int)
        else digitsValue ((signOf (s.dropWhile isSpace)).2.takeWhile isDigit)) = w
      intro h
      by_cases hw : -2 ^ 31 ≤ w ∧ w < 2 ^ 31
      · rw [if_pos hw] at h; cases h
      · rw [if_neg hw] at h; exact (Except.error.inj h).symm

/-- Non-vacuity: blanks, a sign and what follows the digits are passed over. -/
example : Numeral [32, 43, 48, 55, 57, 46, 53] 79 ∧ stoi [32, 43, 48, 55, 57, 46, 53] = .ok 79 ∧ stoi [45, 32, 51] = .error .throw := by
  refine ⟨⟨[32], [43], [48, 55, 57], [46, 53], rfl, by decide, by decide, by decide, by decide, Or.inr ⟨Or.inl rfl, by decide⟩⟩, ?_, ?_⟩
  · decide +kernel
  · decide +kernel

end Haptics
