import Verif.Types.Model
import Mathlib.Data.Nat.Digits.Defs

/-! The numbers of texts and options (C82). -/

namespace Haptics

/-- The text begins with the decimal number `v`: blanks, a sign or none, at least one digit and all digits there are;
anything may follow. -/
def Numeral (s : Str) (v : Int) : Prop :=
  ∃ blanks sign digits rest : Str, s = blanks ++ sign ++ digits ++ rest ∧
    (∀ b ∈ blanks, b ∈ [9, 10, 11, 12, 13, 32]) ∧
    digits ≠ [] ∧ (∀ b ∈ digits, 48 ≤ b ∧ b ≤ 57) ∧ (∀ b ∈ rest.head?, ¬ (48 ≤ b ∧ b ≤ 57)) ∧
    ((sign = [45] ∧ v = -((Nat.ofDigits 10 (digits.reverse.map (fun b => b.toNat - 48)) : Nat) : Int)) ∨
      ((sign = [43] ∨ sign = []) ∧ v = ((Nat.ofDigits 10 (digits.reverse.map (fun b => b.toNat - 48)) : Nat) : Int)))

end Haptics
