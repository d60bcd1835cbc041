import Verif.Types.Model

/-! What C69 says: versions and dates. -/

namespace Haptics.Json
open Haptics

def IsDigit (b : UInt8) : Prop := 48 ≤ b ∧ b ≤ 57

/-- A year and, possibly, the number of an amendment: `XXXX` or `XXXX-Y`, from 2023 on, `Y` not 0. -/
def IsVersion (s : Str) : Prop :=
  ∃ a b c d : UInt8, IsDigit a ∧ IsDigit b ∧ IsDigit c ∧ IsDigit d ∧
    2023 ≤ 1000 * (a.toNat - 48) + 100 * (b.toNat - 48) + 10 * (c.toNat - 48) + (d.toNat - 48) ∧
    (s = [a, b, c, d] ∨ ∃ y, IsDigit y ∧ y ≠ 48 ∧ s = [a, b, c, d, 45, y])

/-- Four digits in a row, anywhere. -/
def HasFourDigits (s : Str) : Prop :=
  ∃ before after, ∃ a b c d : UInt8, IsDigit a ∧ IsDigit b ∧ IsDigit c ∧ IsDigit d ∧
    s = before ++ a :: b :: c :: d :: after

end Haptics.Json
