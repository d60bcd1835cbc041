import Verif.Types.Model
import Mathlib.Algebra.Order.Field.Rat
import Mathlib.Algebra.Order.Group.Abs

/-! What is expected of the curve of a signal. -/

namespace Haptics.Pcm
open Haptics

/-- Sample `k` has a neighbour on both sides, and the signal goes on through it as it came: it rises, falls or stays. -/
def Straight (s : List ℚ) (k : Nat) : Prop :=
  ∃ a b c, 0 < k ∧ s[k - 1]? = some a ∧ s[k]? = some b ∧ s[k + 1]? = some c ∧
    ((a < b ∧ b < c) ∨ (b < a ∧ c < b) ∨ (a = b ∧ b = c))

/-- Neighbouring samples are equal or differ by at least 2^-45. -/
def Resolved (s : List ℚ) : Prop :=
  ∀ (k : Nat) (a b : ℚ), s[k]? = some a → s[k + 1]? = some b → a ≠ b → 1 / 2 ^ 45 ≤ |a - b|

/-- From sample `i` to sample `j` the signal rises all the time, falls all the time or stays. -/
def OneWay (s : List ℚ) (i j : Nat) : Prop :=
  (∀ (k : Nat) (a b : ℚ), i ≤ k → k < j → s[k]? = some a → s[k + 1]? = some b → a < b) ∨
  (∀ (k : Nat) (a b : ℚ), i ≤ k → k < j → s[k]? = some a → s[k + 1]? = some b → b < a) ∨
  (∀ (k : Nat) (a b : ℚ), i ≤ k → k < j → s[k]? = some a → s[k + 1]? = some b → a = b)

end Haptics.Pcm
