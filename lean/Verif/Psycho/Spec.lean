import Mathlib.Algebra.Order.Ring.Rat

/-! What C86 says about the peaks of a spectrum. -/

namespace Haptics.Psycho

/-- `l` is an inner bin of the spectrum, higher than both of its neighbours. -/
def LocalMax (x : List ℚ) (l : ℕ) : Prop :=
  1 ≤ l ∧ l + 1 < x.length ∧ x.getD (l - 1) 0 < x.getD l 0 ∧ x.getD (l + 1) 0 < x.getD l 0

/-- The peak at `l` stands out by `p`: going away from it, to the left and to the right, the spectrum falls to `p` below
the peak before it rises above the peak. -/
def Prominent (x : List ℚ) (l : ℕ) (p : ℚ) : Prop :=
  (∃ r < l, x.getD r 0 ≤ x.getD l 0 - p ∧ ∀ s, r < s → s < l → x.getD s 0 ≤ x.getD l 0) ∧
  (∃ r < x.length, l < r ∧ x.getD r 0 ≤ x.getD l 0 - p ∧ ∀ s, l < s → s < r → x.getD s 0 ≤ x.getD l 0)

/-- No two neighbouring bins are equal. -/
def Distinct (x : List ℚ) : Prop := ∀ i, i + 1 < x.length → x.getD i 0 ≠ x.getD (i + 1) 0

/-- How much a peak of height `v` at the frequency `f` masks at the frequency `g`. -/
def curve (f v g : ℚ) : ℚ := v - 5 + f / 280 - 30 * ((g - f) / f) ^ 2

end Haptics.Psycho
