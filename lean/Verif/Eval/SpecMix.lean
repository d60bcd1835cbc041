import Verif.Eval.Spec

/-! Several signals at once: their sum, clipped to the range of a sample. -/

namespace Haptics

/-- A number clipped to the range from -1 to 1. -/
noncomputable def clipped (x : ℝ) : ℝ := max (-1) (min 1 x)

/-- The numbers are so small that no part of them needs to be clipped, or none of them is negative, or none is positive. -/
def Calm (xs : List ℝ) : Prop := (xs.map abs).sum ≤ 1 ∨ (∀ x ∈ xs, 0 ≤ x) ∨ ∀ x ∈ xs, x ≤ 0

/-- The samples number `i` of the signals are the numbers `xs`. -/
def SamplesAt (i : ℕ) (signals : List (List (Option ℝ))) (xs : List ℝ) : Prop :=
  List.Forall₂ (fun s x => s[i]? = some (some x)) signals xs

/-- The signal `s` of `n` samples is the sum of the signals, clipped to the range from -1 to 1. -/
def IsMix (n : ℕ) (signals : List (List (Option ℝ))) (s : List (Option ℝ)) : Prop :=
  s.length = n ∧ ∀ i < n, ∃ xs, SamplesAt i signals xs ∧ s[i]? = some (some (clipped xs.sum))

end Haptics
