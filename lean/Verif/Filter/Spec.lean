import Mathlib.Algebra.BigOperators.Group.Finset.Basic
import Mathlib.Algebra.Ring.Rat

/-!
Linear filters, and what it means that a filter does not shift a signal in time.
-/

namespace Haptics.Filter
open Finset

/-- The sample at place `n` of a signal, silence outside of it. -/
def at0 (x : List ℚ) (n : Nat) : ℚ := x[n]?.getD 0

/-- An operation on signals is the one with the impulse response `h`: every sample of the output is a sum of this
and the earlier samples of the input, weighted by how long ago they are. -/
def HasResponse (f : List ℚ → List ℚ) (h : Nat → ℚ) : Prop :=
  ∀ x, (f x).length = x.length ∧ ∀ n < x.length, at0 (f x) n = ∑ i ∈ range (n + 1), h (n - i) * at0 x i

/-- A signal of `n` samples that is 1 at place `i` and 0 elsewhere. -/
def impulse (n i : Nat) : List ℚ := (List.range n).map (fun k => if k = i then 1 else 0)

/-- The inner product of two signals of `n` samples. -/
def inner (n : Nat) (x y : List ℚ) : ℚ := ∑ i ∈ range n, at0 x i * at0 y i

/-- The sum of two signals of the same length, the second one times a number. -/
def plus (x : List ℚ) (c : ℚ) (y : List ℚ) : List ℚ := (x.zip y).map (fun p => p.1 + c * p.2)

end Haptics.Filter
