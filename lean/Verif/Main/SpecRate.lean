import Verif.Main.SpecSynth
import Verif.Eval.Spec

/-! The signals of one sound at two sampling frequencies. -/

namespace Haptics

/-- Sample `i` at the frequency `fs` and sample `j` at the frequency `fs'` are of the same time: `i / fs = j / fs'`. -/
def SameTime (fs fs' : ℤ) (i j : ℕ) : Prop := (i : ℤ) * fs' = j * fs

/-- The signal `s` at the frequency `fs` and the signal `s'` at the frequency `fs'` have the same value at every time at
which both have a sample. -/
def AgreeInTime (fs fs' : ℤ) (s s' : List (Option ℝ)) : Prop :=
  ∀ i j : ℕ, i < s.length → j < s'.length → SameTime fs fs' i j → s[i]? = s'[j]?

/-- The keyframes of a curve are at increasing times, the ends of the effect are within the 31 bits of the samples'
numbers, and every tick of the time scale is two or more whole samples. -/
structure OnGrid (fs pad : ℤ) (ts : ℕ) (e : Effect) (pts : List (ℤ × ℚ)) : Prop where
  points : IsPoints e pts
  several : 2 ≤ pts.length
  ordered : (pts.map Prod.fst).Pairwise (· < ·)
  early : ∀ p ∈ pts, 0 ≤ p.1 ∧ p.1 * fs < 2 ^ 31
  ticks : ∃ m : ℤ, 2 ≤ m ∧ fs = m * ts
  start : 0 ≤ e.position + pad ∧ (e.position + pad) * fs * ts < 2 ^ 31

/-- Bands that are not curves; or curves that are not B-splines (curve type 5), whose keyframes are at samples at both frequencies. -/
def Unsampled (fs fs' pad : ℤ) (ts : ℕ) (b : Band) : Prop :=
  b.bandType ≠ BandType.Curve ∨
    (b.curveTypeOrDefault ≠ 5 ∧
      ∀ e ∈ b.effects, ∃ pts, OnGrid fs pad ts e pts ∧ OnGrid fs' pad ts e pts)

end Haptics
