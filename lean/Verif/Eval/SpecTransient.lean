import Mathlib.Analysis.SpecialFunctions.Trigonometric.Basic
import Verif.Types.Ops

namespace Haptics

/-!
# Specification of C100: a transient is 22 ms of sound, at every timescale
-/

/-- The effect is one transient of amplitude `a`, struck at `tick` (not before the effect). -/
def Struck (e : Effect) (tick : Int) (a : ℚ) : Prop :=
  ∃ p f, 0 ≤ p ∧ e.keyframes = [⟨some p, some a, f⟩] ∧ e.position + p = tick

/-- What a transient of amplitude `a` sounds like `s` seconds after it was struck: two periods of a sine
within 22 ms, and nothing before or after. -/
noncomputable def strike (a s : ℝ) : ℝ :=
  if 0 ≤ s ∧ s ≤ 22 / 1000 then a * Real.sin (2 * (2 * Real.pi) * (s / (22 / 1000))) else 0

end Haptics
