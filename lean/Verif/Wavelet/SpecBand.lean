import Verif.Wavelet.SpecSignal

/-! What C111 says about a block. -/

namespace Haptics.Wavelet
open Haptics

/-- `r` is what is decoded of a block: its coefficients are multiplied by a power of two. -/
def Magnified (inverse : Nat → List ℚ → List ℚ) (transform : List ℚ → List ℚ) (k : Nat) (budget : Int) (block r : List ℚ) : Prop :=
  ∃ coeffs n, Precise k budget (transform block) coeffs ∧ n ≤ 15 ∧ r = inverse (k - 2) (coeffs.map (2 ^ n * ·))

end Haptics.Wavelet
