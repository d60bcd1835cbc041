import Verif.Wavelet.SpecEncoder
import Verif.Wavelet.Decoder

/-! What C42, C67 and C68 say about a signal. -/

namespace Haptics.Wavelet
open Haptics

/-- `coeffs` are the coefficients `dwt` of a block of `2 ^ k` with the precision `budget` allows: the budget
is distributed over the bands, at most 15 bits for each one, and a coefficient is off by at most the
maximum divided by two to the power of the bits of its band, and by what it exceeds the maximum. -/
def Precise (k : Nat) (budget : Int) (dwt coeffs : List Rat) : Prop :=
  ∃ bits : List Nat, bits.length = bands k ∧ (∀ n ∈ bits, n ≤ 15) ∧ bits.sum = (min budget (15 * bands k)).toNat ∧
    coeffs.length = 2 ^ k ∧
    ∀ b < bands k, ∀ i, InBand b i → |coeffs.getD i 0 - dwt.getD i 0| ≤
      maximumCoefficient dwt / 2 ^ bits.getD b 0 + excess (maximumCoefficient dwt) (dwt.getD i 0)

end Haptics.Wavelet
