import Verif.Wavelet.Transform
import Verif.Wavelet.SpecEncoder
import Mathlib.Algebra.BigOperators.Group.Finset.Basic

/-! The wavelet codec with its transform, and the precision C85 promises. -/

namespace Haptics.Wavelet
open Haptics Finset Transform

/-- WaveletEncoder.cpp:89-91: the transform of a block, with the levels of the encoder; it is not undefined (C84). -/
def transformBlock (block : List ℚ) : List ℚ := match dwt fl64 (dwtLevel block.length) block with
  | .ok c => c
  | .error _ => []

/-- WaveletDecoder.cpp:96-97: the inverse transform; it is not undefined (C84). -/
def inverseBlock (levels : ℕ) (c : List ℚ) : List ℚ := match invDwt fl64 levels c with
  | .ok y => y
  | .error _ => []

/-- The largest error of a sample of a block of `2 ^ k` whose bands have been given `bits`, if its amplitude is at most
`M`, the maximum in its header is `m` and its coefficients exceed that by at most `x`. -/
def tolerance (k : ℕ) (M m x : ℚ) (bits : List ℕ) : ℚ :=
  2 ^ (k - 2) / 2 ^ 41 * M +
    (m / 2 ^ bits.getD 0 0 + x + 6 / 5 * ∑ b ∈ range (k - 2), (m / 2 ^ bits.getD (b + 1) 0 + x))

/-- The precision of a block of amplitude at most `M` whose bands have been given `bits`. -/
def precisionOf (k : ℕ) (M : ℚ) (block : List ℚ) (bits : List ℕ) : ℚ :=
  tolerance k M (maximumCoefficient (transformBlock block))
    (excess (maximumCoefficient (transformBlock block)) (findMax (transformBlock block))) bits

end Haptics.Wavelet
