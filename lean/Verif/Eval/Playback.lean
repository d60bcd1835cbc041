import Verif.Encoder.Numbers

/-!
Rendering a decoded wavelet band in `double`: Band.cpp (the default branch of `EvaluationBand`) and Effect.cpp
(`EvaluateWavelet`).  The effects are what `WaveletDecoder::transformBand` leaves behind: a position in ticks and the
samples of the block.  `double` is binary64 without overflow; there is no infinity or NaN here, since all operands
are finite and the divisors are not zero.
-/
namespace Haptics.Playback
open Haptics

/-- Band.cpp:233-234: the position in ticks of sample `ti` of the output; `MS_2_S` is the `double` 0.001. -/
def position (timescale fs : Nat) (pad : Int) (ti : Nat) : ℚ :=
  fl64 (timescale * fl64 (fl64 ((ti : ℚ) / fs) - fl64 (pad * fl64 (1 / 1000))))

/-- Effect.cpp:302-303: the position relative to an effect, in samples. -/
def relative (timescale upper effectPosition : Nat) (pos : ℚ) : ℚ :=
  fl64 (fl64 (fl64 (pos - effectPosition) * upper) / timescale)

/-- Effect.cpp:301-311 `EvaluateWavelet`.  A negative index is undefined behaviour. -/
def evaluateWavelet (timescale upper : Nat) (effect : Nat × List ℚ) (pos : ℚ) : Except Err ℚ :=
  match castInt (⌊relative timescale upper effect.1 pos⌋ : ℚ) with
  | .error e => .error e
  | .ok index =>
    if index ≥ effect.2.length then .ok 0
    else if index < 0 then .error .ub
    else .ok (effect.2.getD index.toNat 0)

/-- Band.cpp:244-252: the loop over the effects, from the last to the first one (the list is given in that
order). -/
def sumEffects (timescale upper : Nat) (pos : ℚ) : List (Nat × List ℚ) → (acc : ℚ) → Except Err ℚ
  | [], acc => .ok acc
  | e :: l, acc =>
    if (e.1 : ℚ) ≤ pos then
      match evaluateWavelet timescale upper e pos with
      | .error x => .error x
      | .ok v => sumEffects timescale upper pos l (fl64 (acc + v))
    else sumEffects timescale upper pos l acc

/-- Band.cpp:231-253: sample `ti` of a wavelet band.  The condition of lines 235-242 only stores the zero that is
already there.  Without effects `effects.end() - 1` is undefined. -/
def sample (effects : List (Nat × List ℚ)) (timescale fs upper : Nat) (pad : Int) (ti : Nat) : Except Err ℚ :=
  if effects = [] then .error .ub
  else sumEffects timescale upper (position timescale fs pad ti) effects.reverse 0

end Haptics.Playback
