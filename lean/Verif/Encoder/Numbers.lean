import Verif.Bits.Float

/-! Scalar arithmetic of the encoders: conversion to `int` and the interpolations of Tools.cpp, in `double`. -/

namespace Haptics
open Haptics

/-- Towards zero. -/
def truncQ (x : ℚ) : Int := if 0 ≤ x then ⌊x⌋ else ⌈x⌉

/-- `static_cast<int>` of a `double`: undefined when the integer does not fit. -/
def castInt (x : ℚ) : Except Err Int :=
  if -2 ^ 31 ≤ truncQ x ∧ truncQ x < 2 ^ 31 then .ok (truncQ x) else .error .ub

/-- `std::round`: halves away from zero. -/
def roundAway (x : ℚ) : ℚ := if 0 ≤ x then (⌊x + 1 / 2⌋ : ℚ) else (⌈x - 1 / 2⌉ : ℚ)

/-- Tools.cpp:39-60 `linearInterpolation` in `double`; `none` is NaN (`0 / 0`). -/
def linear64 (a b : Int × ℚ) (x : Int) : Option ℚ :=
  if x < a.1 then some a.2
  else if x > b.1 then some b.2
  else if a.1 = b.1 then none
  -- start and end would be swapped for a.1 > b.1, but then x < a.1 or x > b.1
  else some (fl64 (fl64 (fl64 (a.2 * (b.1 - x)) + fl64 (b.2 * (x - a.1))) / (b.1 - a.1)))

/-- Tools.cpp:62-76 `chirpInterpolation` in `double`. -/
def chirp64 (startTime endTime : Int) (startFrequency endFrequency : ℚ) (position : Int) : ℚ :=
  let go := fun (s e : Int) (f g : ℚ) => fl64 (fl64 (fl64 (fl64 (fl64 (g - f) / (e - s)) / 2) * (position - s)) + f)
  if endTime < startTime then go endTime startTime endFrequency startFrequency
  else if startTime = endTime then endFrequency
  else go startTime endTime startFrequency endFrequency

/-- Tools.cpp:78-88 `genericNormalization` in `double`. -/
def normalize64 (startIn endIn startOut endOut x : ℚ) : ℚ :=
  if fl64 (endIn - startIn) ≠ 0 then
    fl64 (fl64 (fl64 (fl64 (endOut - startOut) / fl64 (endIn - startIn)) * fl64 (x - endIn)) + endOut)
  else -1

end Haptics
