/-!
`FilterBank/src/Filterbank.cpp`: filtering a signal forwards and backwards.

The Butterworth filters themselves are those of the library `iir1`, which is not part of the repository: a filter is
any machine that takes a sample and gives one.
-/

namespace Haptics.Filter

/-- A filter of `iir1`: its state after `setup` or `reset`, and `filter`. -/
structure Machine (σ α : Type) where
  start : σ
  step : σ → α → σ × α

/-- Filterbank.cpp:47-49 and 53-55 (63-65 and 69-71), the loops: every sample is replaced by the output of the
filter. -/
def run {σ α : Type} (m : Machine σ α) (s : σ) : List α → List α
  | [] => []
  | x :: l => (m.step s x).2 :: run m (m.step s x).1 l

/-- Filterbank.cpp:40-58 `LP`, with the filter set up by 41-42, and 60-77 `HP`, which is the same with another filter
(61-62): forwards, then, after `reset`, from the last sample to the first. -/
def twice {σ α : Type} (m : Machine σ α) (signal : List α) : List α :=
  let out := run m m.start signal
  (run m m.start out.reverse).reverse

end Haptics.Filter
