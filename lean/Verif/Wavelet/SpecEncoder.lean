import Verif.Wavelet.Encoder
import Mathlib.Algebra.BigOperators.Group.Finset.Basic

/-! What C42 and C43 say about the wavelet encoder. -/

namespace Haptics.Wavelet
open Haptics

/-- Coefficient `i` of a block of `2 ^ k` belongs to band `b`: band 0 has the first four coefficients, and
every further band as many as there are before it. -/
def InBand (b i : Nat) : Prop := match b with
  | 0 => i < 4
  | b + 1 => 4 * 2 ^ b ≤ i ∧ i < 4 * 2 ^ (b + 1)

/-- The number of bands of a block of `2 ^ k` coefficients. -/
def bands (k : Nat) : Nat := k - 1

/-- Some coefficient of the band is not a multiple of the finest step, `max / 2 ^ 15`, nor so close to one that
the square of the difference vanishes: the band is never reproduced exactly. -/
def Inexact (dwt : List Rat) (max : Rat) (b : Nat) : Prop :=
  ∃ i, InBand b i ∧ ∀ n : Int, 1 / 2 ^ 500 ≤ |dwt.getD i 0 - max * n / 2 ^ 15|

/-- The budget is at most 15 bits for each band that is not reproduced exactly (the
encoder never spends more than 15 bits times the number of bands), and the psychohaptic model gives
numbers. -/
def Spendable (k : Nat) (dwt : List Rat) (max : Rat) (pm : Model) (budget : Int) : Prop :=
  (∀ b < bands k, 0 < pm.bandenergy.getD b 0 ∧ ∃ q, pm.smr.getD b .nan = .fin q) ∧
    ∃ G : Finset Nat, (∀ b ∈ G, b < bands k ∧ Inexact dwt max b) ∧ min budget (15 * bands k) ≤ 15 * G.card

/-- The budget is at most 15 bits, or can be spent on the block, or the block is silent and the budget is at most 30
bits. -/
def BudgetFits (k : Nat) (dwt : List Rat) (max : Rat) (pm : Model) (budget : Int) : Prop :=
  budget ≤ 15 ∨ Spendable k dwt max pm budget ∨ (budget ≤ 30 ∧ ∀ v ∈ dwt, v = 0)

/-- By how much the magnitude of a coefficient exceeds the maximum `m` of its block. -/
def excess (m x : Rat) : Rat := if |x| ≤ m then 0 else |x| - m

/-- The largest magnitudes the header of a block can hold. -/
def Expressible (m : Rat) : Prop := m ≤ 127 / 128 ∨ (1 ≤ m ∧ m ≤ 1 + 127 / 8)

end Haptics.Wavelet
