import Verif.Encoder.Main

/-! What is expected of the encoder as a program. -/

namespace Haptics.EncoderMain
open Haptics Haptics.Args
open Haptics.Json (lit)

/-- The word after the first of the two names that has one. -/
def Named (tokens : List Str) (a b : Str) (v : Str) : Prop :=
  v ≠ [] ∧ (getCmdOption tokens a = v ∨ (getCmdOption tokens a = [] ∧ getCmdOption tokens b = v))

/-- Perception `q` is what element `e` of an OHM file becomes, when its metadata gave perception `p`. -/
def Encoded (env : Env) (o : Options) (ohm : Str) (timescale : Nat) (e : Ohm.ElementInfo) (p q : Perception) : Prop :=
  env.isFile (env.beside ohm e.filename) = true ∧
  match kindOf (getFileExt (env.beside ohm e.filename)) with
  | some k => encodeKind env o timescale (env.beside ohm e.filename) p k = .ok (some q)
  | none => q = p

/-- The bits for a block at a bit rate, before they are limited. -/
def bitsAt (t : ℚ) : ℚ := 2573 / 10000000 * t ^ 3 - 4421 / 100000 * t ^ 2 + 3433 / 1000 * t - 6506 / 1000

end Haptics.EncoderMain
