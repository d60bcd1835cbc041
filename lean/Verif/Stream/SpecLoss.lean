import Verif.Stream.SpecJoin

/-
C106: receivers that lose units of a stream.  Nothing here refers to packets or the functions that write and read units.
-/
namespace Haptics

/-- What is left of a list if only the elements arrive for which `got` is true. -/
def arrived {α : Type} : List Bool → List α → List α
  | g :: gs, x :: xs => if g then x :: arrived gs xs else arrived gs xs
  | _, _ => []

/-- After a loss nothing arrives until the next sync point.  `lost` says that some time has been lost and no sync point
has arrived since.  The loss of a sync point itself is not a loss of time. -/
def Resumes : Bool → List Bool → List Frame → Prop
  | lost, g :: gs, f :: fs =>
    (lost = true → g = true → ∃ t, f = .sync t) ∧ Resumes (!g && (lost || f.syncTime.isNone)) gs fs
  | _, _, _ => True

/-- The time `x` lies in one of the units that arrive, if the first one is due at time `c`. -/
def heardAt (pd : Nat) : List Bool → List Frame → Nat → Int → Bool
  | g :: gs, f :: fs, c, x =>
    (g && decide ((c : Int) ≤ x ∧ x < (f.next pd c : Int))) || heardAt pd gs fs (f.next pd c) x
  | _, _, _, _ => false

end Haptics
