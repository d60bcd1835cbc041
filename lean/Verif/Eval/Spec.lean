import Verif.Eval.Model

/-
What rendering should deliver, without reference to how the code finds keyframes.
-/
namespace Haptics

/-- A rendered sample is a number of the interval [-1, 1]. -/
def Sample (x : Option ℝ) : Prop := ∃ r, x = some r ∧ -1 ≤ r ∧ r ≤ 1

/-- `x` lies between `a` and `b`. -/
def Between (a b x : ℝ) : Prop := min a b ≤ x ∧ x ≤ max a b

/-- Every keyframe that carries an amplitude also carries a position. -/
def AmplitudesPlaced (e : Effect) : Prop :=
  ∀ k ∈ e.keyframes, k.amplitudeModulation.isSome → k.relativePosition.isSome

/-- Every keyframe that carries a position also carries an amplitude. -/
def PositionsLoud (e : Effect) : Prop :=
  ∀ k ∈ e.keyframes, k.relativePosition.isSome → k.amplitudeModulation.isSome

/-- Keyframes with both a position and an amplitude, as points of the plane. -/
def IsPoints (e : Effect) (pts : List (ℤ × ℚ)) : Prop :=
  e.keyframes.map (fun k => (k.relativePosition, k.amplitudeModulation))
    = pts.map (fun p => (some p.1, some p.2))

/-- The amplitudes of an effect lie within `bound`. -/
def AmplitudeBound (e : Effect) (bound : ℝ) : Prop :=
  ∀ k ∈ e.keyframes, ∀ a, k.amplitudeModulation = some a → |(a : ℝ)| ≤ bound

/-- What rendering a channel at a given time needs: an actual time scale, ordered frequency limits, and
keyframes with positions (and, for transients, amplitudes). -/
structure Playable (timescale : Nat) (c : Channel) : Prop where
  scale : timescale ≠ 0
  limits : ∀ b ∈ c.bands, 0 ≤ b.upperFrequencyLimit ∧ b.lowerFrequencyLimit ≤ b.upperFrequencyLimit
  placed : ∀ b ∈ c.bands, ∀ e ∈ b.effects, ∀ k ∈ e.keyframes, k.relativePosition.isSome
  loud : ∀ b ∈ c.bands, b.bandType = BandType.Transient → ∀ e ∈ b.effects, ∀ k ∈ e.keyframes,
    k.amplitudeModulation.isSome

/-- End of an effect: the position of its last keyframe, counted from the start of the experience. -/
def endsBy (e : Effect) (t : ℝ) : Prop :=
  ∀ k ∈ e.keyframes, ∀ p, k.relativePosition = some p → (e.position : ℝ) + p ≤ t

/-- The keyframe positions, in samples, increase strictly. -/
def Increasing (pts : List (ℤ × ℝ)) : Prop := (pts.map Prod.fst).Pairwise (· < ·)

/-- The last two of three or more keyframes are at least two samples apart. -/
def EndApart (pts : List (ℤ × ℝ)) : Prop :=
  ∀ pre a b, pts = pre ++ [a, b] → pre ≠ [] → a.1 + 2 ≤ b.1

/-- `r` is the signal through `pts`, one value per sample from 0 to the last keyframe, where the values
between two neighbouring keyframes are given by `seg`. -/
def IsCurve (seg : ℝ → ℝ → ℝ → ℝ → ℝ → Option ℝ) (pts : List (ℤ × ℝ)) (r : List (Option ℝ)) : Prop :=
  (r.length : ℤ) = (pts.getLastD (0, 0)).1 + 1 ∧
  ∀ i : Nat, i < r.length → ∃ pre q0 q1 post, pts = pre ++ q0 :: q1 :: post ∧
    q0.1 ≤ (i : ℤ) ∧ (i : ℤ) ≤ q1.1 ∧
    r[i]? = some (seg q0.1 q0.2 q1.1 q1.2 i)

end Haptics
