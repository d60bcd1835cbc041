import Verif.Encoder.Ahap
import Verif.Encoder.SpecEnvelope
import Verif.Encoder.SpecInject

/-! AHAP files as a designer writes them, and what is expected of their conversion. -/

namespace Haptics.Ahap
open Haptics Haptics.Json

/-! ### Files -/

/-- A parameter of an event. -/
inductive Parameter
  | intensity (value : ℚ)
  | sharpness (value : ℚ)

/-- An element of the pattern.  Times are in seconds; the points of a curve have a time, counted from the time of
the curve, and a value. -/
inductive Item
  | transient (time : ℚ) (parameters : List Parameter)
  | continuous (time duration : ℚ) (parameters : List Parameter)
  | intensityCurve (time : ℚ) (points : List (ℚ × ℚ))
  | sharpnessCurve (time : ℚ) (points : List (ℚ × ℚ))

/-- Text. -/
def text (s : String) : Json := .str (s.toList.map (fun c => UInt8.ofNat c.toNat))

def Parameter.json : Parameter → Json
  | .intensity v => .obj [("ParameterID", text "HapticIntensity"), ("ParameterValue", .dbl v)]
  | .sharpness v => .obj [("ParameterID", text "HapticSharpness"), ("ParameterValue", .dbl v)]

def curveJson (name : String) (time : ℚ) (points : List (ℚ × ℚ)) : Json :=
  .obj [("ParameterCurve", .obj [("ParameterID", text name), ("Time", .dbl time),
    ("ParameterCurveControlPoints", .arr (points.map (fun p =>
      .obj [("Time", .dbl p.1), ("ParameterValue", .dbl p.2)])))])]

def Item.json : Item → Json
  | .transient t ps => .obj [("Event", .obj [("Time", .dbl t), ("EventType", text "HapticTransient"),
      ("EventParameters", .arr (ps.map Parameter.json))])]
  | .continuous t d ps => .obj [("Event", .obj [("Time", .dbl t), ("EventType", text "HapticContinuous"),
      ("EventDuration", .dbl d), ("EventParameters", .arr (ps.map Parameter.json))])]
  | .intensityCurve t ps => curveJson "HapticIntensityControl" t ps
  | .sharpnessCurve t ps => curveJson "HapticSharpnessControl" t ps

/-- The file. -/
def fileOf (items : List Item) : Json := .obj [("Version", .dbl 1), ("Pattern", .arr (items.map Item.json))]

/-- The transients of a file: time and parameters. -/
def transients (items : List Item) : List (ℚ × List Parameter) := items.filterMap (fun i => match i with
  | .transient t ps => some (t, ps)
  | _ => none)

/-- The continuous events of a file: time, duration and parameters. -/
def continuous (items : List Item) : List (ℚ × ℚ × List Parameter) := items.filterMap (fun i => match i with
  | .continuous t d ps => some (t, d, ps)
  | _ => none)

/-! ### Times -/

/-- The tick of an event: nearest to its time, computed in `double`. -/
def eventTick (ts : Nat) (time : ℚ) : Int := truncQ (roundAway (fl64 (fl64 time * ts)))

/-- The tick of a control point: the last one before its time, computed in `double`. -/
def pointTick (ts : Nat) (curve time : ℚ) : Int := truncQ (fl64 (fl64 (fl64 time + fl64 curve) * ts))

/-- All points of the intensity curves: tick, value. -/
def intensityPoints (ts : Nat) (items : List Item) : List (Int × ℚ) := items.flatMap (fun i => match i with
  | .intensityCurve t ps => ps.map (fun p => (pointTick ts t p.1, fl64 p.2))
  | _ => [])

/-- All points of the sharpness curves. -/
def sharpnessPoints (ts : Nat) (items : List Item) : List (Int × ℚ) := items.flatMap (fun i => match i with
  | .sharpnessCurve t ps => ps.map (fun p => (pointTick ts t p.1, fl64 p.2))
  | _ => [])

/-! ### Values in the ranges of the format -/

def Parameter.Valid : Parameter → Prop
  | .intensity v => 0 ≤ v ∧ v ≤ 1
  | .sharpness v => 0 ≤ v ∧ v ≤ 1

/-- Times are not negative, the last one is before tick `2 ^ 30`, values are in the ranges of the format and
continuous events last for a tick at least. -/
def Item.Valid (ts : Nat) : Item → Prop
  | .transient t ps => 0 ≤ t ∧ t * ts ≤ 2 ^ 29 ∧ ∀ p ∈ ps, p.Valid
  | .continuous t d ps => 0 ≤ t ∧ t * ts ≤ 2 ^ 29 ∧ d * ts ≤ 2 ^ 29 ∧ 1 ≤ d * ts ∧ ∀ p ∈ ps, p.Valid
  | .intensityCurve t ps => 0 ≤ t ∧ ∀ p ∈ ps, 0 ≤ p.1 ∧ (t + p.1) * ts ≤ 2 ^ 29 ∧ -1 ≤ p.2 ∧ p.2 ≤ 1
  | .sharpnessCurve t ps => 0 ≤ t ∧ ∀ p ∈ ps, 0 ≤ p.1 ∧ (t + p.1) * ts ≤ 2 ^ 29 ∧ -1 ≤ p.2 ∧ p.2 ≤ 1

/-! ### Parameters -/

/-- The intensity of an event: the last one given. -/
def lastIntensity (ps : List Parameter) : Option ℚ :=
  (ps.filterMap (fun p => match p with | .intensity v => some v | _ => none)).getLast?

/-- The sharpness of an event: the last one given. -/
def lastSharpness (ps : List Parameter) : Option ℚ :=
  (ps.filterMap (fun p => match p with | .sharpness v => some v | _ => none)).getLast?

/-! ### Curves over events -/

/-- The curve reaches the event: there is none, or some point of it is at the start of the event or later, and the
first point is before the end of the event. -/
def Covers (points : List (Int × ℚ)) (position length : Int) : Prop :=
  points = [] ∨ (∃ p ∈ points, position ≤ p.1) ∧ ∀ p ∈ points.head?, p.1 < position + length
instance (points : List (Int × ℚ)) (position length : Int) : Decidable (Covers points position length) :=
  inferInstanceAs (Decidable (_ ∨ _))

/-- Each curve of the file reaches each continuous event. -/
def Covered (ts : Nat) (items : List Item) : Prop := ∀ e ∈ continuous items,
  Covers (intensityPoints ts items) (eventTick ts e.1) (eventTick ts e.2.1) ∧
  Covers (sharpnessPoints ts items) (eventTick ts e.1) (eventTick ts e.2.1)
instance (ts : Nat) (items : List Item) : Decidable (Covered ts items) :=
  inferInstanceAs (Decidable (∀ e ∈ continuous items, _ ∧ _))

/-- A perception to which an AHAP file can be added: at most one channel, and each vectorial band of it plays one
effect at a time. -/
def Ready (p : Perception) : Prop := p.channels.length ≤ 1 ∧
  ∀ c ∈ p.channels, ∀ b ∈ c.bands, b.bandType = BandType.VectorialWave → b.Sequential ∧ ∀ e ∈ b.effects, e.Timed

/-! ### Keyframes of continuous events -/

/-- The points of a curve are in the order of time. -/
def Rising (points : List (Int × ℚ)) : Prop := points.Pairwise (fun p q => p.1 < q.1)
instance (points : List (Int × ℚ)) : Decidable (Rising points) := inferInstanceAs (Decidable (List.Pairwise _ _))

/-- The keyframes are at the times `xs`, one after the other. -/
def At (kfs : List Keyframe) (xs : List Int) : Prop :=
  kfs.map (·.relativePosition) = xs.map some ∧ xs.Pairwise (· < ·)

/-- `a` is the amplitude at `x` ticks of an event of the amplitude `base` under an intensity curve, given by its
points: between two points `base` times the value of the curve; before the first point and after the last one
`base`.  At the last point itself it is `base` too, unless the event ends there. -/
structure IsAmplitude (points : List (Int × ℚ)) (position length : Int) (base : ℚ) (x : Int) (a : ℚ) : Prop where
  inside : ∀ p q, Ivs.Neighbours points p q → p.1 ≤ position + x →
    position + x < q.1 ∨ x = length ∧ position + x = q.1 →
    |a - base * Ivs.lineAt p q ((position + x : Int) : ℚ)| ≤ 1 / 2 ^ 21
  before : (∀ p ∈ points, position + x < p.1) → a = base
  after : (∀ p ∈ points, p.1 ≤ position + x) → x < length ∨ (∀ p ∈ points, p.1 < position + x) → a = base

/-- Sharpness, between 0 and 1, in Hz. -/
def inHz (s : ℚ) : ℚ := 65 + 235 * s

/-- `f` is the frequency at `x` ticks of an event of the sharpness `base` and the frequency `frequency` under a
sharpness curve: at a point, sharpness and value of the curve are added; at the last point it is the one of the
event; before the first point and after the last one it is the frequency of the event. -/
structure IsFrequency (points : List (Int × ℚ)) (position length : Int) (base : ℚ) (frequency : Int) (x : Int)
    (f : Int) : Prop where
  point : ∀ p q, Ivs.Neighbours points p q → p.1 = position + x → x < length →
    |f - inHz (clamp01 (p.2 + base))| ≤ 1 / 2 + 1 / 1000
  last : ∀ p, points.getLast? = some p → p.1 = position + x → 0 < x → x < length → |f - inHz base| ≤ 1 / 2 + 1 / 1000
  before : (∀ p ∈ points, position + x < p.1) → f = frequency
  after : (∀ p ∈ points, p.1 ≤ position + x) → x = 0 ∨ (∀ p ∈ points, p.1 < position + x) → f = frequency
  range : points ≠ [] → 0 < x → x < length → 65 ≤ f ∧ f ≤ 300

/-- The keyframes of a continuous event of the given amplitude, sharpness and frequency under an intensity curve `A`
and a sharpness curve `F`: from 0 to the length of the event, and at each control point between. -/
structure IsModulated (A F : List (Int × ℚ)) (position length : Int) (amplitude sharpness : ℚ) (frequency : Int)
    (kfs : List Keyframe) : Prop where
  times : ∃ xs, At kfs xs ∧ ∀ x, x ∈ xs ↔
    x = 0 ∨ x = length ∨ ∃ p ∈ A ++ F, p.1 = position + x ∧ 0 < x ∧ x < length
  amplitudes : ∀ k ∈ kfs, ∀ x, k.relativePosition = some x →
    (k.amplitudeModulation.isSome ↔ x = 0 ∨ x = length ∨ ∃ p ∈ A, p.1 = position + x) ∧
    ∀ a, k.amplitudeModulation = some a → IsAmplitude A position length amplitude x a
  frequencies : ∀ k ∈ kfs, ∀ x, k.relativePosition = some x →
    (k.frequencyModulation.isSome ↔ x = 0 ∨ x = length ∨ ∃ p ∈ F, p.1 = position + x) ∧
    ∀ f, k.frequencyModulation = some f → IsFrequency F position length sharpness frequency x f

/-- An effect made of a continuous event: at the tick of the event; the intensity 1 is the amplitude 0.6138, the
sharpness 0 to 1 is 65 to 300 Hz.  Without parameters the amplitude is 0.5 and the frequency 90 Hz, but the
sharpness 1. -/
def IsContinuous (A F : List (Int × ℚ)) (ts : Nat) (t d : ℚ) (ps : List Parameter) (e : Effect) : Prop :=
  ∃ (amplitude sharpness : ℚ) (frequency : Int),
    (match lastIntensity ps with
      | none => amplitude = 1 / 2
      | some v => |amplitude - 6138 / 10000 * v| ≤ 1 / 10 ^ 6) ∧
    (match lastSharpness ps with
      | none => sharpness = 1 ∧ frequency = 90
      | some v => |sharpness - v| ≤ 1 / 10 ^ 6 ∧ inHz v - 1 - 1 / 1000 ≤ frequency ∧ frequency ≤ inHz v + 1 / 1000) ∧
    ∃ kfs, IsModulated A F (eventTick ts t) (eventTick ts d) amplitude sharpness frequency kfs ∧
      e = { position := eventTick ts t, phase := some 0, baseSignal := some 0, keyframes := kfs }

/-! ### Transients -/

/-- A keyframe made of a transient: at the tick of the event; the intensity 1 is the amplitude 0.792, without
intensity it is 0.5.  Between two points of the intensity curve it is multiplied by the value of the curve, up to the
first point by the value of that.  Sharpness is not used: the frequency is 90 Hz; between two points of the sharpness
curve the value of the curve in Hz is added, up to the first point it is 300 Hz. -/
structure IsTransient (A F : List (Int × ℚ)) (ts : Nat) (t : ℚ) (ps : List Parameter) (k : Keyframe) : Prop where
  time : k.relativePosition = some (eventTick ts t)
  amplitude : ∃ base a : ℚ, k.amplitudeModulation = some a ∧
    (match lastIntensity ps with
      | none => base = 1 / 2
      | some v => |base - 792 / 1000 * v| ≤ 1 / 10 ^ 6) ∧
    (∀ p q, Ivs.Neighbours A p q → p.1 < eventTick ts t → eventTick ts t ≤ q.1 →
      |a - base * Ivs.lineAt p q (eventTick ts t)| ≤ 1 / 2 ^ 21) ∧
    (∀ p, A.head? = some p → eventTick ts t ≤ p.1 → |a - base * p.2| ≤ 1 / 2 ^ 21) ∧
    ((∀ p ∈ A, p.1 < eventTick ts t) → a = base)
  frequency : ∃ f : Int, k.frequencyModulation = some f ∧
    (∀ p q, Ivs.Neighbours F p q → p.1 < eventTick ts t → eventTick ts t ≤ q.1 →
      |f - (90 + inHz (Ivs.lineAt p q (eventTick ts t)))| ≤ 1 + 1 / 1000) ∧
    (∀ p, F.head? = some p → eventTick ts t ≤ p.1 → f = 300) ∧
    ((∀ p ∈ F, p.1 < eventTick ts t) → f = 90)

/-! ### Files -/

/-- The channel of the perception, or a new one. -/
def channelOf (p : Perception) : Channel := p.channels.head?.getD { id := 0, description := placeholder }

/-- A band with all transients in one effect. -/
def bandOf (kfs : List Keyframe) : Band :=
  { bandType := BandType.Transient, lowerFrequencyLimit := 65, upperFrequencyLimit := 300,
    effects := [{ keyframes := kfs }] }

end Haptics.Ahap
