import Verif.Encoder.AhapLemmas
import Verif.Encoder.PropsInject

/-! C76: which AHAP files are converted, and which make the encoder read outside of a curve. -/

namespace Haptics.Ahap
open Haptics Haptics.Json

/-! ### Curves over one event -/

theorem amplitudeLoop_ok (position length : Int) (base : ℚ) (before : Option Point) (rest : List Point)
    (kfs : List Keyframe) (last : ℚ) (h1 : before = none → ∀ p ∈ rest.head?, p.1 < position + length)
    (h2 : ∀ q ∈ before, q.1 < position + length) : ∃ r, amplitudeLoop position length base before rest kfs last = .ok r := by
  induction rest generalizing before kfs with
  | nil => exact ⟨_, rfl⟩
  | cons p rest ih =>
    unfold amplitudeLoop
    split
    · rename_i hp
      cases before with
      | none => have := h1 rfl p rfl; omega
      | some q =>
        obtain ⟨y, hy⟩ := interpolated_ok (h2 q rfl) hp
        simp only [hy]
        exact ⟨_, rfl⟩
    · rename_i hp
      push Not at hp
      have h3 : ∀ q ∈ (some p : Option Point), q.1 < position + length := by
        intro q hq; cases hq; exact hp
      split
      · exact ih (some p) _ (fun h => by cases h) h3
      · exact ih (some p) _ (fun h => by cases h) h3

theorem roundHz_clamp (x : ℚ) : ∃ g, roundHz (clamp01 x) = .ok g :=
  ⟨_, roundHz_ok (by linarith [clamp01_nonneg x]) (clamp01_le_one x)⟩

theorem frequencyLoop_ok (position length : Int) (base : ℚ) (hb : 0 ≤ base ∧ base ≤ 1) (before : Option Point)
    (rest : List Point) (kfs : List Keyframe) (last : Int)
    (h1 : before = none → ∀ p ∈ rest.head?, p.1 < position + length) :
    ∃ r, frequencyLoop position length base before rest kfs last = .ok r := by
  induction rest generalizing before kfs with
  | nil => exact ⟨_, rfl⟩
  | cons p rest ih =>
    have hg : ∀ (n : Bool) (x : Int) (l : List Keyframe), ∃ l', addBaseFrequency n base x l = .ok l' := by
      intro n x l
      unfold addBaseFrequency
      rw [roundHz_ok (by linarith [hb.1]) hb.2]
      cases n
      · exact ⟨_, rfl⟩
      · exact ⟨_, rfl⟩
    unfold frequencyLoop
    split
    · rename_i hp
      cases before with
      | none => have := h1 rfl p rfl; omega
      | some q =>
        obtain ⟨g, hg⟩ := roundHz_clamp
          (fl64 (chirp64 q.1 p.1 (fl64 (q.2 + base)) (fl64 (p.2 + base)) (position + length) + base))
        simp only [hg]
        exact ⟨_, rfl⟩
    · split
      · obtain ⟨l1, e1⟩ := hg before.isNone (p.1 - position) kfs
        obtain ⟨g, e2⟩ := roundHz_clamp (fl64 (p.2 + base))
        obtain ⟨l2, e3⟩ := hg rest.isEmpty (p.1 - position) (addFrequencyKf (some g) (p.1 - position) l1)
        simp only [e1, e2, bind, Except.bind, e3]
        exact ih (some p) _ (fun h => by cases h)
      · exact ih (some p) _ (fun h => by cases h)

theorem covers_split {points pre : List Point} {p : Point} {rest : List Point} {position length : Int}
    (he : points = pre ++ p :: rest) (hp : position ≤ p.1) :
    Covers points position length ↔ ∀ q ∈ (pre ++ p :: rest).head?, q.1 < position + length := by
  subst he
  constructor
  · rintro (h | h)
    · simp at h
    · exact h.2
  · intro h
    exact Or.inr ⟨⟨p, by simp, hp⟩, h⟩

/-- **C76.** The intensity curve over an event. -/
theorem modulateAmplitude_cases (points : List Point) (position length : Int) (hl : 1 ≤ length) (base : ℚ)
    (kfs : List Keyframe) :
    (Covers points position length → ∃ r, modulateAmplitude points position length base kfs = .ok r) ∧
    (¬ Covers points position length → modulateAmplitude points position length base kfs = .error .ub) := by
  cases hpt : points with
  | nil => exact ⟨fun _ => ⟨_, rfl⟩, fun h => absurd (Or.inl rfl) h⟩
  | cons z zs =>
  rw [← hpt]
  have hne : points.isEmpty = false := by rw [hpt]; rfl
  unfold modulateAmplitude
  rw [hne]
  simp only [Bool.false_eq_true, if_false]
  rcases split_points points position with ⟨h1, h2⟩ | ⟨pre, p, rest, h1, h2, h3, h4, h5⟩
  · rw [h1]
    constructor
    · rintro (h | ⟨⟨p, hp, hle⟩, -⟩)
      · rw [hpt] at h; cases h
      · have := h2 p hp; omega
    · intro _; rfl
  rw [h2, h3, covers_split h1 h5]
  simp only
  rcases List.eq_nil_or_concat pre with rfl | ⟨pre', q, rfl⟩
  · -- the curve starts at or after the start of the event
    simp only [List.nil_append, List.head?_cons, Option.mem_some_iff, forall_eq', List.getLast?_nil]
    split
    · rename_i hc
      have hlt : p.1 < position + length := by omega
      exact ⟨fun _ => amplitudeLoop_ok _ _ _ _ _ _ _ (fun h => by cases h)
        (fun q hq => by cases hq; exact hlt), fun h => absurd hlt h⟩
    · constructor
      · intro h
        exact amplitudeLoop_ok _ _ _ _ _ _ _ (fun _ q hq => by cases hq; exact h) (fun q hq => by cases hq)
      · intro h
        push Not at h
        unfold amplitudeLoop
        rw [if_pos h]
  · have hq : q.1 < position + length := by
      have := h4 q (by simp)
      omega
    have hcov : ∀ r ∈ (pre' ++ [q] ++ p :: rest).head?, r.1 < position + length := by
      intro r hr
      have : r ∈ pre' ++ [q] := by
        cases pre' with
        | nil => simp at hr; simp [hr]
        | cons a l => simp at hr; simp [hr]
      have := h4 r (by simpa using this)
      omega
    simp only [List.getLast?_append, List.getLast?_singleton, Option.some_or, List.concat_eq_append]
    refine ⟨fun _ => ?_, fun h => absurd (by simpa using hcov) h⟩
    split
    · exact amplitudeLoop_ok _ _ _ _ _ _ _ (fun h => by cases h)
        (fun r hr => by cases hr; omega)
    · split
      · obtain ⟨y, hy⟩ := interpolated_ok (h4 q (by simp)) h5
        simp only [hy]
        exact amplitudeLoop_ok _ _ _ _ _ _ _ (fun h => by cases h) (fun r hr => by cases hr; exact hq)
      · exact amplitudeLoop_ok _ _ _ _ _ _ _ (fun h => by cases h) (fun r hr => by cases hr; exact hq)

/-- **C76.** The sharpness curve over an event. -/
theorem modulateFrequency_cases (points : List Point) (position length : Int) (hl : 1 ≤ length) (base : ℚ)
    (hb : 0 ≤ base ∧ base ≤ 1) (kfs : List Keyframe) (last : Int) :
    (Covers points position length → ∃ r, modulateFrequency points position length base kfs last = .ok r) ∧
    (¬ Covers points position length → modulateFrequency points position length base kfs last = .error .ub) := by
  cases hpt : points with
  | nil => exact ⟨fun _ => ⟨_, rfl⟩, fun h => absurd (Or.inl rfl) h⟩
  | cons z zs =>
  rw [← hpt]
  have hne : points.isEmpty = false := by rw [hpt]; rfl
  unfold modulateFrequency
  rw [hne]
  simp only [Bool.false_eq_true, if_false]
  rcases split_points points position with ⟨h1, h2⟩ | ⟨pre, p, rest, h1, h2, h3, h4, h5⟩
  · rw [h1]
    constructor
    · rintro (h | ⟨⟨p, hp, hle⟩, -⟩)
      · rw [hpt] at h; cases h
      · have := h2 p hp; omega
    · intro _; rfl
  rw [h2, h3, covers_split h1 h5]
  simp only
  obtain ⟨g1, e1⟩ := roundHz_clamp (fl64 (p.2 + base))
  rcases List.eq_nil_or_concat pre with rfl | ⟨pre', q, rfl⟩
  · simp only [List.nil_append, List.head?_cons, Option.mem_some_iff, forall_eq', List.getLast?_nil]
    split
    · rename_i hc
      have hlt : p.1 < position + length := by omega
      simp only [e1]
      exact ⟨fun _ => frequencyLoop_ok _ _ _ hb _ _ _ _ (fun h => by cases h), fun h => absurd hlt h⟩
    · constructor
      · intro h
        exact frequencyLoop_ok _ _ _ hb _ _ _ _ (fun _ q hq => by cases hq; exact h)
      · intro h
        push Not at h
        unfold frequencyLoop
        rw [if_pos h]
  · have hcov : ∀ r ∈ (pre' ++ [q] ++ p :: rest).head?, r.1 < position + length := by
      intro r hr
      have : r ∈ pre' ++ [q] := by
        cases pre' with
        | nil => simp at hr; simp [hr]
        | cons a l => simp at hr; simp [hr]
      have := h4 r (by simpa using this)
      omega
    simp only [List.getLast?_append, List.getLast?_singleton, Option.some_or, List.concat_eq_append]
    refine ⟨fun _ => ?_, fun h => absurd (by simpa using hcov) h⟩
    split
    · simp only [e1]
      exact frequencyLoop_ok _ _ _ hb _ _ _ _ (fun h => by cases h)
    · split
      · obtain ⟨g2, e2⟩ := roundHz_clamp (chirp64 q.1 p.1 (fl64 (q.2 + base)) (fl64 (p.2 + base)) position)
        simp only [e2]
        exact frequencyLoop_ok _ _ _ hb _ _ _ _ (fun h => by cases h)
      · exact frequencyLoop_ok _ _ _ hb _ _ _ _ (fun h => by cases h)

theorem continuousKeyframes_cases (A F : List Point) (position length : Int) (hl : 1 ≤ length) (a s : ℚ)
    (hs : 0 ≤ s ∧ s ≤ 1) (f : Int) :
    (Covers A position length ∧ Covers F position length →
      ∃ kfs, continuousKeyframes A F position length a s f = .ok kfs) ∧
    (¬ (Covers A position length ∧ Covers F position length) →
      continuousKeyframes A F position length a s f = .error .ub) := by
  unfold continuousKeyframes
  obtain ⟨a1, a2⟩ := modulateAmplitude_cases A position length hl a [⟨some 0, some a, some f⟩]
  by_cases hA : Covers A position length
  · obtain ⟨⟨kfs, la⟩, hr⟩ := a1 hA
    obtain ⟨f1, f2⟩ := modulateFrequency_cases F position length hl s hs kfs f
    simp only [hr, bind, Except.bind]
    by_cases hF : Covers F position length
    · obtain ⟨⟨kfs', lf⟩, hr'⟩ := f1 hF
      simp only [hr']
      exact ⟨fun _ => ⟨_, rfl⟩, fun h => absurd ⟨hA, hF⟩ h⟩
    · simp only [f2 hF]
      exact ⟨fun h => absurd h.2 hF, fun _ => trivial⟩
  · simp only [a2 hA, bind, Except.bind]
    exact ⟨fun h => absurd h.1 hA, fun _ => trivial⟩

/-! ### Transients -/

theorem transientAmplitude_ok (points : List Point) (position : Int) (a : ℚ) :
    ∃ b, transientAmplitude points position a = .ok b := by
  unfold transientAmplitude
  rcases split_points points position with ⟨h1, h2⟩ | ⟨pre, p, rest, h1, h2, h3, h4, h5⟩
  · rw [h1]; exact ⟨_, rfl⟩
  rw [h2, h3]
  rcases List.eq_nil_or_concat pre with rfl | ⟨pre', q, rfl⟩
  · exact ⟨_, rfl⟩
  · simp only [List.getLast?_append, List.getLast?_singleton, Option.some_or, List.concat_eq_append]
    obtain ⟨y, hy⟩ := interpolated_ok (h4 q (by simp)) h5
    simp only [hy]
    exact ⟨_, rfl⟩

/-- Points of a curve in the ranges of the format. -/
def GoodPoints (points : List Point) : Prop := ∀ p ∈ points, 0 ≤ p.1 ∧ p.1 ≤ 2 ^ 30 ∧ -1 ≤ p.2 ∧ p.2 ≤ 1

theorem transientFrequency_ok (points : List Point) (hg : GoodPoints points) (position : Int) :
    ∃ b, transientFrequency points position = .ok b := by
  unfold transientFrequency
  rcases split_points points position with ⟨h1, h2⟩ | ⟨pre, p, rest, h1, h2, h3, h4, h5⟩
  · rw [h1]; exact ⟨_, rfl⟩
  rw [h2, h3]
  rcases List.eq_nil_or_concat pre with rfl | ⟨pre', q, rfl⟩
  · exact ⟨_, rfl⟩
  · simp only [List.getLast?_append, List.getLast?_singleton, Option.some_or, List.concat_eq_append]
    obtain ⟨q1, q2, q3, q4⟩ := hg q (by rw [h1]; simp)
    obtain ⟨p1, p2, p3, p4⟩ := hg p (by rw [h1]; simp)
    obtain ⟨y, hy, y1, y2⟩ := linear64_bounds (h4 q (by simp)) h5 (by omega) (by omega) ⟨q3, q4⟩ ⟨p3, p4⟩
    obtain ⟨b1, b2⟩ := toHz_bounds y1 y2
    simp only [hy, castInt_ok (x := toHz y) (by linarith) (by linarith)]
    exact ⟨_, rfl⟩

theorem good_value {v : ℚ} (h1 : -1 ≤ v) (h2 : v ≤ 1) : -1 ≤ fl64 v ∧ fl64 v ≤ 1 := by
  have a := fl64_le_int (x := v) (n := 1) (by norm_num) (by simpa using h2)
  have b := int_le_fl64 (x := v) (n := -1) (by norm_num) (by simpa using h1)
  exact ⟨by simpa using b, by simpa using a⟩

theorem good_points (ts : Nat) (hts : ts < 2 ^ 32) (t : ℚ) (ps : List (ℚ × ℚ)) (ht : 0 ≤ t)
    (h : ∀ p ∈ ps, 0 ≤ p.1 ∧ (t + p.1) * ts ≤ 2 ^ 29 ∧ -1 ≤ p.2 ∧ p.2 ≤ 1) :
    GoodPoints (ps.map (fun p => (pointTick ts t p.1, fl64 p.2))) := by
  intro p hp
  obtain ⟨q, hq, rfl⟩ := List.mem_map.mp hp
  obtain ⟨h1, h2, h3, h4⟩ := h q hq
  obtain ⟨-, -, k1, k2⟩ := pointTick_close ts ht h1 h2 hts
  exact ⟨k1, k2, good_value h3 h4⟩

theorem good_intensity (ts : Nat) (hts : ts < 2 ^ 32) (items : List Item) (h : ∀ i ∈ items, i.Valid ts) :
    GoodPoints (intensityPoints ts items) := by
  intro p hp
  obtain ⟨i, hi, hpi⟩ := List.mem_flatMap.mp hp
  have hv := h i hi
  cases i with
  | intensityCurve t ps => exact good_points ts hts t ps hv.1 hv.2 p hpi
  | transient t ps => cases hpi
  | continuous t d ps => cases hpi
  | sharpnessCurve t ps => cases hpi

theorem good_sharpness (ts : Nat) (hts : ts < 2 ^ 32) (items : List Item) (h : ∀ i ∈ items, i.Valid ts) :
    GoodPoints (sharpnessPoints ts items) := by
  intro p hp
  obtain ⟨i, hi, hpi⟩ := List.mem_flatMap.mp hp
  have hv := h i hi
  cases i with
  | sharpnessCurve t ps => exact good_points ts hts t ps hv.1 hv.2 p hpi
  | transient t ps => cases hpi
  | continuous t d ps => cases hpi
  | intensityCurve t ps => cases hpi

/-! ### All events -/

/-- The effect made of a transient. -/
def TransientOf (A F : List Point) (ts : Nat) (x : ℚ × List Parameter) (e : Effect) : Prop :=
  ∃ a f, transientAmplitude A (eventTick ts x.1) (amplitudeFor ACTUAL_AMPLITUDE_MIN_T x.2 (1 / 2)) = .ok a ∧
    transientFrequency F (eventTick ts x.1) = .ok f ∧
    e = eventEffect (eventTick ts x.1) [⟨some 0, some a, some f⟩]

/-- The effect made of a continuous event. -/
def ContinuousOf (A F : List Point) (ts : Nat) (x : ℚ × ℚ × List Parameter) (e : Effect) : Prop :=
  ∃ kfs, continuousKeyframes A F (eventTick ts x.1) (eventTick ts x.2.1)
      (amplitudeFor ACTUAL_AMPLITUDE_MIN_C x.2.2 (1 / 2)) (sharpnessFor x.2.2 1) (frequencyFor x.2.2 90) = .ok kfs ∧
    e = eventEffect (eventTick ts x.1) kfs

theorem extractTransient_ok (A F : List Point) (ts : Nat) (hts : ts < 2 ^ 32) (hF : GoodPoints F) (t : ℚ)
    (ps : List Parameter) (h : (Item.transient t ps).Valid ts) :
    ∃ e, extractTransient (.obj [("Time", .dbl t), ("EventType", text "HapticTransient"),
      ("EventParameters", .arr (ps.map Parameter.json))]) A F ts = .ok (some e) ∧ TransientOf A F ts (t, ps) e := by
  obtain ⟨a, ha⟩ := transientAmplitude_ok A (eventTick ts t) (amplitudeFor ACTUAL_AMPLITUDE_MIN_T ps (1 / 2))
  obtain ⟨f, hf⟩ := transientFrequency_ok F hF (eventTick ts t)
  refine ⟨_, ?_, a, f, ha, hf, rfl⟩
  show (eventTicks (fl64 t) ts).bind _ = _
  rw [eventTicks_ok ts h.1 h.2.1 hts]
  show (transientParameters (ps.map Parameter.json) (1 / 2)).bind _ = _
  rw [transientParameters_ok]
  show (transientAmplitude A (eventTick ts t) (amplitudeFor ACTUAL_AMPLITUDE_MIN_T ps (1 / 2))).bind _ = _
  rw [ha]
  show (transientFrequency F (eventTick ts t)).bind _ = _
  rw [hf]
  rfl

theorem extractContinuous_eq (A F : List Point) (ts : Nat) (hts : ts < 2 ^ 32) (t d : ℚ)
    (ps : List Parameter) (h : (Item.continuous t d ps).Valid ts) :
    extractContinuous (.obj [("Time", .dbl t), ("EventType", text "HapticContinuous"), ("EventDuration", .dbl d),
      ("EventParameters", .arr (ps.map Parameter.json))]) A F ts
      = (continuousKeyframes A F (eventTick ts t) (eventTick ts d)
        (amplitudeFor ACTUAL_AMPLITUDE_MIN_C ps (1 / 2)) (sharpnessFor ps 1) (frequencyFor ps 90)).bind
        (fun kfs => .ok (some (eventEffect (eventTick ts t) kfs))) := by
  obtain ⟨h1, h2, h3, h4, h5⟩ := h
  have hd : 0 ≤ d := by
    by_contra hn
    push Not at hn
    have : d * ts ≤ 0 := mul_nonpos_of_nonpos_of_nonneg hn.le (by positivity)
    linarith
  show (eventTicks (fl64 t) ts).bind _ = _
  rw [eventTicks_ok ts h1 h2 hts]
  show (eventTicks (fl64 d) ts).bind _ = _
  rw [eventTicks_ok ts hd h3 hts]
  show (continuousParameters (ps.map Parameter.json) (1 / 2, 1, 90)).bind _ = _
  rw [continuousParameters_ok ps h5]
  rfl

theorem extractEvents_cases (A F : List Point) (ts : Nat) (hts : ts < 2 ^ 32) (hF : GoodPoints F) (items : List Item)
    (h : ∀ i ∈ items, i.Valid ts) :
    ((∀ e ∈ continuous items, Covers A (eventTick ts e.1) (eventTick ts e.2.1) ∧
        Covers F (eventTick ts e.1) (eventTick ts e.2.1)) →
      ∃ T C, extractEvents A F ts (items.map Item.json) = .ok (some (T, C)) ∧
        List.Forall₂ (TransientOf A F ts) (transients items) T ∧
        List.Forall₂ (ContinuousOf A F ts) (continuous items) C) ∧
    ((¬ ∀ e ∈ continuous items, Covers A (eventTick ts e.1) (eventTick ts e.2.1) ∧
        Covers F (eventTick ts e.1) (eventTick ts e.2.1)) →
      extractEvents A F ts (items.map Item.json) = .error .ub) := by
  induction items with
  | nil => exact ⟨fun _ => ⟨[], [], rfl, .nil, .nil⟩, fun hn => absurd (fun e he => by cases he) hn⟩
  | cons i l ih =>
    have hi := h i List.mem_cons_self
    obtain ⟨ih1, ih2⟩ := ih (fun j hj => h j (List.mem_cons_of_mem _ hj))
    cases i with
    | intensityCurve t ps => exact ⟨ih1, ih2⟩
    | sharpnessCurve t ps => exact ⟨ih1, ih2⟩
    | transient t ps =>
      obtain ⟨e, he, hT⟩ := extractTransient_ok A F ts hts hF t ps hi
      have hstep : extractEvents A F ts ((Item.transient t ps :: l).map Item.json)
          = (extractEvents A F ts (l.map Item.json)).bind (fun r => match r with
            | some (ts, cs) => .ok (some (e :: ts, cs))
            | none => .ok none) := by
        show (extractTransient _ A F ts).bind _ = _
        rw [he]
        show (extractEvents A F ts (l.map Item.json)).bind _ = _
        cases extractEvents A F ts (l.map Item.json) with
        | error x => rfl
        | ok r => cases r <;> rfl
      rw [hstep]
      constructor
      · intro hc
        obtain ⟨T, C, e1, e2, e3⟩ := ih1 hc
        rw [e1]
        exact ⟨_, _, rfl, .cons hT e2, e3⟩
      · intro hc
        rw [ih2 hc]
        rfl
    | continuous t d ps =>
      have hs : 0 ≤ sharpnessFor ps 1 ∧ sharpnessFor ps 1 ≤ 1 := sharpnessFor_unit ps hi.2.2.2.2
      have hl : 1 ≤ eventTick ts d := eventTick_pos ts hi.2.2.2.1 hi.2.2.1 hts
      obtain ⟨k1, k2⟩ := continuousKeyframes_cases A F (eventTick ts t) (eventTick ts d) hl
        (amplitudeFor ACTUAL_AMPLITUDE_MIN_C ps (1 / 2)) (sharpnessFor ps 1) hs (frequencyFor ps 90)
      have hstep : extractEvents A F ts ((Item.continuous t d ps :: l).map Item.json)
          = (continuousKeyframes A F (eventTick ts t) (eventTick ts d)
        (amplitudeFor ACTUAL_AMPLITUDE_MIN_C ps (1 / 2)) (sharpnessFor ps 1) (frequencyFor ps 90)).bind
            (fun kfs => (extractEvents A F ts (l.map Item.json)).bind (fun r => match r with
            | some (xs, cs) => .ok (some (xs, eventEffect (eventTick ts t) kfs :: cs))
            | none => .ok none)) := by
        show (extractContinuous _ A F ts).bind _ = _
        rw [extractContinuous_eq A F ts hts t d ps hi]
        cases continuousKeyframes A F (eventTick ts t) (eventTick ts d)
          (amplitudeFor ACTUAL_AMPLITUDE_MIN_C ps (1 / 2)) (sharpnessFor ps 1) (frequencyFor ps 90) with
        | error x => rfl
        | ok kfs =>
          show (extractEvents A F ts (l.map Item.json)).bind _ = _
          show _ = (extractEvents A F ts (l.map Item.json)).bind _
          cases extractEvents A F ts (l.map Item.json) with
          | error x => rfl
          | ok r => cases r <;> rfl
      have hcont : continuous (Item.continuous t d ps :: l) = (t, d, ps) :: continuous l := rfl
      rw [hstep, hcont]
      constructor
      · intro hc
        obtain ⟨kfs, hk⟩ := k1 (hc (t, d, ps) List.mem_cons_self)
        obtain ⟨T, C, e1, e2, e3⟩ := ih1 (fun e he => hc e (List.mem_cons_of_mem _ he))
        rw [hk, e1]
        exact ⟨_, _, rfl, e2, .cons ⟨kfs, hk, rfl⟩ e3⟩
      · intro hc
        by_cases h1 : Covers A (eventTick ts t) (eventTick ts d) ∧ Covers F (eventTick ts t) (eventTick ts d)
        · obtain ⟨kfs, hk⟩ := k1 h1
          rw [hk]
          have : ¬ ∀ e ∈ continuous l, Covers A (eventTick ts e.1) (eventTick ts e.2.1) ∧
              Covers F (eventTick ts e.1) (eventTick ts e.2.1) := by
            intro hall
            refine hc (fun e he => ?_)
            rcases List.mem_cons.mp he with rfl | he
            · exact h1
            · exact hall e he
          show (extractEvents A F ts (l.map Item.json)).bind _ = _
          rw [ih2 this]
          rfl
        · rw [k2 h1]
          rfl

theorem continuousKeyframes_last {A F : List Point} {position length : Int} {a s : ℚ} {f : Int} {kfs : List Keyframe}
    (h : continuousKeyframes A F position length a s f = .ok kfs) :
    kfs.getLast?.bind (·.relativePosition) = some length := by
  unfold continuousKeyframes at h
  cases hA : modulateAmplitude A position length a [⟨some 0, some a, some f⟩] with
  | error e => rw [hA] at h; cases h
  | ok r =>
    obtain ⟨k1, la⟩ := r
    rw [hA] at h
    change (modulateFrequency F position length s k1 f).bind _ = _ at h
    cases hF : modulateFrequency F position length s k1 f with
    | error e => rw [hF] at h; cases h
    | ok r =>
      obtain ⟨k2, lf⟩ := r
      rw [hF] at h
      have h := Except.ok.inj h
      rw [← h]
      simp

theorem continuous_timed {A F : List Point} {ts : Nat} (hts : ts < 2 ^ 32) {items : List Item}
    (h : ∀ i ∈ items, i.Valid ts) {C : List Effect} (hC : List.Forall₂ (ContinuousOf A F ts) (continuous items) C) :
    ∀ e ∈ C, e.Timed := by
  intro e he
  obtain ⟨i, hi, rfl⟩ := List.mem_iff_getElem.mp he
  rw [List.forall₂_iff_get] at hC
  obtain ⟨hlen, hC⟩ := hC
  obtain ⟨kfs, hk, he'⟩ := hC i (by omega) hi
  have hx : (continuous items)[i] ∈ continuous items := List.getElem_mem _
  obtain ⟨it, hit, heq⟩ := List.mem_filterMap.mp hx
  have hv := h it hit
  refine ⟨eventTick ts ((continuous items)[i]).2.1, ?_, ?_⟩
  · exact (congrArg (fun e : Effect => e.keyframes.getLast?.bind (·.relativePosition)) he').trans
      (continuousKeyframes_last hk)
  · cases it with
    | continuous t d ps =>
      simp only [Option.some.injEq] at heq
      show 0 ≤ eventTick ts ((continuous items)[i]).2.1
      rw [← heq]
      have := eventTick_pos ts hv.2.2.2.1 hv.2.2.1 hts
      show 0 ≤ eventTick ts d
      omega
    | transient t ps => cases heq
    | intensityCurve t ps => cases heq
    | sharpnessCurve t ps => cases heq

/-! ### Files -/

theorem encode_eq (ts : Nat) (hts : ts < 2 ^ 32) (items : List Item) (h : ∀ i ∈ items, i.Valid ts) (p : Perception)
    (hp : p.channels.length ≤ 1) :
    encode (fileOf items) ts p
      = (extractEvents (intensityPoints ts items) (sharpnessPoints ts items) ts (items.map Item.json)).bind
        (fun r => match r with
        | some (T, C) => (fillChannel (channelOf p) T C).bind (fun c => .ok (some { p with channels := [c] }))
        | none => .ok none) := by
  unfold encode
  rw [if_neg (by omega)]
  show (extractCurves ts (items.map Item.json)).bind _ = _
  rw [extractCurves_ok ts items hts h]
  show (extractEvents (intensityPoints ts items) (sharpnessPoints ts items) ts (items.map Item.json)).bind _ = _
  cases extractEvents (intensityPoints ts items) (sharpnessPoints ts items) ts (items.map Item.json) with
  | error x => rfl
  | ok r => cases r <;> rfl

theorem ready_channel {p : Perception} (hp : Ready p) (T : List Effect) : ∀ b ∈
      (channelOf p).bands ++ [transientBand T], b.bandType = BandType.VectorialWave →
      b.Sequential ∧ ∀ e ∈ b.effects, e.Timed := by
  intro b hb ht
  rcases List.mem_append.mp hb with hb | hb
  · unfold channelOf at hb
    cases hc : p.channels with
    | nil => rw [hc] at hb; cases hb
    | cons c l =>
      rw [hc] at hb
      exact hp.2 c (by rw [hc]; exact List.mem_cons_self) b hb ht
  · rw [List.mem_singleton.mp hb] at ht
    cases ht

theorem fillChannel_ok {A F : List Point} {ts : Nat} (hts : ts < 2 ^ 32) {items : List Item}
    (h : ∀ i ∈ items, i.Valid ts) {C : List Effect} (hC : List.Forall₂ (ContinuousOf A F ts) (continuous items) C)
    {p : Perception} (hp : Ready p) (T : List Effect) : ∃ d, fillChannel (channelOf p) T C = .ok d ∧
      Extends 65 300 { channelOf p with bands := (channelOf p).bands ++ [transientBand T] } d ∧
      d.effects.Perm ((channelOf p).effects ++ [transientEffect T] ++ C) ∧
      ∀ b ∈ d.bands, b.bandType = BandType.VectorialWave → b.Sequential := by
  obtain ⟨d, e1, e2, e3, e4⟩ := c74_distributed 65 300 { channelOf p with bands := (channelOf p).bands ++ [transientBand T] } C (ready_channel hp T) (continuous_timed hts h hC)
  refine ⟨d, e1, e2, ?_, e4⟩
  refine e3.trans (List.Perm.of_eq ?_)
  simp [Channel.effects, transientBand, Band.addEffect, insertEffect]

/-- **C76.** A file with values in the ranges of the format is converted when its curves reach all its continuous
events. -/
theorem c76_safe (ts : Nat) (hts : ts < 2 ^ 32) (items : List Item) (h : ∀ i ∈ items, i.Valid ts) (p : Perception)
    (hp : Ready p) (hc : Covered ts items) : ∃ r, encode (fileOf items) ts p = .ok (some r) := by
  rw [encode_eq ts hts items h p hp.1]
  obtain ⟨T, C, e1, e2, e3⟩ := (extractEvents_cases _ (sharpnessPoints ts items) ts hts (good_sharpness ts hts items h)
    items h).1 hc
  rw [e1]
  obtain ⟨d, hd, -⟩ := fillChannel_ok hts h e3 hp T
  show ∃ r, (fillChannel (channelOf p) T C).bind _ = _
  rw [hd]
  exact ⟨_, rfl⟩

/-- **C76, what does not hold.** All other files make the encoder read outside of a curve: behind its last point
when a continuous event starts after it, before its first point when a continuous event ends at it or earlier. -/
theorem c76_unsafe (ts : Nat) (hts : ts < 2 ^ 32) (items : List Item) (h : ∀ i ∈ items, i.Valid ts) (p : Perception)
    (hp : p.channels.length ≤ 1) (hc : ¬ Covered ts items) : encode (fileOf items) ts p = .error .ub := by
  rw [encode_eq ts hts items h p hp, (extractEvents_cases _ (sharpnessPoints ts items) ts hts
    (good_sharpness ts hts items h) items h).2 hc]
  rfl

/-- A curve in the middle of the file, an event before it, one within and one after it. -/
def sample (t : ℚ) : List Item :=
  [.intensityCurve 1 [(0, 1), (1 / 2, 1 / 2), (1, 0)], .continuous t (1 / 4) [.intensity 1], .transient 0 []]

theorem sample_valid {t : ℚ} (h0 : 0 ≤ t) (h1 : t ≤ 10) : ∀ i ∈ sample t, i.Valid 1000 := by
  intro i hi
  simp only [sample, List.mem_cons, List.not_mem_nil, or_false] at hi
  rcases hi with rfl | rfl | rfl
  · refine ⟨by norm_num, fun p hp => ?_⟩
    simp only [List.mem_cons, List.not_mem_nil, or_false] at hp
    rcases hp with rfl | rfl | rfl <;> norm_num
  · refine ⟨h0, by push_cast; linarith, by norm_num, by norm_num, fun p hp => ?_⟩
    simp only [List.mem_cons, List.not_mem_nil, or_false] at hp
    subst hp
    exact ⟨by norm_num, le_rfl⟩
  · exact ⟨by norm_num, by norm_num, fun p hp => by cases hp⟩

def emptyPerception : Perception := {}

example : (∀ i ∈ sample (5 / 4), i.Valid 1000) ∧ Ready emptyPerception ∧ Covered 1000 (sample (5 / 4)) :=
  ⟨sample_valid (by norm_num) (by norm_num), ⟨Nat.zero_le _, fun c hc => by cases hc⟩, by decide +kernel⟩

example : ¬ Covered 1000 (sample (1 / 2)) ∧ ¬ Covered 1000 (sample 3) := by decide +kernel

end Haptics.Ahap
