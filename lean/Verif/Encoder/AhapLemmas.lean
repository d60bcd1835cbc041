import Verif.Encoder.SpecAhap
import Verif.Encoder.PropsIvsTime
import Verif.Bits.PropsFloat
import Mathlib.Tactic.Linarith
import Mathlib.Tactic.NormNum
import Mathlib.Tactic.Positivity
import Mathlib.Data.List.TakeWhile

/-! Reading of AHAP files written as in `SpecAhap`. -/

namespace Haptics.Ahap
open Haptics Haptics.Json

/-! ### Numbers -/

theorem fl64_le_int {x : ℚ} {n : ℤ} (hn : |n| < 2 ^ 53) (h : x ≤ n) : fl64 x ≤ n := by
  have := fl64_mono h
  rwa [fl64_int n hn] at this

theorem int_le_fl64 {x : ℚ} {n : ℤ} (hn : |n| < 2 ^ 53) (h : (n : ℚ) ≤ x) : (n : ℚ) ≤ fl64 x := by
  have := fl64_mono h
  rwa [fl64_int n hn] at this

theorem truncQ_bounds {x : ℚ} {m n : ℤ} (hm : (m : ℚ) ≤ x) (hm0 : m ≤ 0) (hn : x ≤ n) (hn0 : 0 ≤ n) :
    m ≤ truncQ x ∧ truncQ x ≤ n := by
  unfold truncQ
  split
  · rename_i h
    refine ⟨le_trans hm0 (Int.floor_nonneg.mpr h), ?_⟩
    have := Int.floor_mono hn
    simpa using this
  · rename_i h
    push Not at h
    have : ⌈x⌉ ≤ 0 := Int.ceil_le.mpr (by simpa using h.le)
    refine ⟨?_, le_trans this hn0⟩
    have := Int.ceil_mono hm
    simpa using this

theorem castInt_ok {x : ℚ} (h1 : -2 ^ 30 ≤ x) (h2 : x ≤ 2 ^ 30) : castInt x = .ok (truncQ x) := by
  have := truncQ_bounds (m := -2 ^ 30) (n := 2 ^ 30) (x := x) (by push_cast; exact h1) (by norm_num)
    (by push_cast; exact h2) (by norm_num)
  unfold castInt
  rw [if_pos (by constructor <;> linarith [this.1, this.2])]

/-- A product with the time scale, in `double`. -/
theorem scaled_bounds (ts : Nat) {x y : ℚ} (hx : 0 ≤ x) (h : x * ts ≤ 2 ^ 29) (hy : 0 ≤ y)
    (h1 : x - (x / 2 ^ 50 + 5 / 2 ^ 100) ≤ y) (h2 : y ≤ x + (x / 2 ^ 50 + 5 / 2 ^ 100)) (hts : ts < 2 ^ 32) :
    x * ts - 1 / 1000 ≤ fl64 (y * ts) ∧ fl64 (y * ts) ≤ x * ts + 1 / 1000 ∧ 0 ≤ fl64 (y * ts) := by
  have ht : (ts : ℚ) < 2 ^ 32 := by exact_mod_cast hts
  have ht0 : (0 : ℚ) ≤ ts := by positivity
  obtain ⟨z1, z2⟩ := Ivs.fl64_close (y * ts) (mul_nonneg hy ht0)
  refine ⟨?_, ?_, flo_nonneg _ _ (mul_nonneg hy ht0)⟩
  · have b1 := mul_le_mul_of_nonneg_right h1 ht0
    have b2 := mul_le_mul_of_nonneg_right h2 ht0
    rw [show (x - (x / 2 ^ 50 + 5 / 2 ^ 100)) * ts = x * ts - x * ts / 2 ^ 50 - 5 / 2 ^ 100 * ts by ring] at b1
    rw [show (x + (x / 2 ^ 50 + 5 / 2 ^ 100)) * ts = x * ts + x * ts / 2 ^ 50 + 5 / 2 ^ 100 * ts by ring] at b2
    have hp : 0 ≤ x * ts := mul_nonneg hx ht0
    generalize x * ts = X at *
    linarith
  · have b2 := mul_le_mul_of_nonneg_right h2 ht0
    rw [show (x + (x / 2 ^ 50 + 5 / 2 ^ 100)) * ts = x * ts + x * ts / 2 ^ 50 + 5 / 2 ^ 100 * ts by ring] at b2
    have hp : 0 ≤ x * ts := mul_nonneg hx ht0
    generalize x * ts = X at *
    linarith

theorem time_bounds (ts : Nat) {t : ℚ} (ht : 0 ≤ t) (h : t * ts ≤ 2 ^ 29) (hts : ts < 2 ^ 32) :
    t * ts - 1 / 1000 ≤ fl64 (fl64 t * ts) ∧ fl64 (fl64 t * ts) ≤ t * ts + 1 / 1000 ∧ 0 ≤ fl64 (fl64 t * ts) := by
  obtain ⟨a, b⟩ := Ivs.fl64_close t ht
  exact scaled_bounds ts ht h (flo_nonneg _ _ ht) (by linarith) (by linarith) hts

theorem sum_bounds (ts : Nat) {s t : ℚ} (hs : 0 ≤ s) (ht : 0 ≤ t) (h : (s + t) * ts ≤ 2 ^ 29) (hts : ts < 2 ^ 32) :
    (s + t) * ts - 1 / 1000 ≤ fl64 (fl64 (fl64 t + fl64 s) * ts) ∧
    fl64 (fl64 (fl64 t + fl64 s) * ts) ≤ (s + t) * ts + 1 / 1000 ∧ 0 ≤ fl64 (fl64 (fl64 t + fl64 s) * ts) := by
  obtain ⟨a, b⟩ := Ivs.fl64_close t ht
  obtain ⟨c, d⟩ := Ivs.fl64_close s hs
  have h0 : 0 ≤ fl64 t + fl64 s := add_nonneg (flo_nonneg _ _ ht) (flo_nonneg _ _ hs)
  obtain ⟨e, f⟩ := Ivs.fl64_close _ h0
  exact scaled_bounds ts (add_nonneg hs ht) h (flo_nonneg _ _ h0) (by linarith) (by linarith) hts

theorem roundAway_bounds {x : ℚ} (h : 0 ≤ x) : x - 1 / 2 < roundAway x ∧ roundAway x ≤ x + 1 / 2 ∧ 0 ≤ roundAway x := by
  unfold roundAway
  rw [if_pos h]
  have h1 := Int.floor_le (x + 1 / 2)
  have h2 := Int.lt_floor_add_one (x + 1 / 2)
  refine ⟨by linarith, h1, ?_⟩
  have : 0 ≤ ⌊x + 1 / 2⌋ := Int.floor_nonneg.mpr (by linarith)
  exact_mod_cast this

theorem truncQ_round (x : ℚ) : (truncQ (roundAway x) : ℚ) = roundAway x := by
  unfold roundAway truncQ
  split <;> split <;> simp

theorem eventTicks_ok (ts : Nat) {t : ℚ} (ht : 0 ≤ t) (h : t * ts ≤ 2 ^ 29) (hts : ts < 2 ^ 32) :
    eventTicks (fl64 t) ts = .ok (eventTick ts t) := by
  obtain ⟨a, b, c⟩ := time_bounds ts ht h hts
  obtain ⟨d, e, f⟩ := roundAway_bounds c
  exact castInt_ok (by linarith) (by linarith)

/-- An event is at the tick nearest to its time, within a thousandth of a tick. -/
theorem eventTick_close (ts : Nat) {t : ℚ} (ht : 0 ≤ t) (h : t * ts ≤ 2 ^ 29) (hts : ts < 2 ^ 32) :
    |(eventTick ts t : ℚ) - t * ts| ≤ 1 / 2 + 1 / 1000 ∧ 0 ≤ eventTick ts t := by
  obtain ⟨a, b, c⟩ := time_bounds ts ht h hts
  obtain ⟨d, e, f⟩ := roundAway_bounds c
  unfold eventTick
  constructor
  · rw [truncQ_round, abs_le]; constructor <;> linarith
  · have : (0 : ℚ) ≤ (truncQ (roundAway (fl64 (fl64 t * ts))) : ℚ) := by rw [truncQ_round]; exact f
    exact_mod_cast this

theorem eventTick_pos (ts : Nat) {t : ℚ} (h1 : 1 ≤ t * ts) (h : t * ts ≤ 2 ^ 29) (hts : ts < 2 ^ 32) :
    1 ≤ eventTick ts t := by
  have ht : 0 ≤ t := by
    by_contra hn
    push Not at hn
    have : t * ts ≤ 0 := mul_nonpos_of_nonpos_of_nonneg hn.le (by positivity)
    linarith
  obtain ⟨a, -⟩ := eventTick_close ts ht h hts
  have := (abs_le.mp a).1
  have : (0 : ℚ) < (eventTick ts t : ℚ) := by linarith
  have : 0 < eventTick ts t := by exact_mod_cast this
  omega

theorem pointTick_ok (ts : Nat) {s t : ℚ} (hs : 0 ≤ s) (ht : 0 ≤ t) (h : (s + t) * ts ≤ 2 ^ 29) (hts : ts < 2 ^ 32) :
    castInt (fl64 (fl64 (fl64 t + fl64 s) * ts)) = .ok (pointTick ts s t) := by
  obtain ⟨a, b, c⟩ := sum_bounds ts hs ht h hts
  exact castInt_ok (by linarith) (by linarith)

/-- A control point is at the last tick before its time, within a thousandth of a tick. -/
theorem pointTick_close (ts : Nat) {s t : ℚ} (hs : 0 ≤ s) (ht : 0 ≤ t) (h : (s + t) * ts ≤ 2 ^ 29)
    (hts : ts < 2 ^ 32) :
    (s + t) * ts - 1 - 1 / 1000 < (pointTick ts s t : ℚ) ∧ (pointTick ts s t : ℚ) ≤ (s + t) * ts + 1 / 1000 ∧
    0 ≤ pointTick ts s t ∧ pointTick ts s t ≤ 2 ^ 30 := by
  obtain ⟨a, b, c⟩ := sum_bounds ts hs ht h hts
  have h3 := truncQ_bounds (m := 0) (n := 2 ^ 30) (by simpa using c) le_rfl
    (show fl64 (fl64 (fl64 t + fl64 s) * ts) ≤ ((2 ^ 30 : ℤ) : ℚ) by push_cast; linarith) (by norm_num)
  refine ⟨?_, ?_, h3.1, h3.2⟩
  · unfold pointTick truncQ
    rw [if_pos c]
    have := Int.lt_floor_add_one (fl64 (fl64 (fl64 t + fl64 s) * ts))
    linarith
  · unfold pointTick truncQ
    rw [if_pos c]
    have := Int.floor_le (fl64 (fl64 (fl64 t + fl64 s) * ts))
    linarith

/-! ### Curves -/

theorem collect_ok {α β : Type} (f : Json → Except Err (Option β)) (g : α → Json) (h : α → β) (l : List α)
    (H : ∀ a ∈ l, f (g a) = .ok (some (h a))) : collect f (l.map g) = .ok (l.map h) := by
  induction l with
  | nil => rfl
  | cons a l ih =>
    rw [List.map_cons, collect, H a List.mem_cons_self]
    simp only
    rw [ih (fun b hb => H b (List.mem_cons_of_mem _ hb))]
    rfl

theorem extractKeyframes_ok (name : String) (ts : Nat) (t : ℚ) (ps : List (ℚ × ℚ)) (hts : ts < 2 ^ 32) (ht : 0 ≤ t)
    (h : ∀ p ∈ ps, 0 ≤ p.1 ∧ (t + p.1) * ts ≤ 2 ^ 29 ∧ -1 ≤ p.2 ∧ p.2 ≤ 1) :
    extractKeyframes (.obj [("ParameterID", text name), ("Time", .dbl t),
      ("ParameterCurveControlPoints", .arr (ps.map (fun p =>
        .obj [("Time", .dbl p.1), ("ParameterValue", .dbl p.2)])))]) ts
      = .ok (some (ps.map (fun p => (pointTick ts t p.1, fl64 p.2)))) := by
  have hc := collect_ok (controlPoint (fl64 t) ts)
    (fun p : ℚ × ℚ => .obj [("Time", .dbl p.1), ("ParameterValue", .dbl p.2)])
    (fun p => (pointTick ts t p.1, fl64 p.2)) ps (by
      intro p hp
      obtain ⟨h1, h2, -⟩ := h p hp
      show (castInt (fl64 (fl64 (fl64 p.1 + fl64 t) * ts))).bind _ = _
      rw [pointTick_ok ts ht h1 h2 hts]
      rfl)
  show (collect _ _).bind _ = _
  rw [hc]
  rfl

theorem extractCurves_ok (ts : Nat) (items : List Item) (hts : ts < 2 ^ 32) (h : ∀ i ∈ items, i.Valid ts) :
    extractCurves ts (items.map Item.json) = .ok (some (intensityPoints ts items, sharpnessPoints ts items)) := by
  induction items with
  | nil => rfl
  | cons i l ih =>
    have ih := ih (fun j hj => h j (List.mem_cons_of_mem _ hj))
    have hi := h i List.mem_cons_self
    rw [List.map_cons]
    cases i with
    | transient t ps => exact ih
    | continuous t d ps => exact ih
    | intensityCurve t ps =>
      have hk := extractKeyframes_ok "HapticIntensityControl" ts t ps hts hi.1 hi.2
      show (extractKeyframes _ ts).bind _ = _
      rw [hk]
      show (extractCurves ts (l.map Item.json)).bind _ = _
      rw [ih]
      rfl
    | sharpnessCurve t ps =>
      have hk := extractKeyframes_ok "HapticSharpnessControl" ts t ps hts hi.1 hi.2
      show (extractKeyframes _ ts).bind _ = _
      rw [hk]
      show (extractCurves ts (l.map Item.json)).bind _ = _
      rw [ih]
      rfl

/-! ### Parameters -/

/-- The amplitude of an event with the intensity `v`. -/
def amplitudeFor (most : ℚ) (ps : List Parameter) (a : ℚ) : ℚ :=
  match lastIntensity ps with
  | none => a
  | some v => fl32 (normalize64 0 1 0 most (fl64 v))

theorem amplitudeFor_intensity (most v a : ℚ) (ps : List Parameter) :
    amplitudeFor most (.intensity v :: ps) a = amplitudeFor most ps (fl32 (normalize64 0 1 0 most (fl64 v))) := by
  unfold amplitudeFor lastIntensity
  simp only [List.filterMap_cons]
  cases h : (ps.filterMap (fun p => match p with | .intensity v => some v | _ => none)) with
  | nil => rfl
  | cons b l => simp [List.getLast?_cons]

theorem amplitudeFor_sharpness (most v a : ℚ) (ps : List Parameter) :
    amplitudeFor most (.sharpness v :: ps) a = amplitudeFor most ps a := rfl

theorem transientParameters_ok (ps : List Parameter) (a : ℚ) :
    transientParameters (ps.map Parameter.json) a = .ok (amplitudeFor ACTUAL_AMPLITUDE_MIN_T ps a) := by
  induction ps generalizing a with
  | nil => rfl
  | cons p ps ih =>
    cases p with
    | intensity v =>
      rw [amplitudeFor_intensity, ← ih]
      rfl
    | sharpness v =>
      rw [amplitudeFor_sharpness, ← ih]
      rfl

/-- The sharpness and the frequency of an event. -/
def sharpnessFor (ps : List Parameter) (s : ℚ) : ℚ := match lastSharpness ps with
  | none => s
  | some v => fl64 v
def frequencyFor (ps : List Parameter) (f : Int) : Int := match lastSharpness ps with
  | none => f
  | some v => truncQ (toHz (fl64 v))

theorem sharpnessFor_sharpness (v s : ℚ) (f : Int) (ps : List Parameter) :
    sharpnessFor (.sharpness v :: ps) s = sharpnessFor ps (fl64 v) ∧
    frequencyFor (.sharpness v :: ps) f = frequencyFor ps (truncQ (toHz (fl64 v))) := by
  unfold sharpnessFor frequencyFor lastSharpness
  simp only [List.filterMap_cons]
  cases h : (ps.filterMap (fun p => match p with | .sharpness v => some v | _ => none)) with
  | nil => exact ⟨rfl, rfl⟩
  | cons b l => simp [List.getLast?_cons]

theorem toHz_bounds {f : ℚ} (h1 : -1 ≤ f) (h2 : f ≤ 1) : -170 ≤ toHz f ∧ toHz f ≤ 300 := by
  unfold toHz normalize64 ACTUAL_FREQUENCY_MIN ACTUAL_FREQUENCY_MAX
  have e1 : fl64 ((1 : ℚ) - 0) = 1 := by rw [sub_zero]; exact fl64_one
  have e2 : fl64 (((300 : Int) : ℚ) - ((65 : Int) : ℚ)) = 235 := by
    have := fl64_int 235 (by norm_num)
    rw [show ((300 : Int) : ℚ) - ((65 : Int) : ℚ) = ((235 : Int) : ℚ) by norm_num, this]; norm_num
  have e3 : fl64 (235 / 1) = 235 := by
    have := fl64_int 235 (by norm_num)
    rw [show (235 : ℚ) / 1 = ((235 : Int) : ℚ) by norm_num, this]; norm_num
  rw [e1, e2, if_pos (by norm_num), e3]
  have a1 : ((-2 : Int) : ℚ) ≤ fl64 (f - 1) := int_le_fl64 (by norm_num) (by push_cast; linarith)
  have a2 : fl64 (f - 1) ≤ ((0 : Int) : ℚ) := fl64_le_int (by norm_num) (by push_cast; linarith)
  push_cast at a1 a2
  have b1 : ((-470 : Int) : ℚ) ≤ fl64 (235 * fl64 (f - 1)) := int_le_fl64 (by norm_num) (by push_cast; linarith)
  have b2 : fl64 (235 * fl64 (f - 1)) ≤ ((0 : Int) : ℚ) := fl64_le_int (by norm_num) (by push_cast; linarith)
  push_cast at b1 b2
  have c1 : ((-170 : Int) : ℚ) ≤ fl64 (fl64 (235 * fl64 (f - 1)) + ((300 : Int) : ℚ)) :=
    int_le_fl64 (by norm_num) (by push_cast; linarith)
  have c2 : fl64 (fl64 (235 * fl64 (f - 1)) + ((300 : Int) : ℚ)) ≤ ((300 : Int) : ℚ) :=
    fl64_le_int (by norm_num) (by push_cast; linarith)
  push_cast at c1 c2 ⊢
  exact ⟨c1, c2⟩

theorem roundHz_ok {f : ℚ} (h1 : -1 ≤ f) (h2 : f ≤ 1) : roundHz f = .ok (truncQ (roundAway (toHz f))) := by
  obtain ⟨a, b⟩ := toHz_bounds h1 h2
  refine castInt_ok ?_ ?_
  · unfold roundAway
    split
    · have : 0 ≤ ⌊toHz f + 1 / 2⌋ := Int.floor_nonneg.mpr (by linarith)
      have : (0 : ℚ) ≤ (⌊toHz f + 1 / 2⌋ : ℚ) := by exact_mod_cast this
      linarith
    · have := Int.le_ceil (toHz f - 1 / 2)
      linarith
  · unfold roundAway
    split
    · have := Int.floor_le (toHz f + 1 / 2)
      linarith
    · have := Int.ceil_lt_add_one (toHz f - 1 / 2)
      linarith

theorem fl64_unit {v : ℚ} (h1 : 0 ≤ v) (h2 : v ≤ 1) : 0 ≤ fl64 v ∧ fl64 v ≤ 1 := by
  have := fl64_le_int (x := v) (n := 1) (by norm_num) (by simpa using h2)
  exact ⟨flo_nonneg _ _ h1, by simpa using this⟩

theorem continuousParameters_ok (ps : List Parameter) (h : ∀ p ∈ ps, p.Valid) (a s : ℚ) (f : Int) :
    continuousParameters (ps.map Parameter.json) (a, s, f)
      = .ok (amplitudeFor ACTUAL_AMPLITUDE_MIN_C ps a, sharpnessFor ps s, frequencyFor ps f) := by
  induction ps generalizing a s f with
  | nil => rfl
  | cons p ps ih =>
    have ih := ih (fun q hq => h q (List.mem_cons_of_mem _ hq))
    cases p with
    | intensity v =>
      rw [amplitudeFor_intensity]
      exact ih (fl32 (normalize64 0 1 0 ACTUAL_AMPLITUDE_MIN_C (fl64 v))) s f
    | sharpness v =>
      obtain ⟨h1, h2⟩ := h _ List.mem_cons_self
      obtain ⟨g1, g2⟩ := fl64_unit h1 h2
      obtain ⟨b1, b2⟩ := toHz_bounds (f := fl64 v) (by linarith) g2
      rw [amplitudeFor_sharpness, (sharpnessFor_sharpness v s f ps).1, (sharpnessFor_sharpness v s f ps).2]
      rw [← ih]
      show (castInt (toHz (fl64 v))).bind _ = _
      rw [castInt_ok (by linarith) (by linarith)]
      rfl

theorem sharpnessFor_unit (ps : List Parameter) (h : ∀ p ∈ ps, p.Valid) :
    0 ≤ sharpnessFor ps 1 ∧ sharpnessFor ps 1 ≤ 1 := by
  unfold sharpnessFor
  split
  · norm_num
  · rename_i v hv
    have : v ∈ ps.filterMap (fun p => match p with | .sharpness v => some v | _ => none) :=
      List.mem_of_getLast? hv
    obtain ⟨p, hp, he⟩ := List.mem_filterMap.mp this
    cases p with
    | intensity w => simp at he
    | sharpness w =>
      simp only [Option.some.injEq] at he
      have := h _ hp
      exact fl64_unit (he ▸ this.1) (he ▸ this.2)

/-! ### Interpolation -/

theorem linear64_bounds {q p : Point} {x : Int} (hq : q.1 < x) (hp : x ≤ p.1) (hq0 : -2 ^ 31 ≤ q.1) (hp0 : p.1 < 2 ^ 31)
    (hq1 : -1 ≤ q.2 ∧ q.2 ≤ 1) (hp1 : -1 ≤ p.2 ∧ p.2 ≤ 1) : ∃ y, linear64 q p x = some y ∧ -1 ≤ y ∧ y ≤ 1 := by
  unfold linear64
  rw [if_neg (by omega), if_neg (by omega), if_neg (by omega)]
  refine ⟨_, rfl, ?_⟩
  have d1 : (0 : ℚ) < (p.1 : ℚ) - q.1 := by
    have : (q.1 : ℚ) < p.1 := by exact_mod_cast lt_of_lt_of_le hq hp
    linarith
  have k1 : (0 : ℚ) ≤ (p.1 : ℚ) - x := by
    have : (x : ℚ) ≤ p.1 := by exact_mod_cast hp
    linarith
  have k2 : (0 : ℚ) ≤ (x : ℚ) - q.1 := by
    have : (q.1 : ℚ) < x := by exact_mod_cast hq
    linarith
  have a1 : fl64 (q.2 * ((p.1 : ℚ) - x)) ≤ ((p.1 - x : Int) : ℚ) :=
    fl64_le_int (by rw [abs_lt]; constructor <;> omega) (by push_cast; nlinarith)
  have a2 : ((-(p.1 - x) : Int) : ℚ) ≤ fl64 (q.2 * ((p.1 : ℚ) - x)) :=
    int_le_fl64 (by rw [abs_lt]; constructor <;> omega) (by push_cast; nlinarith)
  have b1 : fl64 (p.2 * ((x : ℚ) - q.1)) ≤ ((x - q.1 : Int) : ℚ) :=
    fl64_le_int (by rw [abs_lt]; constructor <;> omega) (by push_cast; nlinarith)
  have b2 : ((-(x - q.1) : Int) : ℚ) ≤ fl64 (p.2 * ((x : ℚ) - q.1)) :=
    int_le_fl64 (by rw [abs_lt]; constructor <;> omega) (by push_cast; nlinarith)
  generalize fl64 (q.2 * ((p.1 : ℚ) - x)) = u at *
  generalize fl64 (p.2 * ((x : ℚ) - q.1)) = w at *
  push_cast at a1 a2 b1 b2
  have c1 : fl64 (u + w) ≤ ((p.1 - q.1 : Int) : ℚ) :=
    fl64_le_int (by rw [abs_lt]; constructor <;> omega) (by push_cast; linarith)
  have c2 : ((-(p.1 - q.1) : Int) : ℚ) ≤ fl64 (u + w) :=
    int_le_fl64 (by rw [abs_lt]; constructor <;> omega) (by push_cast; linarith)
  push_cast at c1 c2
  constructor
  · have := int_le_fl64 (n := -1) (x := fl64 (u + w) / ((p.1 : ℚ) - q.1)) (by norm_num)
      (by rw [le_div_iff₀ d1]; push_cast; linarith)
    simpa using this
  · have := fl64_le_int (n := 1) (x := fl64 (u + w) / ((p.1 : ℚ) - q.1)) (by norm_num)
      (by rw [div_le_iff₀ d1]; push_cast; linarith)
    simpa using this

theorem interpolated_ok {q p : Point} {x : Int} (hq : q.1 < x) (hp : x ≤ p.1) : ∃ y, interpolated q p x = .ok y := by
  unfold interpolated linear64
  rw [if_neg (by omega), if_neg (by omega), if_neg (by omega)]
  exact ⟨_, rfl⟩

/-- Where an event starts in a curve. -/
theorem split_points (points : List Point) (x : Int) :
    (pointsFrom points x = [] ∧ ∀ p ∈ points, p.1 < x) ∨
    ∃ pre p rest, points = pre ++ p :: rest ∧ pointsBefore points x = pre ∧ pointsFrom points x = p :: rest ∧
      (∀ q ∈ pre, q.1 < x) ∧ x ≤ p.1 := by
  cases h : pointsFrom points x with
  | nil =>
    left
    refine ⟨rfl, ?_⟩
    have := List.dropWhile_eq_nil_iff.mp h
    simpa using this
  | cons p rest =>
    right
    refine ⟨pointsBefore points x, p, rest, ?_, rfl, rfl, ?_, ?_⟩
    · rw [← h]; exact (List.takeWhile_append_dropWhile).symm
    · intro q hq
      have := List.mem_takeWhile_imp hq
      simpa using this
    · have := List.head?_dropWhile_not (fun q : Point => decide (q.1 < x)) points
      unfold pointsFrom at h
      rw [h] at this
      simpa using this

end Haptics.Ahap
