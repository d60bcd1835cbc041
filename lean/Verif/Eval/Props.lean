import Verif.Eval.Lemmas
import Mathlib.Tactic.NormNum

namespace Haptics

/-! ## C45: linear interpolation -/

theorem linearInterpolation_eq {a b : Int × ℝ} (x : ℝ) (h : a.1 < b.1) :
    linearInterpolation a b x =
      if x < a.1 then some a.2 else if x > b.1 then some b.2
      else linearSegment a.1 a.2 b.1 b.2 x := by
  unfold linearInterpolation linearSegment
  rw [if_neg (show ¬ a.1 ≥ b.1 by omega)]

/-- C45: between the two key times the result is a number between the two key values. -/
theorem c45_between (a b : Int × ℝ) (x : ℝ) (h : a.1 < b.1) (h0 : (a.1 : ℝ) ≤ x) (h1 : x ≤ b.1) :
    ∃ r, linearInterpolation a b x = some r ∧ Between a.2 b.2 r := by
  have h' : (a.1 : ℝ) < b.1 := by exact_mod_cast h
  rw [linearInterpolation_eq x h, if_neg (not_lt.mpr h0), if_neg (not_lt.mpr h1)]
  exact linearSegment_between _ _ h' h0 h1

/-- C45: the ends are hit exactly, and held outside. -/
theorem c45_ends (a b : Int × ℝ) (x : ℝ) (h : a.1 < b.1) :
    (x ≤ a.1 → linearInterpolation a b x = some a.2) ∧
    ((b.1 : ℝ) ≤ x → linearInterpolation a b x = some b.2) := by
  have h' : (a.1 : ℝ) < b.1 := by exact_mod_cast h
  rw [linearInterpolation_eq x h]
  constructor
  · intro hx
    by_cases hlt : x < a.1
    · rw [if_pos hlt]
    · have : x = a.1 := le_antisymm hx (not_lt.mp hlt)
      rw [if_neg hlt, if_neg (by linarith), this]
      exact (linearSegment_ends _ _ h').1
  · intro hx
    rw [if_neg (by linarith)]
    by_cases hlt : x > b.1
    · rw [if_pos hlt]
    · have : x = b.1 := le_antisymm (not_lt.mp hlt) hx
      rw [if_neg hlt, this]
      exact (linearSegment_ends _ _ h').2

/-- C45: the interpolation is monotone over all times. -/
theorem c45_monotone (a b : Int × ℝ) (x y u v : ℝ) (h : a.1 < b.1) (hxy : x ≤ y) (hab : a.2 ≤ b.2)
    (hu : linearInterpolation a b x = some u) (hv : linearInterpolation a b y = some v) : u ≤ v := by
  have h' : (a.1 : ℝ) < b.1 := by exact_mod_cast h
  have range : ∀ z w, linearInterpolation a b z = some w → a.2 ≤ w ∧ w ≤ b.2 := by
    intro z w hz
    rcases le_total z a.1 with hz1 | hz1
    · rw [(c45_ends a b z h).1 hz1] at hz
      cases hz; exact ⟨le_refl _, hab⟩
    · rcases le_total z b.1 with hz2 | hz2
      · obtain ⟨r, hr, hb⟩ := c45_between a b z h hz1 hz2
        rw [hr] at hz; cases hz
        unfold Between at hb
        rwa [min_eq_left hab, max_eq_right hab] at hb
      · rw [(c45_ends a b z h).2 hz2] at hz
        cases hz; exact ⟨hab, le_refl _⟩
  rcases le_total x a.1 with hx1 | hx1
  · rw [(c45_ends a b x h).1 hx1] at hu
    cases hu; exact (range y v hv).1
  · rcases le_total (b.1 : ℝ) y with hy2 | hy2
    · rw [(c45_ends a b y h).2 hy2] at hv
      cases hv; exact (range x u hu).2
    · have hx2 : x ≤ b.1 := le_trans hxy hy2
      have hy1 : (a.1 : ℝ) ≤ y := le_trans hx1 hxy
      rw [linearInterpolation_eq x h, if_neg (not_lt.mpr hx1), if_neg (not_lt.mpr hx2),
        linearSegment_eq _ _ _ h'.ne] at hu
      rw [linearInterpolation_eq y h, if_neg (not_lt.mpr hy1), if_neg (not_lt.mpr hy2),
        linearSegment_eq _ _ _ h'.ne] at hv
      cases hu; cases hv
      have hd : (x - a.1) / (b.1 - a.1) ≤ (y - a.1) / ((b.1 : ℝ) - a.1) :=
        div_le_div_of_nonneg_right (by linarith) (by linarith)
      have := mul_le_mul_of_nonneg_left hd (show 0 ≤ b.2 - a.2 by linarith)
      linarith

example : ∃ u v, linearInterpolation (0, 0) (10, 1) 5 = some u ∧ linearInterpolation (0, 0) (10, 1) 8 = some v
    ∧ u < v := by
  refine ⟨1 / 2, 4 / 5, ?_, ?_, by norm_num⟩ <;> norm_num [linearInterpolation, fdiv]

/-- C45: the result is a number except at the common time of two simultaneous key points, where it is not:
the only case in which the property fails. -/
theorem c45_number_iff (a b : Int × ℝ) (x : ℝ) :
    linearInterpolation a b x = none ↔ a.1 = b.1 ∧ x = a.1 := by
  unfold linearInterpolation
  by_cases h1 : x < a.1
  · rw [if_pos h1]
    constructor
    · intro h; cases h
    · rintro ⟨_, h⟩; linarith
  · rw [if_neg h1]
    by_cases h2 : x > b.1
    · rw [if_pos h2]
      constructor
      · intro h; cases h
      · rintro ⟨h, h'⟩; rw [h] at h'; linarith
    · rw [if_neg h2]
      have e1 : (a.1 : ℝ) ≤ x := not_lt.mp h1
      have e2 : x ≤ b.1 := not_lt.mp h2
      by_cases h3 : a.1 ≥ b.1
      · have h3' : (b.1 : ℝ) ≤ a.1 := by exact_mod_cast h3
        have e3 : a.1 = b.1 := by
          have : (a.1 : ℝ) ≤ b.1 := le_trans e1 e2
          have : a.1 ≤ b.1 := by exact_mod_cast this
          omega
        rw [if_pos h3, e3]
        simp only [fdiv, sub_self, if_true, true_and, true_iff]
        rw [e3] at e1
        exact le_antisymm e2 e1
      · rw [if_neg h3]
        have h3' : (a.1 : ℝ) < b.1 := by exact_mod_cast not_le.mp h3
        rw [fdiv_of_ne (by linarith)]
        constructor
        · intro h; cases h
        · rintro ⟨h, _⟩; omega

/-! ## C50: curves between keyframes -/

/-- What `evaluateKeyframes` finds around a position. -/
theorem dropWhile_head {α : Type} (p : α → Bool) (l : List α) (a : α) (r : List α)
    (h : l.dropWhile p = a :: r) : a ∈ l ∧ p a = false := by
  have h1 : a ∈ l.dropWhile p := by rw [h]; exact List.mem_cons_self
  refine ⟨(List.dropWhile_sublist p).mem h1, ?_⟩
  induction l with
  | nil => cases h
  | cons x l ih =>
    rw [List.dropWhile_cons] at h
    split at h
    · rename_i hx
      exact ih h (by rw [h]; exact List.mem_cons_self)
    · rename_i hx
      cases h
      simpa using hx

theorem takeWhile_last {α : Type} (p : α → Bool) (l : List α) (a : α)
    (h : (l.takeWhile p).getLast? = some a) : a ∈ l ∧ p a = true := by
  have h1 : a ∈ l.takeWhile p := List.mem_of_getLast? h
  exact ⟨(List.takeWhile_sublist p).mem h1, List.all_eq_true.mp List.all_takeWhile a h1⟩

theorem point_amp {e : Effect} {B : ℝ} (hB : AmplitudeBound e B) {p : ℝ × ℝ}
    (hp : p ∈ e.keyframes.filterMap Keyframe.point) : |p.2| ≤ B := by
  rw [List.mem_filterMap] at hp
  obtain ⟨k, hk, hkp⟩ := hp
  unfold Keyframe.point at hkp
  split at hkp
  · rename_i q a hq ha
    cases hkp
    exact hB k hk a ha
  · cases hkp

/-- C50: with linear or cubic curves a rendered value is a number and never overshoots: at a time between
two keyframes it lies between their amplitudes. -/
theorem c50_between (e : Effect) (position : ℝ) (curveType timescale : Nat) (ht : timescale ≠ 0)
    (hc : curveType = CurveType.Cubic ∨ curveType = CurveType.Linear) (pre post : List Keyframe)
    (k0 k1 : Keyframe) (p0 p1 : ℤ) (a0 a1 : ℚ)
    (hk : e.keyframes = pre ++ k0 :: k1 :: post)
    (hp0 : k0.relativePosition = some p0) (ha0 : k0.amplitudeModulation = some a0)
    (hp1 : k1.relativePosition = some p1) (ha1 : k1.amplitudeModulation = some a1)
    (hpre : ∀ k ∈ pre, ∀ p, k.relativePosition = some p → p ≤ p0)
    (h0 : (e.position : ℝ) + p0 ≤ position) (h1 : position < e.position + p1) :
    ∃ r, e.evaluateKeyframes position curveType timescale = some r ∧ Between a0 a1 r ∧
      (position = e.position + p0 → r = a0) := by
  have hts : (0 : ℝ) < timescale := by exact_mod_cast Nat.pos_of_ne_zero ht
  have f0 : Keyframe.point k0 = some ((p0 : ℝ), (a0 : ℝ)) := by simp [Keyframe.point, hp0, ha0]
  have f1 : Keyframe.point k1 = some ((p1 : ℝ), (a1 : ℝ)) := by simp [Keyframe.point, hp1, ha1]
  have hpts : e.keyframes.filterMap Keyframe.point = pre.filterMap Keyframe.point ++
      ((p0 : ℝ), (a0 : ℝ)) :: ((p1 : ℝ), (a1 : ℝ)) :: post.filterMap Keyframe.point := by
    rw [hk, List.filterMap_append, List.filterMap_cons_some f0, List.filterMap_cons_some f1]
  have hq : ∀ q ∈ pre.filterMap Keyframe.point, q.1 ≤ position - e.position := by
    intro q hq
    rw [List.mem_filterMap] at hq
    obtain ⟨k, hk, hkp⟩ := hq
    unfold Keyframe.point at hkp
    split at hkp
    · rename_i p a hp ha
      cases hkp
      have := hpre k hk p hp
      have : (p : ℝ) ≤ p0 := by exact_mod_cast this
      dsimp only
      linarith
    · cases hkp
  have n0 : ¬ (p0 : ℝ) > position - e.position := by linarith
  have n1 : (p1 : ℝ) > position - e.position := by linarith
  have hall : ∀ q ∈ pre.filterMap Keyframe.point ++ [((p0 : ℝ), (a0 : ℝ))],
      decide (¬ q.1 > position - e.position) = true := by
    intro q hmem
    rw [decide_eq_true_iff]
    rcases List.mem_append.mp hmem with hm | hm
    · exact not_lt.mpr (hq q hm)
    · rw [List.mem_singleton] at hm; rw [hm]; exact n0
  have hsplit : e.keyframes.filterMap Keyframe.point =
      (pre.filterMap Keyframe.point ++ [((p0 : ℝ), (a0 : ℝ))]) ++
        ((p1 : ℝ), (a1 : ℝ)) :: post.filterMap Keyframe.point := by rw [hpts]; simp
  have hdrop : (e.keyframes.filterMap Keyframe.point).dropWhile
      (fun p => decide (¬ p.1 > position - e.position)) =
        ((p1 : ℝ), (a1 : ℝ)) :: post.filterMap Keyframe.point := by
    rw [hsplit, List.dropWhile_append_of_pos hall, List.dropWhile_cons_of_neg]
    simpa using n1
  have htake : (e.keyframes.filterMap Keyframe.point).takeWhile
      (fun p => decide (¬ p.1 > position - e.position)) =
        pre.filterMap Keyframe.point ++ [((p0 : ℝ), (a0 : ℝ))] := by
    rw [hsplit, List.takeWhile_append_of_pos hall, List.takeWhile_cons_of_neg, List.append_nil]
    simpa using n1
  have hlt : (p0 : ℝ) / timescale < p1 / timescale := div_lt_div_of_pos_right (by linarith) hts
  have hle0 : (p0 : ℝ) / timescale ≤ (position - e.position) / timescale :=
    div_le_div_of_nonneg_right (by linarith) hts.le
  have hle1 : (position - e.position) / timescale ≤ p1 / timescale :=
    div_le_div_of_nonneg_right (by linarith) hts.le
  unfold Effect.evaluateKeyframes
  simp only [hdrop, htake, List.getLast?_append, List.getLast?_singleton, Option.some_or, if_neg ht]
  rcases hc with hc | hc
  · subst hc
    simp only [if_true]
    obtain ⟨r, hr, hb⟩ := cubicSegment_between (a0 : ℝ) a1 hlt hle0 hle1
    refine ⟨r, hr, hb, ?_⟩
    intro hpos
    rw [show position - e.position = p0 by linarith, (cubicSegment_ends _ _ hlt).1] at hr
    cases hr; rfl
  · subst hc
    simp only [show ¬ CurveType.Linear = CurveType.Cubic by decide, if_false, if_true]
    obtain ⟨r, hr, hb⟩ := linearSegment_between (a0 : ℝ) a1 hlt hle0 hle1
    refine ⟨r, hr, hb, ?_⟩
    intro hpos
    rw [show position - e.position = p0 by linarith, (linearSegment_ends _ _ hlt).1] at hr
    cases hr; rfl

/-- C50: whatever the keyframes, a rendered curve value is a number no larger than the largest
amplitude. -/
theorem c50_bounded (e : Effect) (position : ℝ) (curveType timescale : Nat) (ht : timescale ≠ 0) (B : ℝ)
    (hB0 : 0 ≤ B) (hB : AmplitudeBound e B) :
    ∃ r, e.evaluateKeyframes position curveType timescale = some r ∧ |r| ≤ B := by
  have hts : (0 : ℝ) < timescale := by exact_mod_cast Nat.pos_of_ne_zero ht
  unfold Effect.evaluateKeyframes
  dsimp only
  split
  · exact ⟨0, rfl, by simpa using hB0⟩
  · rename_i after rest hdrop
    obtain ⟨ha, hna⟩ := dropWhile_head _ _ _ _ hdrop
    split
    · exact ⟨_, rfl, point_amp hB ha⟩
    · rename_i before hbef
      obtain ⟨hb, hpb⟩ := takeWhile_last _ _ _ hbef
      rw [decide_eq_true_iff] at hpb
      rw [decide_eq_false_iff_not, not_not] at hna
      rw [if_neg ht]
      have hlt : before.1 / timescale < after.1 / timescale := div_lt_div_of_pos_right (by linarith) hts
      have hle0 : before.1 / timescale ≤ (position - e.position) / timescale :=
        div_le_div_of_nonneg_right (by linarith) hts.le
      have hle1 : (position - e.position) / timescale ≤ after.1 / timescale :=
        div_le_div_of_nonneg_right (by linarith) hts.le
      split
      · obtain ⟨r, hr, hbt⟩ := cubicSegment_between before.2 after.2 hlt hle0 hle1
        exact ⟨r, hr, abs_le_of_between hbt (point_amp hB hb) (point_amp hB ha)⟩
      · split
        · obtain ⟨r, hr, hbt⟩ := linearSegment_between before.2 after.2 hlt hle0 hle1
          exact ⟨r, hr, abs_le_of_between hbt (point_amp hB hb) (point_amp hB ha)⟩
        · exact ⟨0, rfl, by simpa using hB0⟩

/-- Two keyframes, 0 at 0 ms and 1 at 100 ms, of an effect at 50 ms. -/
def rampEffect : Effect :=
  { position := 50, keyframes := [⟨some 0, some 0, none⟩, ⟨some 100, some 1, none⟩] }

example : ∃ r, rampEffect.evaluateKeyframes 100 CurveType.Cubic 1000 = some r ∧ Between (0 : ℚ) (1 : ℚ) r ∧
    ((100 : ℝ) = rampEffect.position + (0 : ℤ) → r = (0 : ℚ)) :=
  c50_between rampEffect 100 CurveType.Cubic 1000 (by decide) (Or.inl rfl) [] [] _ _ 0 100 0 1 rfl rfl rfl
    rfl rfl (by simp) (by norm_num [rampEffect]) (by norm_num [rampEffect])

end Haptics
