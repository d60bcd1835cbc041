import Verif.Eval.RelLemmas
import Verif.Eval.PropsCurve

/-!
Curves and interpolations computed with the rounding of `double`: how far they are from those without rounding
(C45, C50, C51, C52).
-/

namespace Haptics.Rounded
open Haptics

/-! ## C45 -/

/-- C45: computed with any arithmetic that rounds to 53 bits, an interpolation is a number and misses the value on the line by
less than one part in `2^48` of the larger of the two amplitudes. -/
theorem c45_double {A : Arith} (hA : A.Sound) (a b : Int × ℝ) (x : ℝ) (h : a.1 < b.1) :
    ∃ r r', Haptics.linearInterpolation a b x = some r ∧ linearInterpolation A a b x = some r' ∧
      |r' - r| ≤ max |a.2| |b.2| / 2 ^ 48 := by
  have h' : (a.1 : ℝ) < b.1 := by exact_mod_cast h
  have hM : 0 ≤ max |a.2| |b.2| / 2 ^ 48 := div_nonneg ((abs_nonneg _).trans (le_max_left _ _)) (by positivity)
  unfold Haptics.linearInterpolation linearInterpolation
  by_cases h1 : x < a.1
  · rw [if_pos h1, if_pos h1]
    exact ⟨_, _, rfl, rfl, by rwa [sub_self, abs_zero]⟩
  · rw [if_neg h1, if_neg h1]
    by_cases h2 : x > b.1
    · rw [if_pos h2, if_pos h2]
      exact ⟨_, _, rfl, rfl, by rwa [sub_self, abs_zero]⟩
    · rw [if_neg h2, if_neg h2, if_neg (not_le.2 h), if_neg (not_le.2 h)]
      exact linearSegment_close hA a.2 b.2 h' (not_lt.1 h1) (not_lt.1 h2)

/-- … so it is between the two amplitudes but for that. -/
theorem c45_between_double {A : Arith} (hA : A.Sound) (a b : Int × ℝ) (x : ℝ) (h : a.1 < b.1) :
    ∃ r', linearInterpolation A a b x = some r' ∧ min a.2 b.2 - max |a.2| |b.2| / 2 ^ 48 ≤ r' ∧
      r' ≤ max a.2 b.2 + max |a.2| |b.2| / 2 ^ 48 := by
  obtain ⟨r, r', e, e', hd⟩ := c45_double hA a b x h
  obtain ⟨d1, d2⟩ := abs_le.1 hd
  have hb : min a.2 b.2 ≤ r ∧ r ≤ max a.2 b.2 := by
    rcases le_total x a.1 with hx | hx
    · rw [(c45_ends a b x h).1 hx] at e
      cases e
      exact ⟨min_le_left _ _, le_max_left _ _⟩
    · rcases le_total x b.1 with hy | hy
      · obtain ⟨v, hv, hb⟩ := c45_between a b x h hx hy
        rw [hv] at e
        cases e
        exact hb
      · rw [(c45_ends a b x h).2 hy] at e
        cases e
        exact ⟨min_le_right _ _, le_max_right _ _⟩
  exact ⟨r', e', by linarith [hb.1], by linarith [hb.2]⟩

/-- The hypotheses of C45 are met, with the rounding of binary64. -/
example : ∃ r', linearInterpolation Arith.double (0, 0.1) (3, 0.7) 1 = some r' ∧ |r' - 0.3| ≤ 0.7 / 2 ^ 48 := by
  obtain ⟨r, r', e, e', hd⟩ := c45_double double_sound (0, 0.1) (3, 0.7) 1 (by norm_num)
  have : r = 0.3 := by
    norm_num [Haptics.linearInterpolation, Haptics.fdiv] at e
    rw [← e]; norm_num
  rw [this] at hd
  exact ⟨r', e', hd.trans (by norm_num [abs_of_pos])⟩

/-- Numbers of 53 bits are not rounded. -/
theorem double_exact (m k : ℤ) (hm : |m| < 2 ^ 53) : Arith.double.rd (((m : ℚ) * 2 ^ k : ℚ) : ℝ) = (((m : ℚ) * 2 ^ k : ℚ) : ℝ) := by
  show wideReal _ = _
  rw [wideReal_rat]
  congr 1
  unfold wide
  by_cases hz : (m : ℚ) * 2 ^ k = 0
  · rw [hz]; simp
  · refine flo_exact 53 _ m k hm ?_
    have h1 := (ilog2_spec _ (abs_pos.2 hz)).1
    have h2 : |(m : ℚ) * 2 ^ k| < 2 ^ (53 + k) := by
      rw [abs_mul, abs_of_pos (by positivity : (0 : ℚ) < 2 ^ k), zpow_add₀ (by norm_num)]
      refine mul_lt_mul_of_pos_right ?_ (by positivity)
      have : |(m : ℚ)| < 2 ^ 53 := by exact_mod_cast hm
      exact_mod_cast this
    have := (zpow_lt_zpow_iff_right₀ (by norm_num : (1 : ℚ) < 2)).1 (lt_of_le_of_lt h1 h2)
    push_cast
    omega

/-- C45: with the rounding of binary64, and amplitudes that are `float`s (24 bits), the ends of an interpolation over less than
`2^29` ticks are hit exactly all the same, and held outside. -/
theorem c45_ends_double (a b : Int × ℝ) (x : ℝ) (h : a.1 < b.1) (hw : b.1 - a.1 < 2 ^ 29) (m n k l : ℤ)
    (ha : a.2 = (((m : ℚ) * 2 ^ k : ℚ) : ℝ)) (hm : |m| < 2 ^ 24) (hb : b.2 = (((n : ℚ) * 2 ^ l : ℚ) : ℝ)) (hn : |n| < 2 ^ 24) :
    (x ≤ a.1 → linearInterpolation Arith.double a b x = some a.2) ∧
    ((b.1 : ℝ) ≤ x → linearInterpolation Arith.double a b x = some b.2) := by
  have h' : (a.1 : ℝ) < b.1 := by exact_mod_cast h
  have hd : ((b.1 : ℝ) - a.1) ≠ 0 := by linarith
  have z : Arith.double.rd 0 = 0 := rd_zero double_sound
  have e0 : Arith.double.rd ((b.1 : ℝ) - a.1) = (b.1 : ℝ) - a.1 := by
    have := double_sound.int (b.1 - a.1) (by rw [abs_lt]; constructor <;> omega)
    exact_mod_cast this
  -- an amplitude times the number of ticks
  have prod : ∀ m k : ℤ, |m| < 2 ^ 24 → Arith.double.rd ((((m : ℚ) * 2 ^ k : ℚ) : ℝ) * ((b.1 : ℝ) - a.1)) =
      (((m : ℚ) * 2 ^ k : ℚ) : ℝ) * ((b.1 : ℝ) - a.1) := by
    intro m k hm
    have hlt : |m * (b.1 - a.1)| < 2 ^ 53 := by
      rw [abs_mul, abs_of_pos (by omega : 0 < b.1 - a.1)]
      calc |m| * (b.1 - a.1) ≤ (2 ^ 24) * (b.1 - a.1) := mul_le_mul_of_nonneg_right hm.le (by omega)
        _ < 2 ^ 24 * 2 ^ 29 := by omega
        _ = 2 ^ 53 := by norm_num
    have := double_exact (m * (b.1 - a.1)) k hlt
    have e : (((((m * (b.1 - a.1) : ℤ) : ℚ) * 2 ^ k : ℚ)) : ℝ) = (((m : ℚ) * 2 ^ k : ℚ) : ℝ) * ((b.1 : ℝ) - a.1) := by
      push_cast; ring
    rwa [e] at this
  have s24 : ∀ m k : ℤ, |m| < 2 ^ 24 → Arith.double.rd (((m : ℚ) * 2 ^ k : ℚ) : ℝ) = (((m : ℚ) * 2 ^ k : ℚ) : ℝ) :=
    fun m k hm => double_exact m k (hm.trans (by norm_num))
  unfold linearInterpolation
  constructor
  · intro hx
    rcases hx.lt_or_eq with hx | hx
    · rw [if_pos hx]
    · rw [hx, if_neg (lt_irrefl _), if_neg (not_lt.2 h'.le), if_neg (not_le.2 h), sub_self, z, mul_zero, z, add_zero, e0, ha,
        prod m k hm, prod m k hm]
      unfold fdiv
      rw [if_neg hd, mul_div_assoc, div_self hd, mul_one, s24 m k hm]
  · intro hx
    rw [if_neg (not_lt.2 (h'.le.trans hx))]
    rcases hx.lt_or_eq with hx | hx
    · rw [if_pos hx]
    · rw [← hx, if_neg (lt_irrefl _), if_neg (not_le.2 h), sub_self, z, mul_zero, z, zero_add, e0, hb,
        prod n l hn, prod n l hn]
      unfold fdiv
      rw [if_neg hd, mul_div_assoc, div_self hd, mul_one, s24 n l hn]

/-- The hypotheses are met: 0.75 at tick 10, 0.5 at tick 1010. -/
example : linearInterpolation Arith.double (10, (((3 : ℤ) : ℚ) * 2 ^ (-2 : ℤ) : ℚ)) (1010, (((1 : ℤ) : ℚ) * 2 ^ (-1 : ℤ) : ℚ)) 1010 =
    some ((((1 : ℤ) : ℚ) * 2 ^ (-1 : ℤ) : ℚ) : ℝ) :=
  (c45_ends_double (10, _) (1010, _) 1010 (by norm_num) (by norm_num) 3 1 (-2) (-1) rfl (by norm_num) rfl (by norm_num)).2
    (by norm_num)

/-! ## C52 -/

/-- C52: sampled with rounding, every sample of a curve misses the curve through the keyframes by less than one part in `2^44`
of the larger amplitude of its segment, and there are as many samples. -/
theorem c52_double {A : Arith} (hA : A.Sound) (pts : List (ℤ × ℝ)) (hinc : Increasing pts) (r' : List (Option ℝ))
    (hr : IsCurve (linearSegment A) pts r' ∨ IsCurve (cubicSegment A) pts r') :
    (r'.length : ℤ) = (pts.getLastD (0, 0)).1 + 1 ∧
    ∀ i : Nat, i < r'.length → ∃ pre q0 q1 post v v', pts = pre ++ q0 :: q1 :: post ∧ q0.1 ≤ (i : ℤ) ∧ (i : ℤ) ≤ q1.1 ∧
      (Haptics.linearSegment q0.1 q0.2 q1.1 q1.2 i = some v ∨ Haptics.cubicSegment q0.1 q0.2 q1.1 q1.2 i = some v) ∧
      Between q0.2 q1.2 v ∧ r'[i]? = some (some v') ∧ |v' - v| ≤ max |q0.2| |q1.2| / 2 ^ 44 := by
  have lt : ∀ pre q0 q1 post, pts = pre ++ q0 :: q1 :: post → (q0.1 : ℝ) < q1.1 := by
    intro pre q0 q1 post e
    have : q0.1 < q1.1 := (increasing_append (e ▸ hinc)).1
    exact_mod_cast this
  rcases hr with ⟨hl, hi⟩ | ⟨hl, hi⟩
  · refine ⟨hl, fun i h => ?_⟩
    obtain ⟨pre, q0, q1, post, e, b0, b1, hv⟩ := hi i h
    have b0' : (q0.1 : ℝ) ≤ (i : ℝ) := by exact_mod_cast b0
    have b1' : (i : ℝ) ≤ (q1.1 : ℝ) := by exact_mod_cast b1
    obtain ⟨v, v', e1, e2, hd⟩ := linearSegment_close hA q0.2 q1.2 (lt _ _ _ _ e) b0' b1'
    obtain ⟨u, hu, hb⟩ := linearSegment_between q0.2 q1.2 (lt _ _ _ _ e) b0' b1'
    rw [hu] at e1
    cases e1
    refine ⟨pre, q0, q1, post, _, v', e, b0, b1, Or.inl hu, hb, by rw [hv, e2], hd.trans ?_⟩
    exact div_le_div_of_nonneg_left ((abs_nonneg _).trans (le_max_left _ _)) (by norm_num) (by norm_num)
  · refine ⟨hl, fun i h => ?_⟩
    obtain ⟨pre, q0, q1, post, e, b0, b1, hv⟩ := hi i h
    have b0' : (q0.1 : ℝ) ≤ (i : ℝ) := by exact_mod_cast b0
    have b1' : (i : ℝ) ≤ (q1.1 : ℝ) := by exact_mod_cast b1
    obtain ⟨v, v', e1, e2, hd⟩ := cubicSegment_close hA q0.2 q1.2 (lt _ _ _ _ e) b0' b1'
    obtain ⟨u, hu, hb⟩ := cubicSegment_between q0.2 q1.2 (lt _ _ _ _ e) b0' b1'
    rw [hu] at e1
    cases e1
    exact ⟨pre, q0, q1, post, _, v', e, b0, b1, Or.inr hu, hb, by rw [hv, e2], hd⟩

/-- The hypotheses of C52 are met: `interpolation2` gives such a signal. -/
example : ∃ r', interpolation2 (cubicSegment Arith.double) 9 0 [(0, 0.1), (4, 0.7), (9, 0.2)] = .ok r' ∧
    IsCurve (cubicSegment Arith.double) [(0, 0.1), (4, 0.7), (9, 0.2)] r' ∧ Increasing [((0 : ℤ), (0.1 : ℝ)), (4, 0.7), (9, 0.2)] := by
  have hinc : Increasing [((0 : ℤ), (0.1 : ℝ)), (4, 0.7), (9, 0.2)] := by
    simp [Increasing]
  obtain ⟨r, h1, h2⟩ := c52_partial (cubicSegment Arith.double) (0, 0.1) (4, 0.7) [(9, 0.2)] rfl hinc (by
    intro pre a b e hp
    rcases pre with _ | ⟨x, _ | ⟨y, pre⟩⟩
    · exact absurd rfl hp
    · simp at e
      obtain ⟨-, rfl, rfl⟩ := e
      norm_num
    · have := congrArg List.length e
      simp at this)
  exact ⟨r, h1, h2, hinc⟩

/-! ## C50 -/

theorem linearSegment_fraction {t0 t1 : ℝ} (f0 f1 t : ℝ) (h : t0 < t1) :
    Haptics.linearSegment t0 f0 t1 f1 t = some (f0 + (f1 - f0) * ((t - t0) / (t1 - t0))) := by
  have hh : t1 - t0 ≠ 0 := by linarith
  unfold Haptics.linearSegment
  rw [fdiv_of_ne hh]
  congr 1
  field_simp
  ring

theorem cubicSegment_fraction {t0 t1 : ℝ} (f0 f1 t : ℝ) (h : t0 < t1) :
    Haptics.cubicSegment t0 f0 t1 f1 t =
      some (f0 + (f1 - f0) * ((3 - 2 * ((t - t0) / (t1 - t0))) * ((t - t0) / (t1 - t0)) ^ 2)) := by
  have hh : t1 - t0 ≠ 0 := by linarith
  unfold Haptics.cubicSegment
  rw [fdiv_of_ne (pow_ne_zero 3 hh)]
  show some (f0 + _) = _
  congr 2
  field_simp
  ring

/-- How far apart the fractions of a segment are, if its times are rounded. -/
theorem fraction_close {p0 p1 x T0 T1 T d : ℝ} (hp : p0 + 1 ≤ p1) (h0 : p0 ≤ x) (h1 : x ≤ p1) (hd : 0 ≤ d) (hd1 : d ≤ 1 / 4)
    (e0 : |T0 - p0| ≤ d) (e1 : |T1 - p1| ≤ d) (e : |T - x| ≤ 4 * d) :
    |(T - T0) / (T1 - T0) - (x - p0) / (p1 - p0)| ≤ 10 * d := by
  obtain ⟨a1, a2⟩ := abs_le.1 e0
  obtain ⟨b1, b2⟩ := abs_le.1 e1
  obtain ⟨c1, c2⟩ := abs_le.1 e
  have hD : 0 < p1 - p0 := by linarith
  have hD' : 1 / 2 ≤ T1 - T0 := by linarith
  set s := (x - p0) / (p1 - p0) with hs
  have s0 : 0 ≤ s := div_nonneg (by linarith) hD.le
  have s1 : s ≤ 1 := by rw [hs, div_le_one hD]; linarith
  have hx : x = p0 + s * (p1 - p0) := by rw [hs]; field_simp; ring
  have hn : |T - T0 - s * (T1 - T0)| ≤ 5 * d := by
    have : T - T0 - s * (T1 - T0) = (T - x) - ((1 - s) * (T0 - p0) + s * (T1 - p1)) := by
      rw [hx]; ring
    rw [this]
    refine (abs_sub _ _).trans ?_
    have q1 : |(1 - s) * (T0 - p0)| ≤ (1 - s) * d := by
      rw [abs_mul, abs_of_nonneg (by linarith : 0 ≤ 1 - s)]
      exact mul_le_mul_of_nonneg_left e0 (by linarith)
    have q2 : |s * (T1 - p1)| ≤ s * d := by
      rw [abs_mul, abs_of_nonneg s0]
      exact mul_le_mul_of_nonneg_left e1 s0
    have := abs_add_le ((1 - s) * (T0 - p0)) (s * (T1 - p1))
    linarith
  rw [show (T - T0) / (T1 - T0) - s = (T - T0 - s * (T1 - T0)) / (T1 - T0) by field_simp, abs_div,
    abs_of_pos (by linarith : 0 < T1 - T0), div_le_iff₀ (by linarith)]
  nlinarith

/-- The times of `EvaluateKeyframes`, rounded. -/
theorem times_close {A : Arith} (hA : A.Sound) {P x y : ℝ} (hx : |x| ≤ P) (hy : |y - x| ≤ P / 2 ^ 53) (ts : Nat) (ht : ts ≠ 0) :
    |A.rd (y / ts) * ts - x| ≤ 4 * (P / 2 ^ 53) := by
  have hts : (0 : ℝ) < ts := by exact_mod_cast Nat.pos_of_ne_zero ht
  have h1 := hA.err (y / ts)
  have h2 : |A.rd (y / ts) * ts - y| ≤ |y| / 2 ^ 53 := by
    rw [show A.rd (y / ts) * ts - y = (A.rd (y / ts) - y / ts) * ts by field_simp, abs_mul, abs_of_pos hts]
    refine (mul_le_mul_of_nonneg_right h1 hts.le).trans (le_of_eq ?_)
    rw [abs_div, abs_of_pos hts]
    field_simp
  have h3 := abs_add_le x (y - x)
  rw [add_sub_cancel] at h3
  have h4 := abs_add_le (A.rd (y / ts) * ts - y) (y - x)
  rw [sub_add_sub_cancel] at h4
  have := abs_nonneg x
  linarith

theorem time_close {A : Arith} (hA : A.Sound) {P x : ℝ} (hx : |x| ≤ P) (ts : Nat) (ht : ts ≠ 0) :
    |A.rd (x / ts) * ts - x| ≤ P / 2 ^ 53 := by
  have hts : (0 : ℝ) < ts := by exact_mod_cast Nat.pos_of_ne_zero ht
  have h1 := hA.err (x / ts)
  rw [show A.rd (x / ts) * ts - x = (A.rd (x / ts) - x / ts) * ts by field_simp, abs_mul, abs_of_pos hts]
  have h2 := mul_le_mul_of_nonneg_right h1 hts.le
  rw [abs_div, abs_of_pos hts] at h2
  rw [show |x| / ts / 2 ^ 53 * ts = |x| / 2 ^ 53 by field_simp] at h2
  linarith

theorem smooth_close {s u : ℝ} (s0 : 0 ≤ s) (s1 : s ≤ 1) (u0 : 0 ≤ u) (u1 : u ≤ 1) :
    |(3 - 2 * u) * u ^ 2 - (3 - 2 * s) * s ^ 2| ≤ 2 * |u - s| := by
  rw [show (3 - 2 * u) * u ^ 2 - (3 - 2 * s) * s ^ 2 = (3 * (u + s) - 2 * (u ^ 2 + u * s + s ^ 2)) * (u - s) by ring, abs_mul]
  refine mul_le_mul_of_nonneg_right ?_ (abs_nonneg _)
  rw [abs_le]
  constructor
  · nlinarith [mul_nonneg s0 u0, mul_nonneg (sub_nonneg.2 s1) s0, mul_nonneg (sub_nonneg.2 u1) u0]
  · nlinarith [mul_nonneg s0 u0, sq_nonneg (s - 1/2), sq_nonneg (u - 1/2), sq_nonneg (s + u - 1)]

/-- What the rounded `EvaluateKeyframes` finds around a position. -/
theorem evaluateKeyframes_eq (A : Arith) (e : Effect) (position : ℝ) (curveType timescale : Nat) (ht : timescale ≠ 0)
    (pre post : List Keyframe) (k0 k1 : Keyframe) (p0 p1 : ℤ) (a0 a1 : ℚ)
    (hk : e.keyframes = pre ++ k0 :: k1 :: post)
    (hp0 : k0.relativePosition = some p0) (ha0 : k0.amplitudeModulation = some a0)
    (hp1 : k1.relativePosition = some p1) (ha1 : k1.amplitudeModulation = some a1)
    (hpre : ∀ k ∈ pre, ∀ p, k.relativePosition = some p → p ≤ p0)
    (h0 : (p0 : ℝ) ≤ A.rd (position - e.position)) (h1 : A.rd (position - e.position) < p1) :
    evaluateKeyframes A e position curveType timescale =
      if curveType = CurveType.Cubic then
        cubicSegment A (A.rd (p0 / timescale)) a0 (A.rd (p1 / timescale)) a1 (A.rd (A.rd (position - e.position) / timescale))
      else if curveType = CurveType.Linear then
        linearSegment A (A.rd (p0 / timescale)) a0 (A.rd (p1 / timescale)) a1 (A.rd (A.rd (position - e.position) / timescale))
      else some 0 := by
  have f0 : Keyframe.point k0 = some ((p0 : ℝ), (a0 : ℝ)) := by simp [Keyframe.point, hp0, ha0]
  have f1 : Keyframe.point k1 = some ((p1 : ℝ), (a1 : ℝ)) := by simp [Keyframe.point, hp1, ha1]
  unfold evaluateKeyframes
  generalize A.rd (position - e.position) = rel at *
  have hq : ∀ q ∈ pre.filterMap Keyframe.point, q.1 ≤ rel := by
    intro q hq
    rw [List.mem_filterMap] at hq
    obtain ⟨k, hk, hkp⟩ := hq
    unfold Keyframe.point at hkp
    split at hkp
    · rename_i p a hp ha
      cases hkp
      have := hpre k hk p hp
      have : (p : ℝ) ≤ p0 := by exact_mod_cast this
      dsimp only
      linarith
    · cases hkp
  have hall : ∀ q ∈ pre.filterMap Keyframe.point ++ [((p0 : ℝ), (a0 : ℝ))], decide (¬ q.1 > rel) = true := by
    intro q hmem
    rw [decide_eq_true_iff]
    rcases List.mem_append.mp hmem with hm | hm
    · exact not_lt.mpr (hq q hm)
    · rw [List.mem_singleton] at hm; rw [hm]; exact not_lt.2 h0
  have hsplit : e.keyframes.filterMap Keyframe.point =
      (pre.filterMap Keyframe.point ++ [((p0 : ℝ), (a0 : ℝ))]) ++
        ((p1 : ℝ), (a1 : ℝ)) :: post.filterMap Keyframe.point := by
    rw [hk, List.filterMap_append, List.filterMap_cons_some f0, List.filterMap_cons_some f1]
    simp
  have hdrop : (e.keyframes.filterMap Keyframe.point).dropWhile (fun p => decide (¬ p.1 > rel)) =
        ((p1 : ℝ), (a1 : ℝ)) :: post.filterMap Keyframe.point := by
    rw [hsplit, List.dropWhile_append_of_pos hall, List.dropWhile_cons_of_neg]
    simpa using h1
  have htake : (e.keyframes.filterMap Keyframe.point).takeWhile (fun p => decide (¬ p.1 > rel)) =
        pre.filterMap Keyframe.point ++ [((p0 : ℝ), (a0 : ℝ))] := by
    rw [hsplit, List.takeWhile_append_of_pos hall, List.takeWhile_cons_of_neg, List.append_nil]
    simpa using h1
  simp only [hdrop, htake, List.getLast?_append, List.getLast?_singleton, Option.some_or, if_neg ht]

/-- C50: with any arithmetic that rounds to 53 bits, a curve's value at a time between two keyframes is a number close to the
one without rounding.  The farther the keyframes are from the beginning of their effect, the less: `P` is the larger of the two
distances.  A time within `P / 2^53` of the second keyframe may be rounded to it. -/
theorem c50_double {A : Arith} (hA : A.Sound) (e : Effect) (position : ℝ) (curveType timescale : Nat) (ht : timescale ≠ 0)
    (hc : curveType = CurveType.Cubic ∨ curveType = CurveType.Linear) (pre post : List Keyframe)
    (k0 k1 : Keyframe) (p0 p1 : ℤ) (a0 a1 : ℚ)
    (hk : e.keyframes = pre ++ k0 :: k1 :: post)
    (hp0 : k0.relativePosition = some p0) (ha0 : k0.amplitudeModulation = some a0)
    (hp1 : k1.relativePosition = some p1) (ha1 : k1.amplitudeModulation = some a1)
    (hpre : ∀ k ∈ pre, ∀ p, k.relativePosition = some p → p ≤ p0) (P : ℝ)
    (hP0 : |(p0 : ℝ)| ≤ P) (hP1 : |(p1 : ℝ)| ≤ P) (hP : P ≤ 2 ^ 31)
    (h0 : (e.position : ℝ) + p0 ≤ position) (h1 : position < e.position + p1 - P / 2 ^ 53) :
    ∃ r r', e.evaluateKeyframes position curveType timescale = some r ∧
      evaluateKeyframes A e position curveType timescale = some r' ∧
      |r' - r| ≤ max |(a0 : ℝ)| |(a1 : ℝ)| * (P / 2 ^ 47 + 1 / 2 ^ 44) := by
  have hP' : 0 ≤ P := (abs_nonneg _).trans hP0
  have hts : (0 : ℝ) < timescale := by exact_mod_cast Nat.pos_of_ne_zero ht
  have i0 : |p0| ≤ 2 ^ 31 := by
    have : |(p0 : ℝ)| ≤ 2 ^ 31 := hP0.trans hP
    exact_mod_cast this
  have i1 : |p1| ≤ 2 ^ 31 := by
    have : |(p1 : ℝ)| ≤ 2 ^ 31 := hP1.trans hP
    exact_mod_cast this
  have hlt : p0 < p1 := by
    have : (p0 : ℝ) < p1 := by
      have : 0 ≤ P / 2 ^ 53 := by positivity
      linarith
    exact_mod_cast this
  have hlt' : (p0 : ℝ) + 1 ≤ p1 := by exact_mod_cast hlt
  set x := position - e.position with hx
  have xx : |x| ≤ P := by
    obtain ⟨l, -⟩ := abs_le.1 hP0
    obtain ⟨-, u⟩ := abs_le.1 hP1
    have : 0 ≤ P / 2 ^ 53 := by positivity
    rw [abs_le]
    constructor <;> linarith
  have er : |A.rd x - x| ≤ P / 2 ^ 53 := (hA.err x).trans (div_le_div_of_nonneg_right xx (by positivity))
  have y0 : (p0 : ℝ) ≤ A.rd x := by
    rw [← hA.int p0 (lt_of_le_of_lt i0 (by norm_num))]
    exact hA.mono (by linarith)
  have y1 : A.rd x < p1 := by
    have := (abs_le.1 er).2
    linarith
  have eR := evaluateKeyframes_eq A e position curveType timescale ht pre post k0 k1 p0 p1 a0 a1 hk hp0 ha0 hp1 ha1 hpre y0 y1
  have eX := evaluateKeyframes_eq Arith.exact e position curveType timescale ht pre post k0 k1 p0 p1 a0 a1 hk hp0 ha0 hp1 ha1 hpre
    (show (p0 : ℝ) ≤ x by linarith) (show x < p1 by have : 0 ≤ P / 2 ^ 53 := by positivity
                                                    linarith)
  rw [← hx] at eR
  set t0 := A.rd ((p0 : ℝ) / timescale) with ht0
  set t1 := A.rd ((p1 : ℝ) / timescale) with ht1
  set t := A.rd (A.rd x / timescale) with htt
  have l01 : t0 < t1 := times_lt hA i0 i1 hlt timescale ht
  have l0 : t0 ≤ t := hA.mono (div_le_div_of_nonneg_right y0 hts.le)
  have l1 : t ≤ t1 := hA.mono (div_le_div_of_nonneg_right y1.le hts.le)
  set M := max |(a0 : ℝ)| |(a1 : ℝ)| with hM
  have m0 : |(a0 : ℝ)| ≤ M := le_max_left _ _
  have m1 : |(a1 : ℝ)| ≤ M := le_max_right _ _
  have hM0 : 0 ≤ M := (abs_nonneg _).trans m0
  have hdf : |(a1 : ℝ) - a0| ≤ 2 * M := (abs_sub _ _).trans (by linarith)
  -- the fractions
  have hd1 : P / 2 ^ 53 ≤ 1 / 4 := by
    rw [div_le_iff₀ (by norm_num)]
    refine hP.trans (by norm_num)
  have hf := fraction_close (T0 := t0 * timescale) (T1 := t1 * timescale) (T := t * timescale) hlt'
    (show (p0 : ℝ) ≤ x by linarith) (show x ≤ (p1 : ℝ) by have : 0 ≤ P / 2 ^ 53 := by positivity
                                                          linarith)
    (by positivity) hd1 (time_close hA hP0 timescale ht) (time_close hA hP1 timescale ht) (times_close hA xx er timescale ht)
  rw [show (t * timescale - t0 * timescale) / (t1 * timescale - t0 * timescale) = (t - t0) / (t1 - t0) by
    rw [← sub_mul, ← sub_mul, mul_div_mul_right _ _ hts.ne']] at hf
  have eF : (x / timescale - (p0 : ℝ) / timescale) / ((p1 : ℝ) / timescale - (p0 : ℝ) / timescale) = (x - p0) / (p1 - p0) := by
    rw [← sub_div, ← sub_div, div_div_div_cancel_right₀ hts.ne']
  have lX : (p0 : ℝ) / timescale < p1 / timescale := div_lt_div_of_pos_right (by linarith) hts
  have u0 : 0 ≤ (t - t0) / (t1 - t0) := div_nonneg (by linarith) (by linarith)
  have u1 : (t - t0) / (t1 - t0) ≤ 1 := by rw [div_le_one (by linarith)]; linarith
  have s0 : 0 ≤ (x - p0) / (p1 - p0) := div_nonneg (by linarith) (by linarith)
  have s1 : (x - p0) / (p1 - p0) ≤ 1 := by
    rw [div_le_one (by linarith)]
    have : 0 ≤ P / 2 ^ 53 := by positivity
    linarith
  have hsm := smooth_close s0 s1 u0 u1
  generalize hs : (x - p0) / (p1 - p0) = s at *
  generalize hu : (t - t0) / (t1 - t0) = u at *
  rw [← evaluateKeyframes_exact, eX, eR]
  rcases hc with hc | hc
  · subst hc
    simp only [if_true]
    obtain ⟨v, v', e1, e2, hd⟩ := cubicSegment_close hA (a0 : ℝ) a1 l01 l0 l1
    rw [cubicSegment_fraction _ _ _ l01, hu] at e1
    have eE : cubicSegment Arith.exact ((p0 : ℝ) / timescale) a0 ((p1 : ℝ) / timescale) a1 (x / timescale) =
        some (a0 + (a1 - a0) * ((3 - 2 * s) * s ^ 2)) := by
      rw [cubicSegment_exact, cubicSegment_fraction _ _ _ lX, eF]
    refine ⟨_, v', eE, e2, ?_⟩
    cases e1
    have q : |(a0 : ℝ) + (a1 - a0) * ((3 - 2 * u) * u ^ 2) - (a0 + (a1 - a0) * ((3 - 2 * s) * s ^ 2))| ≤
        2 * M * (2 * (10 * (P / 2 ^ 53))) := by
      rw [show (a0 : ℝ) + (a1 - a0) * ((3 - 2 * u) * u ^ 2) - (a0 + (a1 - a0) * ((3 - 2 * s) * s ^ 2)) =
        (a1 - a0) * ((3 - 2 * u) * u ^ 2 - (3 - 2 * s) * s ^ 2) by ring, abs_mul]
      exact mul_le_mul hdf (hsm.trans (by linarith)) (abs_nonneg _) (by linarith)
    have := abs_add_le (v' - (a0 + (a1 - a0) * ((3 - 2 * u) * u ^ 2)))
      ((a0 : ℝ) + (a1 - a0) * ((3 - 2 * u) * u ^ 2) - (a0 + (a1 - a0) * ((3 - 2 * s) * s ^ 2)))
    rw [sub_add_sub_cancel] at this
    have : 0 ≤ M * P := mul_nonneg hM0 hP'
    ring_nf at *
    linarith
  · subst hc
    simp only [show ¬ CurveType.Linear = CurveType.Cubic by decide, if_false, if_true]
    obtain ⟨v, v', e1, e2, hd⟩ := linearSegment_close hA (a0 : ℝ) a1 l01 l0 l1
    rw [linearSegment_fraction _ _ _ l01, hu] at e1
    have eE : linearSegment Arith.exact ((p0 : ℝ) / timescale) a0 ((p1 : ℝ) / timescale) a1 (x / timescale) =
        some (a0 + (a1 - a0) * s) := by
      rw [linearSegment_exact, linearSegment_fraction _ _ _ lX, eF]
    refine ⟨_, v', eE, e2, ?_⟩
    cases e1
    have q : |(a0 : ℝ) + (a1 - a0) * u - (a0 + (a1 - a0) * s)| ≤ 2 * M * (10 * (P / 2 ^ 53)) := by
      rw [show (a0 : ℝ) + (a1 - a0) * u - (a0 + (a1 - a0) * s) = (a1 - a0) * (u - s) by ring, abs_mul]
      exact mul_le_mul hdf hf (abs_nonneg _) (by linarith)
    have := abs_add_le (v' - (a0 + (a1 - a0) * u)) ((a0 : ℝ) + (a1 - a0) * u - (a0 + (a1 - a0) * s))
    rw [sub_add_sub_cancel] at this
    have : 0 ≤ M * P := mul_nonneg hM0 hP'
    ring_nf at *
    linarith

/-- The hypotheses of C50 are met, with the rounding of binary64: a keyframe effect at 0.1 s, in the middle of its rise. -/
example : ∃ r r', ({ position := 100, keyframes := [⟨some 0, some 0, none⟩, ⟨some 30, some (1/2), none⟩] } : Effect).evaluateKeyframes
      110.3 CurveType.Cubic 1000 = some r ∧
    evaluateKeyframes Arith.double { position := 100, keyframes := [⟨some 0, some 0, none⟩, ⟨some 30, some (1/2), none⟩] }
      110.3 CurveType.Cubic 1000 = some r' ∧ |r' - r| ≤ 1 / 2 ^ 42 := by
  obtain ⟨r, r', e1, e2, h⟩ := c50_double double_sound
    { position := 100, keyframes := [⟨some 0, some 0, none⟩, ⟨some 30, some (1/2), none⟩] } 110.3 CurveType.Cubic 1000 (by norm_num)
    (Or.inl rfl) [] [] ⟨some 0, some 0, none⟩ ⟨some 30, some (1/2), none⟩ 0 30 0 (1/2) rfl rfl rfl rfl rfl (by simp) 30
    (by norm_num) (by norm_num [abs_of_pos]) (by norm_num) (by norm_num) (by norm_num)
  refine ⟨r, r', e1, e2, h.trans ?_⟩
  norm_num [abs_of_pos]

/-! ## C51 -/

theorem rd_double {A : Arith} (hA : A.Sound) (x : ℝ) : |A.rd x| ≤ |x| * (1 + 1 / 2 ^ 53) := by
  have := abs_add_le x (A.rd x - x)
  rw [add_sub_cancel] at this
  linarith [hA.err x]

/-- C51: with any arithmetic that rounds to 53 bits, every base signal is a number of [-1,1], but for one part in `2^48` of
the number of periods and radians that have passed. -/
theorem c51_double {A : Arith} (hA : A.Sound) (e : Effect) (time frequency phase : ℝ) :
    ∃ s, computeBaseSignal A e time frequency phase = some s ∧
      |s| ≤ 1 + (|time * frequency| + |phase| + 1) / 2 ^ 48 := by
  obtain ⟨t, ht, hx⟩ : ∃ t, (if frequency ≠ 0 then
      (fdiv A phase (A.rd (A.rd (2 * A.pi) * frequency))).map (fun q => A.rd (time + q)) else some time) = some t ∧
      |A.rd (t * frequency)| ≤ 4 * (|time * frequency| + |phase|) := by
    by_cases h : frequency = 0
    · subst h
      refine ⟨time, by simp, ?_⟩
      rw [mul_zero, rd_zero hA, abs_zero]
      positivity
    · have hpi := hA.pi
      have hz : A.rd (A.rd (2 * A.pi) * frequency) ≠ 0 := rd_ne hA (mul_ne_zero (rd_ne hA (by linarith)) h)
      rw [if_pos h]
      unfold fdiv
      rw [if_neg hz]
      refine ⟨_, rfl, ?_⟩
      have r1 : Rel 3 (phase / (2 * A.pi * frequency)) (A.rd (phase / A.rd (A.rd (2 * A.pi) * frequency))) := by
        have := (((Rel.refl phase).div (((rel_rd hA (2 * A.pi)).mul (Rel.refl frequency)).rd hA)).rd hA)
        exact this
      have d1 := r1.three
      set q := A.rd (phase / A.rd (A.rd (2 * A.pi) * frequency)) with hq
      have hf : 0 < |frequency| := abs_pos.2 h
      have b0 : |phase / (2 * A.pi * frequency)| * |frequency| ≤ |phase| / 4 := by
        rw [abs_div, abs_mul, abs_of_pos (by linarith : 0 < 2 * A.pi), div_mul_eq_mul_div, mul_div_mul_right _ _ hf.ne']
        exact div_le_div_of_nonneg_left (abs_nonneg _) (by norm_num) (by linarith)
      have b1 : |q| * |frequency| ≤ |phase| / 2 := by
        have h1 := abs_add_le (phase / (2 * A.pi * frequency)) (q - phase / (2 * A.pi * frequency))
        rw [add_sub_cancel] at h1
        have h2 : |q| ≤ |phase / (2 * A.pi * frequency)| * 2 := by
          have := abs_nonneg (phase / (2 * A.pi * frequency))
          linarith
        have := mul_le_mul_of_nonneg_right h2 hf.le
        linarith
      have b2 := rd_double hA (A.rd (time + q) * frequency)
      have b3 := rd_double hA (time + q)
      have b4 : |A.rd (time + q) * frequency| ≤ 2 * (|time * frequency| + |phase| / 2) := by
        rw [abs_mul, abs_mul]
        have h1 := abs_add_le time q
        have h2 : |A.rd (time + q)| ≤ 2 * (|time| + |q|) := by
          have := abs_nonneg (time + q)
          linarith
        have := mul_le_mul_of_nonneg_right h2 hf.le
        linarith
      have := abs_nonneg phase
      have := abs_nonneg (A.rd (time + q) * frequency)
      linarith
  unfold computeBaseSignal
  dsimp only
  rw [ht]
  refine ⟨_, rfl, ?_⟩
  dsimp only
  have hN : 0 ≤ |time * frequency| + |phase| := by positivity
  have r1 : A.rd 1 = 1 := by exact_mod_cast hA.int 1 (by norm_num)
  generalize A.rd (t * frequency) = x at hx
  generalize |time * frequency| + |phase| = N at hN hx
  have hB : 1 ≤ 1 + (N + 1) / 2 ^ 48 := by
    have : 0 ≤ (N + 1) / 2 ^ 48 := by positivity
    linarith
  -- the sawtooth
  have saw : |x - ⌊A.rd (x + 1 / 2)⌋| ≤ 1 / 2 + (4 * N + 1) / 2 ^ 53 := by
    have h1 := hA.err (x + 1 / 2)
    have h2 := abs_add_le x (1 / 2)
    rw [abs_of_pos (by norm_num : (0 : ℝ) < 1 / 2)] at h2
    obtain ⟨c1, c2⟩ := abs_le.1 h1
    have f1 := Int.floor_le (A.rd (x + 1 / 2))
    have f2 := Int.lt_floor_add_one (A.rd (x + 1 / 2))
    rw [abs_le]
    constructor <;> linarith
  have saw' : ∀ z, |z| ≤ 1 / 2 + (4 * N + 1) / 2 ^ 53 → |A.rd (2 * A.rd z)| ≤ 1 + (N + 1) / 2 ^ 48 := by
    intro z hz
    have h1 := rd_double hA z
    have h2 := rd_double hA (2 * A.rd z)
    rw [abs_mul, abs_of_pos (by norm_num : (0 : ℝ) < 2)] at h2
    have h3 : |A.rd z| ≤ (1 / 2 + (4 * N + 1) / 2 ^ 53) * (1 + 1 / 2 ^ 53) :=
      h1.trans (mul_le_mul_of_nonneg_right hz (by positivity))
    have h4 : 2 * |A.rd z| * (1 + 1 / 2 ^ 53) ≤ 2 * ((1 / 2 + (4 * N + 1) / 2 ^ 53) * (1 + 1 / 2 ^ 53)) * (1 + 1 / 2 ^ 53) := by
      refine mul_le_mul_of_nonneg_right ?_ (by positivity)
      linarith
    refine h2.trans (h4.trans ?_)
    ring_nf
    linarith
  split
  · exact (hA.sin _).trans hB
  · -- square
    have h0 := Int.floor_le x
    have h1 := Int.lt_floor_add_one x
    have c0 : 0 ≤ A.rd (x - ⌊x⌋) := rd_nonneg hA (by linarith)
    have c1 : A.rd (x - ⌊x⌋) ≤ 1 := by rw [← r1]; exact hA.mono (by linarith)
    generalize A.rd (x - ⌊x⌋) = y at c0 c1
    have hy : cround y = 0 ∨ cround y = 1 := by
      unfold cround
      rw [if_pos c0]
      have g0 : 0 ≤ ⌊y + 1 / 2⌋ := Int.floor_nonneg.2 (by linarith)
      have g1 : ⌊y + 1 / 2⌋ < 2 := by
        rw [Int.floor_lt]
        push_cast
        linarith
      have : ⌊y + 1 / 2⌋ = 0 ∨ ⌊y + 1 / 2⌋ = 1 := by omega
      rcases this with h | h <;> rw [h] <;> simp
    rcases hy with h | h
    · rw [h, mul_zero, rd_zero hA, sub_zero, r1, abs_one]
      exact hB
    · have r2 : A.rd 2 = 2 := by exact_mod_cast hA.int 2 (by norm_num)
      have r3 : A.rd (-1) = -1 := by exact_mod_cast hA.int (-1) (by norm_num)
      rw [h, mul_one, r2, show (1 : ℝ) - 2 = -1 by norm_num, r3, abs_neg, abs_one]
      exact hB
  · -- triangle
    have h := cround_dist (A.rd (x - 1 / 4))
    set z := cround (A.rd (x - 1 / 4)) - A.rd (x - 1 / 4) with hz
    have h1 := rd_double hA z
    have h2 : 0 ≤ A.rd (4 * |A.rd z|) := rd_nonneg hA (by positivity)
    have h3 := rd_double hA (4 * |A.rd z|)
    rw [abs_of_nonneg h2, abs_of_nonneg (by positivity : (0 : ℝ) ≤ 4 * |A.rd z|)] at h3
    have h4 : A.rd (4 * |A.rd z|) ≤ 2 + 1 / 2 ^ 50 := by
      have : |A.rd z| ≤ 1 / 2 * (1 + 1 / 2 ^ 53) := h1.trans (mul_le_mul_of_nonneg_right h (by positivity))
      linarith
    have h5 := hA.err (1 - A.rd (4 * |A.rd z|))
    have h6 : |1 - A.rd (4 * |A.rd z|)| ≤ 1 + 1 / 2 ^ 50 := by
      rw [abs_le]
      constructor <;> linarith
    have h7 := rd_double hA (1 - A.rd (4 * |A.rd z|))
    have h8 : (1 : ℝ) + 1 / 2 ^ 49 ≤ 1 + (N + 1) / 2 ^ 48 := by
      rw [add_div]
      have : 0 ≤ N / 2 ^ 48 := by positivity
      linarith
    linarith
  · exact saw' _ saw
  · refine saw' _ ?_
    rw [abs_sub_comm]
    exact saw
  · rw [abs_one]
    exact hB

/-- A sawtooth in its second second. -/
example : ∃ s, computeBaseSignal Arith.double { position := 0, keyframes := [], baseSignal := some 3 } 1.3 80 0 = some s ∧ |s| ≤ 1 + 1 / 2 ^ 41 := by
  obtain ⟨s, e, h⟩ := c51_double double_sound { position := 0, keyframes := [], baseSignal := some 3 } 1.3 80 0
  refine ⟨s, e, h.trans ?_⟩
  norm_num [abs_of_pos]

end Haptics.Rounded
