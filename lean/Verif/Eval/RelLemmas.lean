import Verif.Eval.PropsRounded

/-! Relative errors of rounded arithmetic. -/

namespace Haptics.Rounded
open Haptics

/-- One rounding changes a number by this factor at most, up or down. -/
noncomputable def w : ℝ := 1 + 1 / 2 ^ 52

theorem w_pos : 0 < w := by unfold w; positivity
theorem one_le_w : 1 ≤ w := by unfold w; norm_num

/-- `y` is `x` after `k` roundings. -/
def Rel (k : ℕ) (x y : ℝ) : Prop := ∃ θ, y = x * θ ∧ (w ^ k)⁻¹ ≤ θ ∧ θ ≤ w ^ k

theorem Rel.refl (x : ℝ) : Rel 0 x x := ⟨1, by ring, by simp, by simp⟩

theorem Rel.mono {k m : ℕ} (h : k ≤ m) {x y : ℝ} (r : Rel k x y) : Rel m x y := by
  obtain ⟨θ, e, h1, h2⟩ := r
  have hp : w ^ k ≤ w ^ m := pow_le_pow_right₀ one_le_w h
  exact ⟨θ, e, (inv_anti₀ (pow_pos w_pos _) hp).trans h1, h2.trans hp⟩

theorem Rel.mul {k m : ℕ} {a a' b b' : ℝ} (ha : Rel k a a') (hb : Rel m b b') : Rel (k + m) (a * b) (a' * b') := by
  obtain ⟨θ, e, h1, h2⟩ := ha
  obtain ⟨η, e', h1', h2'⟩ := hb
  have p1 : 0 < (w ^ k)⁻¹ := inv_pos.2 (pow_pos w_pos _)
  have p2 : 0 < (w ^ m)⁻¹ := inv_pos.2 (pow_pos w_pos _)
  refine ⟨θ * η, by rw [e, e']; ring, ?_, ?_⟩
  · rw [pow_add, mul_inv]
    exact mul_le_mul h1 h1' p2.le (p1.le.trans h1)
  · rw [pow_add]
    exact mul_le_mul h2 h2' (p2.le.trans h1') (pow_pos w_pos _).le

theorem Rel.inv {k : ℕ} {a a' : ℝ} (ha : Rel k a a') : Rel k a⁻¹ a'⁻¹ := by
  obtain ⟨θ, e, h1, h2⟩ := ha
  have p1 : 0 < (w ^ k)⁻¹ := inv_pos.2 (pow_pos w_pos _)
  have p2 : 0 < θ := p1.trans_le h1
  refine ⟨θ⁻¹, by rw [e, mul_inv], inv_anti₀ p2 h2, ?_⟩
  rw [← inv_inv (w ^ k)]
  exact inv_anti₀ p1 h1

theorem Rel.div {k m : ℕ} {a a' b b' : ℝ} (ha : Rel k a a') (hb : Rel m b b') : Rel (k + m) (a / b) (a' / b') := by
  rw [div_eq_mul_inv, div_eq_mul_inv]
  exact ha.mul hb.inv

theorem Rel.trans {k m : ℕ} {a b c : ℝ} (h1 : Rel k a b) (h2 : Rel m b c) : Rel (k + m) a c := by
  obtain ⟨θ, e, a1, a2⟩ := h1
  obtain ⟨η, e', b1, b2⟩ := h2
  have hm : Rel (k + m) (a * 1) (a * θ * (1 * η)) := Rel.mul ⟨θ, rfl, a1, a2⟩ ⟨η, rfl, b1, b2⟩
  rw [mul_one, one_mul] at hm
  rwa [e', e]

theorem rel_of_err {k : ℕ} {x y : ℝ} (c : ℝ) (h : |y - x| ≤ |x| * c) (h1 : (w ^ k)⁻¹ ≤ 1 - c) (h2 : 1 + c ≤ w ^ k) : Rel k x y := by
  by_cases hx : x = 0
  · subst hx
    have : y = 0 := by simpa using h
    subst this
    exact ⟨1, by ring, inv_le_one_of_one_le₀ (one_le_pow₀ one_le_w), one_le_pow₀ one_le_w⟩
  · have hp := abs_pos.2 hx
    have h3 : |y / x - 1| ≤ c := by
      rw [show y / x - 1 = (y - x) / x by field_simp, abs_div, div_le_iff₀ hp]
      linarith
    obtain ⟨a, b⟩ := abs_le.1 h3
    exact ⟨y / x, by field_simp, by linarith, by linarith⟩

theorem rel_rd {A : Arith} (hA : A.Sound) (x : ℝ) : Rel 1 x (A.rd x) := by
  refine rel_of_err (1 / 2 ^ 53) ?_ ?_ ?_
  · rw [mul_one_div]; exact hA.err x
  · unfold w; norm_num
  · unfold w; norm_num

theorem rel_pow2 {A : Arith} (hA : A.Sound) (x : ℝ) : Rel 5 (x ^ 2) (A.pow2 x) := by
  refine rel_of_err (1 / 2 ^ 50) ?_ ?_ ?_
  · rw [mul_one_div]; exact hA.pow2 x
  · unfold w; norm_num
  · unfold w; norm_num

theorem rel_pow3 {A : Arith} (hA : A.Sound) (x : ℝ) : Rel 5 (x ^ 3) (A.pow3 x) := by
  refine rel_of_err (1 / 2 ^ 50) ?_ ?_ ?_
  · rw [mul_one_div]; exact hA.pow3 x
  · unfold w; norm_num
  · unfold w; norm_num

/-- The result of an operation is rounded. -/
theorem Rel.rd {A : Arith} (hA : A.Sound) {k : ℕ} {x y : ℝ} (h : Rel k x y) : Rel (k + 1) x (A.rd y) := h.trans (rel_rd hA y)

theorem Rel.nonneg {k : ℕ} {x y : ℝ} (h : Rel k x y) (hx : 0 ≤ x) : 0 ≤ y := by
  obtain ⟨θ, e, h1, h2⟩ := h
  rw [e]
  exact mul_nonneg hx ((inv_pos.2 (pow_pos w_pos _)).le.trans h1)

theorem Rel.neg {k : ℕ} {x y : ℝ} (h : Rel k x y) : Rel k (-x) (-y) := by
  obtain ⟨θ, e, h1, h2⟩ := h
  exact ⟨θ, by rw [e]; ring, h1, h2⟩

/-- Relative errors as differences. -/
theorem Rel.diff {k : ℕ} {x y c : ℝ} (h : Rel k x y) (a : w ^ k ≤ 1 + c) (b : 1 - c ≤ (w ^ k)⁻¹) : |y - x| ≤ |x| * c := by
  obtain ⟨θ, e, h1, h2⟩ := h
  rw [show y - x = x * (θ - 1) by rw [e]; ring, abs_mul]
  refine mul_le_mul_of_nonneg_left ?_ (abs_nonneg _)
  rw [abs_le]
  constructor <;> linarith

theorem Rel.two {x y : ℝ} (h : Rel 2 x y) : |y - x| ≤ |x| * (1 / 2 ^ 50) :=
  h.diff (by unfold w; norm_num) (by unfold w; norm_num)

theorem Rel.three {x y : ℝ} (h : Rel 3 x y) : |y - x| ≤ |x| * (1 / 2 ^ 50) :=
  h.diff (by unfold w; norm_num) (by unfold w; norm_num)

theorem Rel.many {k : ℕ} (hk : k ≤ 48) {x y : ℝ} (h : Rel k x y) : |y - x| ≤ |x| * (1 / 2 ^ 46) :=
  (h.mono hk).diff (by unfold w; norm_num) (by unfold w; norm_num)

/-- A linear segment, rounded. -/
theorem linearSegment_close {A : Arith} (hA : A.Sound) {t0 t1 t : ℝ} (f0 f1 : ℝ) (h : t0 < t1) (h0 : t0 ≤ t) (h1 : t ≤ t1) :
    ∃ r r', Haptics.linearSegment t0 f0 t1 f1 t = some r ∧ linearSegment A t0 f0 t1 f1 t = some r' ∧
      |r' - r| ≤ max |f0| |f1| / 2 ^ 48 := by
  have hh : 0 < t1 - t0 := by linarith
  refine ⟨(f0 * (t1 - t) + f1 * (t - t0)) / (t1 - t0), _, fdiv_of_ne hh.ne', if_neg (rd_ne hA hh.ne'), ?_⟩
  set M := max |f0| |f1| with hM
  have m0 : |f0| ≤ M := le_max_left _ _
  have m1 : |f1| ≤ M := le_max_right _ _
  have hM0 : 0 ≤ M := (abs_nonneg _).trans m0
  set n1 := A.rd (f0 * A.rd (t1 - t)) with hn1
  set n2 := A.rd (f1 * A.rd (t - t0)) with hn2
  have r1 : Rel 2 (f0 * (t1 - t)) n1 := ((Rel.refl f0).mul (rel_rd hA (t1 - t))).rd hA
  have r2 : Rel 2 (f1 * (t - t0)) n2 := ((Rel.refl f1).mul (rel_rd hA (t - t0))).rd hA
  have d1 := r1.two
  have d2 := r2.two
  rw [abs_mul, abs_of_nonneg (by linarith : 0 ≤ t1 - t)] at d1
  rw [abs_mul, abs_of_nonneg (by linarith : 0 ≤ t - t0)] at d2
  have b1 : |f0| * (t1 - t) ≤ M * (t1 - t) := mul_le_mul_of_nonneg_right m0 (by linarith)
  have b2 : |f1| * (t - t0) ≤ M * (t - t0) := mul_le_mul_of_nonneg_right m1 (by linarith)
  have r3 : Rel 3 ((n1 + n2) / (t1 - t0)) (A.rd (A.rd (n1 + n2) / A.rd (t1 - t0))) :=
    ((rel_rd hA (n1 + n2)).div (rel_rd hA (t1 - t0))).rd hA
  have d3 := r3.three
  set x := (f0 * (t1 - t) + f1 * (t - t0)) / (t1 - t0) with hx
  set y := (n1 + n2) / (t1 - t0) with hy
  have e1 : |y - x| ≤ M * (1 / 2 ^ 50) := by
    rw [hx, hy, ← sub_div, abs_div, abs_of_pos hh, div_le_iff₀ hh]
    have : |n1 + n2 - (f0 * (t1 - t) + f1 * (t - t0))| ≤ |n1 - f0 * (t1 - t)| + |n2 - f1 * (t - t0)| := by
      rw [show n1 + n2 - (f0 * (t1 - t) + f1 * (t - t0)) = (n1 - f0 * (t1 - t)) + (n2 - f1 * (t - t0)) by ring]
      exact abs_add_le _ _
    nlinarith
  have e2 : |x| ≤ M := by
    rw [hx, abs_div, abs_of_pos hh, div_le_iff₀ hh]
    refine (abs_add_le _ _).trans ?_
    rw [abs_mul, abs_mul, abs_of_nonneg (by linarith : 0 ≤ t1 - t), abs_of_nonneg (by linarith : 0 ≤ t - t0)]
    linarith
  have e3 : |y| ≤ M * (1 + 1 / 2 ^ 50) := by
    have := abs_add_le x (y - x)
    rw [add_sub_cancel] at this
    linarith
  have := abs_add_le (A.rd (A.rd (n1 + n2) / A.rd (t1 - t0)) - y) (y - x)
  rw [sub_add_sub_cancel] at this
  have : |y| * (1 / 2 ^ 50) ≤ M * (1 + 1 / 2 ^ 50) * (1 / 2 ^ 50) := mul_le_mul_of_nonneg_right e3 (by positivity)
  linarith

/-- A cubic segment, rounded. -/
theorem cubicSegment_close {A : Arith} (hA : A.Sound) {t0 t1 t : ℝ} (f0 f1 : ℝ) (h : t0 < t1) (h0 : t0 ≤ t) (h1 : t ≤ t1) :
    ∃ r r', Haptics.cubicSegment t0 f0 t1 f1 t = some r ∧ cubicSegment A t0 f0 t1 f1 t = some r' ∧
      |r' - r| ≤ max |f0| |f1| / 2 ^ 44 := by
  have hh : 0 < t1 - t0 := by linarith
  have hr : A.rd (t1 - t0) ≠ 0 := rd_ne hA hh.ne'
  refine ⟨f0 + (f1 - f0) * (3 * (t1 - t0) + 2 * (t0 - t)) * (t - t0) ^ 2 / (t1 - t0) ^ 3,
    A.rd (f0 + A.rd (A.rd (A.rd (A.rd (f1 - f0) * A.rd (A.rd (3 * A.rd (t1 - t0)) + A.rd (2 * A.rd (t0 - t))))
      * A.pow2 (A.rd (t - t0))) / A.pow3 (A.rd (t1 - t0)))), ?_, ?_, ?_⟩
  · unfold Haptics.cubicSegment
    rw [fdiv_of_ne (pow_ne_zero 3 hh.ne')]
    rfl
  · unfold cubicSegment
    dsimp only
    unfold fdiv
    rw [if_neg (pow3_ne hA hr)]
    rfl
  set M := max |f0| |f1| with hM
  have m0 : |f0| ≤ M := le_max_left _ _
  have m1 : |f1| ≤ M := le_max_right _ _
  have hM0 : 0 ≤ M := (abs_nonneg _).trans m0
  set a := A.rd (3 * A.rd (t1 - t0)) with ha
  set b := A.rd (2 * A.rd (t0 - t)) with hb
  have r1 : Rel 2 (3 * (t1 - t0)) a := ((Rel.refl 3).mul (rel_rd hA (t1 - t0))).rd hA
  have r2 : Rel 2 (2 * (t0 - t)) b := ((Rel.refl 2).mul (rel_rd hA (t0 - t))).rd hA
  have d1 := r1.two
  have d2 := r2.two
  rw [abs_of_nonneg (by linarith : 0 ≤ 3 * (t1 - t0))] at d1
  rw [abs_of_nonpos (by linarith : 2 * (t0 - t) ≤ 0)] at d2
  have r3 : Rel 21 (3 * (t1 - t0) + 2 * (t0 - t)) (a + b) := by
    refine rel_of_err (5 / 2 ^ 50) ?_ (by unfold w; norm_num) (by unfold w; norm_num)
    rw [abs_of_nonneg (by linarith : 0 ≤ 3 * (t1 - t0) + 2 * (t0 - t)),
      show a + b - (3 * (t1 - t0) + 2 * (t0 - t)) = (a - 3 * (t1 - t0)) + (b - 2 * (t0 - t)) by ring]
    refine (abs_add_le _ _).trans ?_
    linarith
  have r4 : Rel 7 ((t - t0) ^ 2) (A.pow2 (A.rd (t - t0))) := by
    have := (rel_rd hA (t - t0)).mul (rel_rd hA (t - t0))
    rw [← pow_two, ← pow_two] at this
    exact this.trans (rel_pow2 hA _)
  have r5 : Rel 8 ((t1 - t0) ^ 3) (A.pow3 (A.rd (t1 - t0))) := by
    have := ((rel_rd hA (t1 - t0)).mul (rel_rd hA (t1 - t0))).mul (rel_rd hA (t1 - t0))
    rw [← pow_two, ← pow_two, ← pow_succ, ← pow_succ] at this
    exact this.trans (rel_pow3 hA _)
  have r6 := ((((((rel_rd hA (f1 - f0)).mul (r3.rd hA)).rd hA).mul r4).rd hA).div r5).rd hA
  have d6 := r6.many (by norm_num)
  set q := (f1 - f0) * (3 * (t1 - t0) + 2 * (t0 - t)) * (t - t0) ^ 2 / (t1 - t0) ^ 3 with hq
  set q' := A.rd (A.rd (A.rd (A.rd (f1 - f0) * A.rd (a + b)) * A.pow2 (A.rd (t - t0))) / A.pow3 (A.rd (t1 - t0))) with hq'
  have hs : 0 ≤ (3 * (t1 - t0) + 2 * (t0 - t)) * (t - t0) ^ 2 / (t1 - t0) ^ 3 ∧
      (3 * (t1 - t0) + 2 * (t0 - t)) * (t - t0) ^ 2 / (t1 - t0) ^ 3 ≤ 1 := by
    constructor
    · exact div_nonneg (mul_nonneg (by linarith) (sq_nonneg _)) (by positivity)
    · rw [div_le_one (by positivity)]
      obtain ⟨u, hu⟩ : ∃ u, u = t1 - t := ⟨_, rfl⟩
      obtain ⟨v, hv⟩ : ∃ v, v = t - t0 := ⟨_, rfl⟩
      have e1 : t1 - t0 = u + v := by rw [hu, hv]; ring
      have e2 : t0 - t = -v := by rw [hv]; ring
      rw [e1, e2, ← hv]
      have hu0 : 0 ≤ u := by linarith
      have hv0 : 0 ≤ v := by linarith
      have : (u + v) ^ 3 - (3 * (u + v) + 2 * -v) * v ^ 2 = u ^ 3 + 3 * u ^ 2 * v := by ring
      have : 0 ≤ u ^ 3 + 3 * u ^ 2 * v := by positivity
      linarith
  set s := (3 * (t1 - t0) + 2 * (t0 - t)) * (t - t0) ^ 2 / (t1 - t0) ^ 3 with hs'
  have eq : q = (f1 - f0) * s := by rw [hq, hs']; ring
  have bq : |q| ≤ 2 * M := by
    rw [eq, abs_mul, abs_of_nonneg hs.1]
    have : |f1 - f0| ≤ 2 * M := (abs_sub _ _).trans (by linarith)
    nlinarith [abs_nonneg (f1 - f0), hs.2]
  have e1 : |f0 + q'| ≤ M + 2 * M * (1 + 1 / 2 ^ 46) := by
    have := abs_add_le q (q' - q)
    rw [add_sub_cancel] at this
    have := abs_add_le f0 q'
    nlinarith
  have e2 := hA.err (f0 + q')
  have := abs_add_le (A.rd (f0 + q') - (f0 + q')) (q' - q)
  rw [show A.rd (f0 + q') - (f0 + q') + (q' - q) = A.rd (f0 + q') - (f0 + q) by ring] at this
  nlinarith

end Haptics.Rounded
