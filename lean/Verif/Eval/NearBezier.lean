import Verif.Eval.NearSound
import Verif.Eval.Splines

/-! Bézier curves through points of nearly the same heights. -/

namespace Haptics
open Haptics.Splines

variable {δ : ℚ}

/-- A point of a curve and one of nearly the same height. -/
def PointNear (δ : ℚ) (p p' : Int × ℝ) : Prop := p'.1 = p.1 ∧ |p.2 - p'.2| ≤ (δ : ℝ)

/-- The parameter of a curve between points that are in order is one of the curve. -/
theorem bezierT_unit {A B : ℤ} (hA : 0 ≤ A) (hAB : A ≤ B) {i : ℕ} (hi : (i : ℤ) < B) {t : ℝ}
    (h : bezierT (A + 1) (B + 1) ((i : ℤ) + 1) = some t) : 0 ≤ t ∧ t ≤ 1 := by
  have hA' : (0 : ℝ) ≤ A := by exact_mod_cast hA
  have hAB' : (A : ℝ) ≤ B := by exact_mod_cast hAB
  have hi' : (i : ℝ) ≤ B := by exact_mod_cast hi.le
  have hi0 : (0 : ℝ) ≤ i := Nat.cast_nonneg _
  have e1 : (1 - 2 * (A + 1) + (B + 1) : ℤ) = B - 2 * A := by ring
  have e2 : ((A + 1 : ℤ) : ℝ) ^ 2 - 2 * ((i : ℤ) + 1 : ℤ) * ((A + 1 : ℤ) : ℝ) + (((i : ℤ) + 1 : ℤ) : ℝ) * 1
      + (((i : ℤ) + 1 : ℤ) : ℝ) * ((B + 1 : ℤ) : ℝ) - 1 * ((B + 1 : ℤ) : ℝ) = (A : ℝ) ^ 2 + i * (B - 2 * A) := by
    push_cast
    ring
  unfold bezierT at h
  simp only [e1, e2] at h
  by_cases hc : B - 2 * A ≠ 0
  · rw [if_pos hc] at h
    by_cases hn : (A : ℝ) ^ 2 + i * (B - 2 * A) < 0
    · rw [if_pos hn] at h; cases h
    · rw [if_neg hn] at h
      have hc' : ((B - 2 * A : ℤ) : ℝ) ≠ 0 := by exact_mod_cast hc
      unfold fdiv at h
      rw [if_neg hc'] at h
      obtain rfl := Option.some.inj h
      push_cast at hc' ⊢
      rw [show (1 - ((A : ℝ) + 1) + Real.sqrt ((A : ℝ) ^ 2 + i * (B - 2 * A))) = Real.sqrt ((A : ℝ) ^ 2 + i * (B - 2 * A)) - A by ring]
      rcases lt_or_gt_of_ne hc' with hlt | hgt
      · have h1 : Real.sqrt ((A : ℝ) ^ 2 + i * (B - 2 * A)) ≤ A := by
          rw [Real.sqrt_le_left hA']; nlinarith
        have h2 : (B : ℝ) - A ≤ Real.sqrt ((A : ℝ) ^ 2 + i * (B - 2 * A)) := by
          refine Real.le_sqrt_of_sq_le ?_
          nlinarith
        constructor
        · exact div_nonneg_of_nonpos (by linarith) hlt.le
        · rw [div_le_one_of_neg hlt]; linarith
      · have h1 : (A : ℝ) ≤ Real.sqrt ((A : ℝ) ^ 2 + i * (B - 2 * A)) := by
          refine Real.le_sqrt_of_sq_le ?_
          nlinarith
        have h2 : Real.sqrt ((A : ℝ) ^ 2 + i * (B - 2 * A)) ≤ B - A := by
          rw [Real.sqrt_le_left (by linarith)]; nlinarith
        constructor
        · exact div_nonneg (by linarith) hgt.le
        · rw [div_le_one hgt]; linarith
  · rw [if_neg hc] at h
    have hB : B = 2 * A := by omega
    have hB' : (B : ℝ) = 2 * A := by exact_mod_cast hB
    unfold fdiv at h
    split at h
    · cases h
    · obtain rfl := Option.some.inj h
      push_cast
      rw [show (1 - ((i : ℝ) + 1)) = -i by ring, show (2 * (1 - ((A : ℝ) + 1))) = -B by rw [hB']; ring, neg_div_neg_eq]
      have hpos : (0 : ℝ) < B := by exact_mod_cast (show (0 : ℤ) < B by omega)
      exact ⟨div_nonneg hi0 hpos.le, by rw [div_le_one hpos]; exact hi'⟩

theorem bezierY_near {f0 f0' f1 f1' f2 f2' t d : ℝ} (h0 : 0 ≤ t) (h1 : t ≤ 1) (ha : |f0 - f0'| ≤ d) (hb : |f1 - f1'| ≤ d)
    (hc : |f2 - f2'| ≤ d) : |bezierY f0 f1 f2 t - bezierY f0' f1' f2' t| ≤ d := by
  unfold bezierY
  rw [abs_le] at *
  have w0 : 0 ≤ (1 - t) ^ 2 := sq_nonneg _
  have w1 : 0 ≤ (1 - t) * 2 * t := mul_nonneg (mul_nonneg (by linarith) (by norm_num)) h0
  have w2 : 0 ≤ t ^ 2 := sq_nonneg _
  have hsum : (1 - t) ^ 2 + (1 - t) * 2 * t + t ^ 2 = 1 := by ring
  constructor
  · nlinarith [mul_nonneg w0 (by linarith [ha.1] : 0 ≤ f0 - f0' + d), mul_nonneg w1 (by linarith [hb.1] : 0 ≤ f1 - f1' + d),
      mul_nonneg w2 (by linarith [hc.1] : 0 ≤ f2 - f2' + d)]
  · nlinarith [mul_nonneg w0 (by linarith [ha.2] : 0 ≤ d - (f0 - f0')), mul_nonneg w1 (by linarith [hb.2] : 0 ≤ d - (f1 - f1')),
      mul_nonneg w2 (by linarith [hc.2] : 0 ≤ d - (f2 - f2'))]

theorem bezierSegment_near {p0 p0' p1 p1' p2 p2' : Int × ℝ} (h0 : PointNear δ p0 p0') (h1 : PointNear δ p1 p1') (h2 : PointNear δ p2 p2')
    (h01 : p0.1 ≤ p1.1) (h12 : p1.1 ≤ p2.1) :
    Alike (List.Forall₂ (Near δ)) (bezierSegment p0 p1 p2) (bezierSegment p0' p1' p2') := by
  unfold bezierSegment
  simp only [h0.1, h1.1, h2.1]
  split_ifs
  · exact rfl
  · show List.Forall₂ _ _ _
    rw [List.map_map, List.map_map, List.forall₂_map_left_iff, List.forall₂_map_right_iff, List.forall₂_same]
    intro i hi
    have hi : (i : ℤ) < p2.1 - p0.1 := by
      have := List.mem_range.mp hi
      omega
    simp only [Function.comp]
    cases ht : bezierT (p1.1 - p0.1 + 1) (p2.1 - p0.1 + 1) ((i : ℤ) + 1) with
    | none => trivial
    | some t =>
      obtain ⟨ht0, ht1⟩ := bezierT_unit (by omega) (by omega) hi ht
      exact bezierY_near ht0 ht1 h0.2 h1.2 h2.2

theorem bezier_near : ∀ {l l' : List (Int × ℝ)}, List.Forall₂ (PointNear δ) l l' → (l.map Prod.fst).Pairwise (· ≤ ·) →
    Alike (List.Forall₂ (Near δ)) (bezier l) (bezier l')
  | [], _, .nil, _ => rfl
  | [p], _, .cons (b := p') h .nil, _ => by
    show List.Forall₂ _ [_] [_]
    exact .cons h.2 .nil
  | [p, q], _, .cons (b := p') h (.cons (b := q') _ .nil), _ => by
    show List.Forall₂ _ [_] [_]
    exact .cons h.2 .nil
  | p0 :: p1 :: p2 :: l, _, .cons (b := p0') h0 (.cons (b := p1') h1 (.cons (b := p2') (l₂ := l') h2 h)), ho => by
    simp only [List.map_cons] at ho
    have ho1 := List.pairwise_cons.mp ho
    have ho2 := List.pairwise_cons.mp ho1.2
    have hs := bezierSegment_near h0 h1 h2 (ho1.1 _ (by simp)) (ho2.1 _ (by simp))
    have hr := bezier_near (l := p2 :: l) (l' := p2' :: l') (.cons h2 h) ho2.2
    rw [bezier, bezier]
    cases hS : bezierSegment p0 p1 p2 with
    | error x =>
      rw [hS] at hs
      cases hS' : bezierSegment p0' p1' p2' with
      | error y => rw [hS'] at hs; exact hs
      | ok y => rw [hS'] at hs; exact absurd hs id
    | ok s =>
      rw [hS] at hs
      obtain ⟨s', hS', hss⟩ := hs.ok_left
      rw [hS']
      simp only
      cases hR : bezier (p2 :: l) with
      | error x =>
        rw [hR] at hr
        cases hR' : bezier (p2' :: l') with
        | error y => rw [hR'] at hr; exact hr
        | ok y => rw [hR'] at hr; exact absurd hr id
      | ok r =>
        rw [hR] at hr
        obtain ⟨r', hR', hrr⟩ := hr.ok_left
        rw [hR']
        exact List.rel_append hss hrr

end Haptics
