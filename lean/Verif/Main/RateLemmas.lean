import Verif.Main.SpecRate
import Verif.Main.PropsSynth
import Verif.Eval.PropsCurve
import Verif.Eval.PropsRounded
import Mathlib.Tactic.LinearCombination

/-! Lemmas of C104: curves and mixtures at two sampling frequencies. -/

namespace Haptics

theorem sameTime_div {fs fs' : ℤ} (hf : 0 < fs) (hf' : 0 < fs') {i j : ℕ} (h : SameTime fs fs' i j) :
    (i : ℝ) / fs = (j : ℝ) / fs' := by
  have h1 : (0 : ℝ) < fs := by exact_mod_cast hf
  have h2 : (0 : ℝ) < fs' := by exact_mod_cast hf'
  rw [div_eq_div_iff h1.ne' h2.ne']
  exact_mod_cast h

/-! ### Curves -/

/-- A segment depends only on the proportions of the times. -/
def Homogeneous (seg : ℝ → ℝ → ℝ → ℝ → ℝ → Option ℝ) : Prop :=
  (∀ c t0 t1 f0 f1 t : ℝ, 0 < c → t0 < t1 → seg (c * t0) f0 (c * t1) f1 (c * t) = seg t0 f0 t1 f1 t) ∧
  (∀ t0 t1 f0 f1 : ℝ, t0 < t1 → seg t0 f0 t1 f1 t0 = some f0 ∧ seg t0 f0 t1 f1 t1 = some f1)

theorem linear_homogeneous : Homogeneous linearSegment := by
  refine ⟨fun c t0 t1 f0 f1 t hc h => ?_, fun t0 t1 f0 f1 h => linearSegment_ends f0 f1 h⟩
  have h1 : c * t0 < c * t1 := by nlinarith
  have h2 : t1 - t0 ≠ 0 := by linarith
  have h3 : c * t1 - c * t0 ≠ 0 := by linarith
  rw [linearSegment_eq _ _ _ h1.ne, linearSegment_eq _ _ _ h.ne]
  congr 2
  have : (c * t - c * t0) / (c * t1 - c * t0) = (t - t0) / (t1 - t0) := by
    rw [div_eq_div_iff h3 h2]; ring
  rw [this]

theorem cubic_homogeneous : Homogeneous cubicSegment := by
  refine ⟨fun c t0 t1 f0 f1 t hc h => ?_, fun t0 t1 f0 f1 h => cubicSegment_ends f0 f1 h⟩
  have h1 : c * t0 < c * t1 := by nlinarith
  have h2 : t1 - t0 ≠ 0 := by linarith
  have h3 : c * t1 - c * t0 ≠ 0 := by linarith
  rw [cubicSegment_eq _ _ _ h1.ne, cubicSegment_eq _ _ _ h.ne]
  have : (c * t - c * t0) / (c * t1 - c * t0) = (t - t0) / (t1 - t0) := by
    rw [div_eq_div_iff h3 h2]; ring
  rw [this]

/-- Keyframes at `m` samples per tick, counted from `p0`. -/
def scaled (m p0 : ℤ) (pts : List (ℤ × ℚ)) : List (ℤ × ℝ) := pts.map (fun q => (m * (q.1 - p0), (q.2 : ℝ)))

theorem scaled_split {m p0 : ℤ} {pts : List (ℤ × ℚ)} {pre post : List (ℤ × ℝ)} {q0 q1 : ℤ × ℝ}
    (h : scaled m p0 pts = pre ++ q0 :: q1 :: post) :
    ∃ a u0 u1 b, pts = a ++ u0 :: u1 :: b ∧ q0 = (m * (u0.1 - p0), (u0.2 : ℝ)) ∧ q1 = (m * (u1.1 - p0), (u1.2 : ℝ)) := by
  unfold scaled at h
  obtain ⟨a, r, rfl, -, hr⟩ := List.map_eq_append_iff.mp h
  cases r with
  | nil => cases hr
  | cons u0 r =>
    cases r with
    | nil => cases hr
    | cons u1 b =>
      simp only [List.map_cons, List.cons.injEq] at hr
      exact ⟨a, u0, u1, b, rfl, hr.1.symm, hr.2.1.symm⟩

theorem ordered_split {pts a b : List (ℤ × ℚ)} {u0 u1 : ℤ × ℚ} (ho : (pts.map Prod.fst).Pairwise (· < ·))
    (h : pts = a ++ u0 :: u1 :: b) : u0.1 < u1.1 ∧ ∀ p ∈ a, p.1 < u0.1 := by
  subst h
  rw [List.map_append, List.pairwise_append] at ho
  simp only [List.map_cons, List.pairwise_cons] at ho
  exact ⟨ho.2.1.1 _ List.mem_cons_self, fun p hp => ho.2.2 _ (List.mem_map_of_mem hp) _ List.mem_cons_self⟩

/-- The value of a curve at `x` ticks. -/
def ValueAt (seg : ℝ → ℝ → ℝ → ℝ → ℝ → Option ℝ) (p0 : ℤ) (pts : List (ℤ × ℚ)) (x : ℝ) (v : Option ℝ) : Prop :=
  ∃ a u0 u1 b, pts = a ++ u0 :: u1 :: b ∧ ((u0.1 : ℝ) - p0) ≤ x ∧ x ≤ (u1.1 : ℝ) - p0 ∧
    v = seg (u0.1 - p0) (u0.2 : ℝ) (u1.1 - p0) (u1.2 : ℝ) x

theorem isCurve_value {seg : ℝ → ℝ → ℝ → ℝ → ℝ → Option ℝ} (hs : Homogeneous seg) {m p0 : ℤ} (hm : 0 < m)
    {pts : List (ℤ × ℚ)} (ho : (pts.map Prod.fst).Pairwise (· < ·)) {r : List (Option ℝ)}
    (hr : IsCurve seg (scaled m p0 pts) r) {i : ℕ} (hi : i < r.length) :
    ∃ v, r[i]? = some v ∧ ValueAt seg p0 pts ((i : ℝ) / m) v := by
  obtain ⟨pre, q0, q1, post, h1, h2, h3, h4⟩ := hr.2 i hi
  obtain ⟨a, u0, u1, b, h5, rfl, rfl⟩ := scaled_split h1
  have hm' : (0 : ℝ) < m := by exact_mod_cast hm
  have hlt := (ordered_split ho h5).1
  have hlt' : (u0.1 : ℝ) - p0 < (u1.1 : ℝ) - p0 := by
    have : (u0.1 : ℝ) < u1.1 := by exact_mod_cast hlt
    linarith
  have h2' : (m : ℝ) * (u0.1 - p0) ≤ i := by exact_mod_cast h2
  have h3' : (i : ℝ) ≤ m * (u1.1 - p0) := by exact_mod_cast h3
  refine ⟨_, h4, a, u0, u1, b, h5, ?_, ?_, ?_⟩
  · rw [le_div_iff₀ hm']; linarith
  · rw [div_le_iff₀ hm']; linarith
  · have := hs.1 m (u0.1 - p0) (u1.1 - p0) u0.2 u1.2 ((i : ℝ) / m) hm' hlt'
    rw [← this, mul_div_cancel₀ _ hm'.ne']
    push_cast
    rfl

theorem valueAt_unique {seg : ℝ → ℝ → ℝ → ℝ → ℝ → Option ℝ} (hs : Homogeneous seg) {p0 : ℤ}
    {pts : List (ℤ × ℚ)} (ho : (pts.map Prod.fst).Pairwise (· < ·)) {x : ℝ} {v w : Option ℝ}
    (hv : ValueAt seg p0 pts x v) (hw : ValueAt seg p0 pts x w) : v = w := by
  have key : ∀ (a a' : List (ℤ × ℚ)) (u0 u1 u0' u1' : ℤ × ℚ) (b b' : List (ℤ × ℚ)), pts = a ++ u0 :: u1 :: b →
      pts = a' ++ u0' :: u1' :: b' → x ≤ (u1.1 : ℝ) - p0 → ((u0'.1 : ℝ) - p0) ≤ x → a.length < a'.length →
      seg (u0.1 - p0) (u0.2 : ℝ) (u1.1 - p0) (u1.2 : ℝ) x = seg (u0'.1 - p0) (u0'.2 : ℝ) (u1'.1 - p0) (u1'.2 : ℝ) x := by
    intro a a' u0 u1 u0' u1' b b' h1 h2 h3 h4 hl
    have hle : (u0'.1 : ℝ) ≤ u1.1 := by linarith
    have hle' : u0'.1 ≤ u1.1 := by exact_mod_cast hle
    have e : a ++ u0 :: u1 :: b = a' ++ u0' :: u1' :: b' := h1.symm.trans h2
    have hu1 : (a' ++ u0' :: u1' :: b')[a.length + 1]? = some u1 := by
      rw [← e, List.getElem?_append_right (by omega)]
      simp
    obtain ⟨hb, hpre⟩ := ordered_split ho h2
    have hu : u1 = u0' := by
      by_cases hc : a.length + 1 < a'.length
      · rw [List.getElem?_append_left hc] at hu1
        have := hpre u1 (List.mem_of_getElem? hu1)
        omega
      · rw [show a.length + 1 = a'.length by omega, List.getElem?_append_right (by omega)] at hu1
        simp at hu1
        exact hu1.symm
    subst hu
    have hx : x = (u1.1 : ℝ) - p0 := le_antisymm h3 h4
    have l1 : (u0.1 : ℝ) - p0 < (u1.1 : ℝ) - p0 := by
      have : (u0.1 : ℝ) < u1.1 := by exact_mod_cast (ordered_split ho h1).1
      linarith
    have l2 : (u1.1 : ℝ) - p0 < (u1'.1 : ℝ) - p0 := by
      have : (u1.1 : ℝ) < u1'.1 := by exact_mod_cast hb
      linarith
    rw [hx, (hs.2 _ _ _ _ l1).2, (hs.2 _ _ _ _ l2).1]
  obtain ⟨a, u0, u1, b, h1, h2, h3, rfl⟩ := hv
  obtain ⟨a', u0', u1', b', h1', h2', h3', rfl⟩ := hw
  rcases Nat.lt_trichotomy a.length a'.length with hl | hl | hl
  · exact key a a' u0 u1 u0' u1' b b' h1 h1' h3 h2' hl
  · have e := List.append_inj (h1.symm.trans h1') hl
    simp only [List.cons.injEq] at e
    obtain ⟨-, rfl, rfl, -⟩ := e
    rfl
  · exact (key a' a u0' u1' u0 u1 b' b h1' h1 h3' h2 hl).symm

theorem toSigned_small {z : ℤ} (h0 : 0 ≤ z) (h : z < 2 ^ 31) : toSigned 32 (u32 z) = z := by
  have e : (u32 z : ℤ) = z := by unfold u32; omega
  unfold toSigned
  rw [if_pos (by omega)]
  exact e

theorem u32_small {z : ℤ} (h0 : 0 ≤ z) (h : z < 2 ^ 31) : (u32 z : ℤ) = z := by
  unfold u32; omega

/-- The keyframes of a curve in samples. -/
theorem curvePoints_scaled {fs pad : ℤ} {ts : ℕ} {e : Effect} {q : ℤ × ℚ} {pts : List (ℤ × ℚ)} (hg : OnGrid fs pad ts e (q :: pts))
    {m : ℤ} (hts : 0 < ts) (hm : fs = m * ts) (hfs : 0 < fs) :
    curvePoints fs ts e.keyframes = .ok (scaled m q.1 (q :: pts)) := by
  have one : ∀ k : Keyframe, ∀ p : ℤ × ℚ, (k.relativePosition, k.amplitudeModulation) = (some p.1, some p.2) → 0 ≤ p.1 →
      p.1 * fs < 2 ^ 31 → curvePoint fs ts k = .ok (m * p.1, (p.2 : ℝ)) := by
    rintro k p hk h0 h1
    obtain ⟨hk1, hk2⟩ := Prod.mk.inj hk
    unfold curvePoint
    rw [hk1, hk2]
    simp only
    rw [if_neg hts.ne']
    have hz : 0 ≤ p.1 * fs := mul_nonneg h0 hfs.le
    have e1 : ((u32 (p.1 * fs) / ts : ℕ) : ℤ) = m * p.1 := by
      rw [Int.natCast_div, u32_small hz h1, hm, show p.1 * (m * (ts : ℤ)) = (m * p.1) * ts by ring,
        Int.mul_ediv_cancel _ (by omega)]
    have e2 : u32 (p.1 * fs) / ts < 2 ^ 31 := by
      refine lt_of_le_of_lt (Nat.div_le_self _ _) ?_
      have := u32_small hz h1
      omega
    have e3 : toSigned 32 (u32 (p.1 * fs) / ts) = m * p.1 := by
      unfold toSigned
      rw [if_pos e2, e1]
    rw [e3]
  have all : ∀ (ks : List Keyframe) (ps : List (ℤ × ℚ)), ks.map (fun k => (k.relativePosition, k.amplitudeModulation))
      = ps.map (fun p => (some p.1, some p.2)) → (∀ p ∈ ps, 0 ≤ p.1 ∧ p.1 * fs < 2 ^ 31) →
      mapE (curvePoint fs ts) ks = .ok (ps.map (fun p => (m * p.1, (p.2 : ℝ)))) := by
    intro ks
    induction ks with
    | nil =>
      intro ps h _
      cases ps with
      | nil => rfl
      | cons p ps => cases h
    | cons k ks ih =>
      intro ps h hp
      cases ps with
      | nil => cases h
      | cons p ps =>
        simp only [List.map_cons, List.cons.injEq] at h
        have h1 := one k p h.1 (hp p List.mem_cons_self).1 (hp p List.mem_cons_self).2
        have h2 := ih ps h.2 (fun x hx => hp x (List.mem_cons_of_mem _ hx))
        simp only [mapE, h1, h2, List.map_cons]
  unfold curvePoints
  rw [all e.keyframes (q :: pts) hg.points hg.early]
  simp only [List.map_cons, scaled, sub_self, mul_zero, List.map_map, Except.ok.injEq, List.cons.injEq, true_and]
  apply List.map_congr_left
  intro p _
  simp only [Function.comp_apply, Prod.mk.injEq, and_true]
  ring

theorem scaled_increasing {m p0 : ℤ} (hm : 0 < m) {pts : List (ℤ × ℚ)} (ho : (pts.map Prod.fst).Pairwise (· < ·)) :
    Increasing (scaled m p0 pts) := by
  unfold Increasing scaled
  rw [List.map_map, List.pairwise_map]
  rw [List.pairwise_map] at ho
  refine ho.imp ?_
  intro a b h
  simp only [Function.comp_apply]
  nlinarith

theorem scaled_apart {m p0 : ℤ} (hm : 2 ≤ m) {pts : List (ℤ × ℚ)} (ho : (pts.map Prod.fst).Pairwise (· < ·)) :
    EndApart (scaled m p0 pts) := by
  intro pre a b h _
  obtain ⟨c, u0, u1, d, h1, rfl, rfl⟩ := scaled_split h
  have := (ordered_split ho h1).1
  show m * (u0.1 - p0) + 2 ≤ m * (u1.1 - p0)
  nlinarith

theorem scaled_last (m p0 : ℤ) (q : ℤ × ℚ) (pts : List (ℤ × ℚ)) :
    ((scaled m p0 (q :: pts)).getLastD (0, 0)).1 = m * (((q :: pts).getLastD (0, 0)).1 - p0) := by
  unfold scaled
  rw [List.map_cons, List.getLastD_cons, List.getLastD_cons]
  induction pts generalizing q with
  | nil => rfl
  | cons x l ih => rw [List.map_cons, List.getLastD_cons, List.getLastD_cons]; exact ih x

/-- What a curve effect adds to sample `i`. -/
theorem addCurve_get {amp curve r : List (Option ℝ)} {last position : ℤ} (h0 : 0 ≤ position) (h : addCurve amp curve last position = .ok r) :
    r.length = amp.length ∧ ∀ i, i < amp.length →
      (position ≤ i ∧ (i : ℤ) - position ≤ last → ((i : ℤ) - position).toNat < curve.length ∧
        r[i]? = some (fadd (amp.getD i (some 0)) (curve.getD ((i : ℤ) - position).toNat (some 0)))) ∧
      (¬ (position ≤ i ∧ (i : ℤ) - position ≤ last) → r[i]? = some (amp.getD i (some 0))) := by
  unfold addCurve at h
  simp only at h
  split at h
  · cases h
  · rename_i hany
    have := Except.ok.inj h
    subst this
    refine ⟨by simp, fun i hi => ?_⟩
    have hget : ∀ f : ℕ → Option ℝ, ((List.range amp.length).map f)[i]? = some (f i) := by
      intro f
      rw [List.getElem?_map, List.getElem?_range hi]
      rfl
    rw [hget]
    have hneg : (-position).toNat = 0 := by omega
    constructor
    · rintro ⟨h1, h2⟩
      have ht : decide (position.toNat ≤ i ∧ ((i - position.toNat + (-position).toNat : ℕ) : ℤ) ≤ last) = true := by
        rw [decide_eq_true_iff]; omega
      have e : i - position.toNat + (-position).toNat = ((i : ℤ) - position).toNat := by omega
      rw [if_pos ht, e]
      refine ⟨?_, rfl⟩
      by_contra hc
      apply hany
      rw [List.any_eq_true]
      refine ⟨i, List.mem_range.mpr hi, ?_⟩
      rw [Bool.and_eq_true]
      refine ⟨ht, ?_⟩
      rw [decide_eq_true_iff, e]
      omega
    · intro hn
      rw [if_neg]
      rw [decide_eq_true_iff]
      omega

/-- Signals of `n` and `n'` samples that agree at common times. -/
def Agree (fs fs' : ℤ) (n n' : ℕ) (s s' : List (Option ℝ)) : Prop :=
  s.length = n ∧ s'.length = n' ∧ AgreeInTime fs fs' s s'

theorem interpolate_curve {other : Nat → List (Int × ℝ) → Except Err (List (Option ℝ))} {ct : ℕ} (hct : ¬ (3 ≤ ct ∧ ct ≤ 5)) :
    ∃ seg, Homogeneous seg ∧ ∀ (pts : List (ℤ × ℚ)) (p0 m : ℤ) (r : List (Option ℝ)), 2 ≤ m →
      (pts.map Prod.fst).Pairwise (· < ·) → 2 ≤ pts.length → pts.head?.map Prod.fst = some p0 →
      interpolateCurve other ct (scaled m p0 pts) = .ok r → IsCurve seg (scaled m p0 pts) r := by
  have key : ∀ seg : ℝ → ℝ → ℝ → ℝ → ℝ → Option ℝ, ∀ (pts : List (ℤ × ℚ)) (p0 m : ℤ) (r : List (Option ℝ)), 2 ≤ m →
      (pts.map Prod.fst).Pairwise (· < ·) → 2 ≤ pts.length → pts.head?.map Prod.fst = some p0 →
      interpolation2 seg ((scaled m p0 pts).getLastD (0, 0)).1 0 (scaled m p0 pts) = .ok r →
      IsCurve seg (scaled m p0 pts) r := by
    intro seg pts p0 m r hm ho h2 hh hr
    match pts, h2, hh with
    | a :: b :: l, _, hh =>
      have ha : a.1 = p0 := Option.some.inj hh
      have e : scaled m p0 (a :: b :: l) = (m * (a.1 - p0), (a.2 : ℝ)) :: (m * (b.1 - p0), (b.2 : ℝ)) :: scaled m p0 l := rfl
      have hinc := scaled_increasing (p0 := p0) (by omega : 0 < m) ho
      have hend := scaled_apart (p0 := p0) hm ho
      rw [e] at hinc hend hr ⊢
      obtain ⟨r', hr', hc⟩ := c52_partial seg _ _ _ (by simp [ha]) hinc hend
      rw [hr'] at hr
      have := Except.ok.inj hr
      subst this
      exact hc
  by_cases hl : ct = CurveType.Linear
  · refine ⟨linearSegment, linear_homogeneous, fun pts p0 m r hm ho h2 hh hr => key _ pts p0 m r hm ho h2 hh ?_⟩
    unfold interpolateCurve at hr
    simp only at hr
    rwa [if_pos hl] at hr
  · refine ⟨cubicSegment, cubic_homogeneous, fun pts p0 m r hm ho h2 hh hr => key _ pts p0 m r hm ho h2 hh ?_⟩
    unfold interpolateCurve at hr
    simp only at hr
    rwa [if_neg hl, if_neg hct] at hr

/-- An interpolation of three or more keyframes depends only on the proportions of their times. -/
def Proportional (other : Nat → List (Int × ℝ) → Except Err (List (Option ℝ))) (ct : ℕ) : Prop :=
  ∀ (pts : List (ℤ × ℚ)) (p0 m m' : ℤ) (c c' : List (Option ℝ)), 2 ≤ m → 2 ≤ m' → (pts.map Prod.fst).Pairwise (· < ·) → 3 ≤ pts.length →
    pts.head?.map Prod.fst = some p0 → interpolateCurve other ct (scaled m p0 pts) = .ok c → interpolateCurve other ct (scaled m' p0 pts) = .ok c' →
    ∀ a b : ℕ, a < c.length → b < c'.length → (a : ℤ) * m' = b * m → c[a]? = c'[b]?

theorem proportional_segments {other : Nat → List (Int × ℝ) → Except Err (List (Option ℝ))} {ct : ℕ} (hct : ¬ (3 ≤ ct ∧ ct ≤ 5)) : Proportional other ct := by
  intro pts p0 m m' c c' hm hm' ho h3 hh hc hc' a b ha hb hab
  obtain ⟨seg, hseg, hcurve⟩ := interpolate_curve (other := other) hct
  have c1 := hcurve _ _ _ _ hm ho (by omega) hh hc
  have c2 := hcurve _ _ _ _ hm' ho (by omega) hh hc'
  obtain ⟨x, gx, vx⟩ := isCurve_value hseg (by omega) ho c1 ha
  obtain ⟨y, gy, vy⟩ := isCurve_value hseg (by omega) ho c2 hb
  have hq : (a : ℝ) / m = (b : ℝ) / m' := by
    have r1 : (m : ℝ) ≠ 0 := by exact_mod_cast (show m ≠ 0 by omega)
    have r2 : (m' : ℝ) ≠ 0 := by exact_mod_cast (show m' ≠ 0 by omega)
    rw [div_eq_div_iff r1 r2]
    exact_mod_cast hab
  rw [hq] at vx
  rw [gx, gy, valueAt_unique hseg ho vx vy]

theorem addCurveEffect_agree {other : Nat → List (Int × ℝ) → Except Err (List (Option ℝ))} {ct : ℕ} (hprop : Proportional other ct)
    {fs fs' pad : ℤ} {ts n n' : ℕ} (hf : 0 < fs) (hf' : 0 < fs') {e : Effect} {pts : List (ℤ × ℚ)} (hg : OnGrid fs pad ts e pts)
    (hg' : OnGrid fs' pad ts e pts) {amp amp' r r' : List (Option ℝ)} (ha : Agree fs fs' n n' amp amp')
    (h : addCurveEffect other ct fs pad ts amp e = .ok r) (h' : addCurveEffect other ct fs' pad ts amp' e = .ok r') :
    Agree fs fs' n n' r r' := by
  obtain ⟨m, hm2, hm⟩ := hg.ticks
  obtain ⟨m', hm2', hm'⟩ := hg'.ticks
  have hts : 0 < ts := by
    rcases Nat.eq_zero_or_pos ts with h0 | h0
    · subst h0; simp at hm; omega
    · exact h0
  cases pts with
  | nil => have := hg.several; simp at this
  | cons q pts =>
    have hlen : (scaled m q.1 (q :: pts)).length = (q :: pts).length := by simp [scaled]
    have hlen' : (scaled m' q.1 (q :: pts)).length = (q :: pts).length := by simp [scaled]
    unfold addCurveEffect at h h'
    rw [curvePoints_scaled hg hts hm hf] at h
    rw [curvePoints_scaled hg' hts hm' hf'] at h'
    simp only [hlen, hlen'] at h h'
    by_cases h2 : (q :: pts).length = 2
    · rw [if_pos h2] at h h'
      split at h
      · cases h
      · split at h'
        · cases h'
        · have e1 := Except.ok.inj h
          have e2 := Except.ok.inj h'
          subst e1 e2
          exact ha
    · rw [if_neg h2] at h h'
      split at h
      · cases h
      · rename_i curve hc
        split at h'
        · cases h'
        · rename_i curve' hc'
          have h3 : 3 ≤ (q :: pts).length := by have := hg.several; omega
          have hval := hprop _ _ _ _ _ _ hm2 hm2' hg.ordered h3 rfl hc hc'
          have hs0 : 0 ≤ (e.position + pad) * fs * ts := mul_nonneg (mul_nonneg hg.start.1 hf.le) (by omega)
          have hs0' : 0 ≤ (e.position + pad) * fs' * ts := mul_nonneg (mul_nonneg hg.start.1 hf'.le) (by omega)
          rw [toSigned_small hs0 hg.start.2] at h
          rw [toSigned_small hs0' hg'.start.2] at h'
          obtain ⟨l1, g1⟩ := addCurve_get hs0 h
          obtain ⟨l2, g2⟩ := addCurve_get hs0' h'
          obtain ⟨a1, a2, a3⟩ := ha
          refine ⟨l1.trans a1, l2.trans a2, fun i j hi hj ht => ?_⟩
          rw [l1] at hi
          rw [l2] at hj
          obtain ⟨p1, n1⟩ := g1 i hi
          obtain ⟨p2, n2⟩ := g2 j hj
          have hamp : amp.getD i (some 0) = amp'.getD j (some 0) := by
            have := a3 i j hi hj ht
            rw [List.getD_eq_getElem?_getD (l := amp), List.getD_eq_getElem?_getD (l := amp'), this]
          have hij : (i : ℤ) * m' = j * m := by
            unfold SameTime at ht
            rw [hm, hm'] at ht
            have ht2 : ((i : ℤ) * m') * ts = (j * m) * ts := by linarith
            exact mul_right_cancel₀ (by omega) ht2
          rw [hm] at p1 n1 hs0
          rw [hm'] at p2 n2 hs0'
          rw [scaled_last] at p1 n1 p2 n2
          generalize ((q :: pts).getLastD (0, 0)).1 - q.1 = L at p1 n1 p2 n2
          have hS : ∀ x : ℤ, (e.position + pad) * (x * ts) * ts = (e.position + pad) * ts * ts * x := fun x => by ring
          rw [hS] at p1 n1 hs0
          rw [hS] at p2 n2 hs0'
          generalize (e.position + pad) * ts * ts = S at p1 n1 p2 n2 hs0 hs0'
          have hm0 : 0 < m := by omega
          have hm0' : 0 < m' := by omega
          have iff1 : (S * m ≤ i ∧ (i : ℤ) - S * m ≤ m * L) ↔ (S * m' ≤ j ∧ (j : ℤ) - S * m' ≤ m' * L) := by
            constructor
            · rintro ⟨x, y⟩
              constructor
              · by_contra hcon
                nlinarith
              · by_contra hcon
                nlinarith
            · rintro ⟨x, y⟩
              constructor
              · by_contra hcon
                nlinarith
              · by_contra hcon
                nlinarith
          by_cases ht1 : S * m ≤ i ∧ (i : ℤ) - S * m ≤ m * L
          · obtain ⟨k1, v1⟩ := p1 ht1
            obtain ⟨k2, v2⟩ := p2 (iff1.mp ht1)
            rw [v1, v2, hamp]
            have z1 : ((((i : ℤ) - S * m).toNat : ℕ) : ℤ) = (i : ℤ) - S * m := by have := ht1.1; omega
            have z2 : ((((j : ℤ) - S * m').toNat : ℕ) : ℤ) = (j : ℤ) - S * m' := by have := (iff1.mp ht1).1; omega
            have z : ((((i : ℤ) - S * m).toNat : ℕ) : ℤ) * m' = ((((j : ℤ) - S * m').toNat : ℕ) : ℤ) * m := by
              rw [z1, z2]; linear_combination hij
            rw [List.getD_eq_getElem?_getD (l := curve), List.getD_eq_getElem?_getD (l := curve'), hval _ _ k1 k2 z]
          · rw [n1 ht1, n2 (fun hcon => ht1 (iff1.mpr hcon)), hamp]

theorem foldE_agree {fs fs' : ℤ} {n n' : ℕ} {f f' : List (Option ℝ) → Effect → Except Err (List (Option ℝ))} (l : List Effect)
    (hstep : ∀ e ∈ l, ∀ s s' r r', Agree fs fs' n n' s s' → f s e = .ok r → f' s' e = .ok r' → Agree fs fs' n n' r r') :
    ∀ {s s' r r' : List (Option ℝ)}, Agree fs fs' n n' s s' → foldE f s l = .ok r → foldE f' s' l = .ok r' → Agree fs fs' n n' r r' := by
  induction l with
  | nil =>
    intro s s' r r' ha h h'
    cases h; cases h'; exact ha
  | cons e l ih =>
    intro s s' r r' ha h h'
    unfold foldE at h h'
    split at h
    · cases h
    · rename_i s1 hs1
      split at h'
      · cases h'
      · rename_i s1' hs1'
        exact ih (fun x hx => hstep x (List.mem_cons_of_mem _ hx)) (hstep e List.mem_cons_self _ _ _ _ ha hs1 hs1') h h'

theorem agree_silence (fs fs' : ℤ) (n n' : ℕ) :
    Agree fs fs' n n' (List.replicate n (some 0)) (List.replicate n' (some 0)) := by
  refine ⟨by simp, by simp, fun i j hi hj _ => ?_⟩
  rw [List.length_replicate] at hi hj
  rw [List.getElem?_replicate_of_lt hi, List.getElem?_replicate_of_lt hj]

theorem mapE_agree {fs fs' : ℤ} {n n' : ℕ} {f f' : ℕ → Except Err (Option ℝ)} (hff : ∀ i j, SameTime fs fs' i j → f i = f' j)
    {s s' : List (Option ℝ)} (h : mapE f (List.range n) = .ok s) (h' : mapE f' (List.range n') = .ok s') :
    Agree fs fs' n n' s s' := by
  obtain ⟨l1, g1⟩ := SynthMain.mapE_get _ _ _ h
  obtain ⟨l2, g2⟩ := SynthMain.mapE_get _ _ _ h'
  rw [List.length_range] at l1 l2
  refine ⟨l1, l2, fun i j hi hj ht => ?_⟩
  obtain ⟨x, hx, fx⟩ := g1 i i (List.getElem?_range (by omega))
  obtain ⟨y, hy, fy⟩ := g2 j j (List.getElem?_range (by omega))
  have := hff i j ht
  rw [fx, fy] at this
  rw [hx, hy, Except.ok.inj this]

theorem zipWith_agree {fs fs' : ℤ} {n n' : ℕ} (g : Option ℝ → Option ℝ → Option ℝ) {a a' b b' : List (Option ℝ)}
    (ha : Agree fs fs' n n' a a') (hb : Agree fs fs' n n' b b') :
    Agree fs fs' n n' (List.zipWith g a b) (List.zipWith g a' b') := by
  obtain ⟨a1, a2, a3⟩ := ha
  obtain ⟨b1, b2, b3⟩ := hb
  have e1 : (List.zipWith g a b).length = n := by rw [List.length_zipWith]; omega
  have e2 : (List.zipWith g a' b').length = n' := by rw [List.length_zipWith]; omega
  refine ⟨e1, e2, fun i j hi hj ht => ?_⟩
  rw [e1] at hi
  rw [e2] at hj
  rw [List.getElem?_zipWith, List.getElem?_zipWith, a3 i j (by omega) (by omega) ht, b3 i j (by omega) (by omega) ht]

end Haptics
