import Verif.Eval.PropsRender

namespace Haptics

/-! ## C52: synthesis of curves -/

theorem increasing_cons {p0 p1 : ℤ × ℝ} {l : List (ℤ × ℝ)} (h : Increasing (p0 :: p1 :: l)) :
    p0.1 < p1.1 ∧ Increasing (p1 :: l) := by
  unfold Increasing at *
  simp only [List.map_cons, List.pairwise_cons] at *
  exact ⟨h.1 _ List.mem_cons_self, h.2⟩

theorem increasing_last {p0 : ℤ × ℝ} {l : List (ℤ × ℝ)} (h : Increasing (p0 :: l)) (q : ℤ × ℝ)
    (hq : q ∈ l) : p0.1 < q.1 := by
  unfold Increasing at h
  simp only [List.map_cons, List.pairwise_cons] at h
  exact h.1 _ (List.mem_map_of_mem hq)

theorem interpolation2_curve (seg : ℝ → ℝ → ℝ → ℝ → ℝ → Option ℝ) (l : List (ℤ × ℝ)) (p0 : ℤ × ℝ)
    (t : Nat) (hinc : Increasing (p0 :: l)) (hl : l ≠ []) (h0 : p0.1 ≤ t) (h1 : (t : ℤ) ≤ p0.1 + 1)
    (hgap : ∀ pre a b, p0 :: l = pre ++ [a, b] → (pre = [] ∧ (t : ℤ) = p0.1) ∨ a.1 + 2 ≤ b.1) :
    ∃ r, interpolation2 seg ((p0 :: l).getLastD (0, 0)).1 t (p0 :: l) = .ok r ∧
      (r.length : ℤ) = ((p0 :: l).getLastD (0, 0)).1 + 1 - t ∧
      ∀ i : Nat, i < r.length → ∃ pre q0 q1 post, p0 :: l = pre ++ q0 :: q1 :: post ∧
        q0.1 ≤ ((t + i : Nat) : ℤ) ∧ ((t + i : Nat) : ℤ) ≤ q1.1 ∧
        r[i]? = some (seg q0.1 q0.2 q1.1 q1.2 ((t + i : Nat) : ℝ)) := by
  induction l generalizing p0 t with
  | nil => exact absurd rfl hl
  | cons p1 l ih =>
    obtain ⟨h01, hinc'⟩ := increasing_cons hinc
    have hcase : ∃ r', interpolation2 seg ((p0 :: p1 :: l).getLastD (0, 0)).1 (t + (p1.1 + 1 - t).toNat) (p1 :: l)
        = .ok r' ∧ (t : ℤ) < ((p0 :: p1 :: l).getLastD (0, 0)).1 ∧
        (r'.length : ℤ) = ((p0 :: p1 :: l).getLastD (0, 0)).1 - p1.1 ∧
        ∀ i < r'.length, ∃ pre q0 q1 post, p1 :: l = pre ++ q0 :: q1 :: post ∧
          q0.1 ≤ (p1.1 + 1 + i) ∧ (p1.1 + 1 + i) ≤ q1.1 ∧
          r'[i]? = some (seg q0.1 q0.2 q1.1 q1.2 ((p1.1 + 1 + i : ℤ) : ℝ)) := by
      have htn : ((t + (p1.1 + 1 - t).toNat : Nat) : ℤ) = p1.1 + 1 := by omega
      cases l with
      | nil =>
        have hlast : ([p0, p1].getLastD (0, 0)).1 = p1.1 := rfl
        have ht : (t : ℤ) < p1.1 := by
          rcases hgap [] p0 p1 rfl with ⟨-, h⟩ | h <;> omega
        refine ⟨[], ?_, by rw [hlast]; exact ht, by rw [hlast]; simp, by simp⟩
        unfold interpolation2
        rw [if_neg (by rw [hlast, htn]; omega)]
      | cons p2 l =>
        have hlast : (p0 :: p1 :: p2 :: l).getLastD (0, 0) = (p1 :: p2 :: l).getLastD (0, 0) := rfl
        rw [hlast]
        obtain ⟨r', hr', hlen, hi⟩ := ih p1 (t + (p1.1 + 1 - t).toNat) hinc' (by simp)
          (by omega) (by omega) (by
            intro pre a b hpre
            rcases hgap (p0 :: pre) a b (by rw [hpre]; rfl) with ⟨h, -⟩ | h
            · cases h
            · exact Or.inr h)
        refine ⟨r', hr', ?_, by omega, ?_⟩
        · have hm : (p1 :: p2 :: l).getLastD (0, 0) ∈ p2 :: l := by
            rw [List.getLastD_cons, List.getLastD_cons]
            rcases List.eq_nil_or_concat l with rfl | ⟨l', x, rfl⟩
            · simp
            · simp
          have := increasing_last hinc' _ hm
          omega
        · intro i hi'
          obtain ⟨pre, q0, q1, post, h2, h3, h4, h5⟩ := hi i hi'
          have e : ((t + (p1.1 + 1 - t).toNat + i : Nat) : ℤ) = p1.1 + 1 + i := by omega
          refine ⟨pre, q0, q1, post, h2, by omega, by omega, ?_⟩
          rw [h5]
          congr 2
          rw [← e]
          push_cast
          rfl
    obtain ⟨r', hr', hlt, hlen, hi⟩ := hcase
    unfold interpolation2
    rw [if_pos hlt]
    dsimp only
    rw [hr']
    have hn : (segmentSamples seg p0 p1 t (p1.1 + 1 - t).toNat).length = (p1.1 + 1 - t).toNat := by
      simp [segmentSamples]
    refine ⟨_, rfl, ?_, ?_⟩
    · rw [List.length_append, hn]; push_cast; omega
    · intro i hi'
      by_cases hlt' : i < (p1.1 + 1 - t).toNat
      · refine ⟨[], p0, p1, l, rfl, by omega, by omega, ?_⟩
        rw [List.getElem?_append_left (by rw [hn]; exact hlt')]
        rw [segmentSamples, List.getElem?_map, List.getElem?_range hlt']
        rfl
      · rw [List.length_append, hn] at hi'
        obtain ⟨pre, q0, q1, post, h2, h3, h4, h5⟩ := hi (i - (p1.1 + 1 - t).toNat) (by omega)
        have e : p1.1 + 1 + ((i - (p1.1 + 1 - t).toNat : Nat) : ℤ) = (t + i : Nat) := by omega
        rw [e] at h3 h4 h5
        refine ⟨p0 :: pre, q0, q1, post, by rw [h2]; rfl, h3, h4, ?_⟩
        rw [List.getElem?_append_right (by rw [hn]; omega), hn, h5]
        push_cast
        rfl

/-- C52: the interpolated signal is the curve through the keyframes, if the keyframes increase, start at
sample 0 and the last two are not at neighbouring samples (the full property has no such exception: see
`c52_negation`). -/
theorem c52_partial (seg : ℝ → ℝ → ℝ → ℝ → ℝ → Option ℝ) (p0 p1 : ℤ × ℝ) (l : List (ℤ × ℝ))
    (h0 : p0.1 = 0) (hinc : Increasing (p0 :: p1 :: l)) (hend : EndApart (p0 :: p1 :: l)) :
    ∃ r, interpolation2 seg ((p0 :: p1 :: l).getLastD (0, 0)).1 0 (p0 :: p1 :: l) = .ok r ∧
      IsCurve seg (p0 :: p1 :: l) r := by
  obtain ⟨r, hr, hlen, hi⟩ := interpolation2_curve seg (p1 :: l) p0 0 hinc (by simp) (by omega) (by omega) (by
    intro pre a b hpre
    by_cases hp : pre = []
    · exact Or.inl ⟨hp, by omega⟩
    · exact Or.inr (hend pre a b hpre hp))
  refine ⟨r, hr, by omega, ?_⟩
  intro i hi'
  obtain ⟨pre, q0, q1, post, h2, h3, h4, h5⟩ := hi i hi'
  rw [Nat.zero_add] at h3 h4 h5
  exact ⟨pre, q0, q1, post, h2, h3, h4, h5⟩

theorem increasing_append {pre post : List (ℤ × ℝ)} {q0 q1 : ℤ × ℝ}
    (h : Increasing (pre ++ q0 :: q1 :: post)) :
    q0.1 < q1.1 ∧ (∀ p ∈ pre, p.1 < q0.1) ∧ (∀ p ∈ post, q1.1 < p.1) := by
  unfold Increasing at h
  rw [List.map_append, List.pairwise_append] at h
  simp only [List.map_cons, List.pairwise_cons] at h
  refine ⟨h.2.1.1 _ List.mem_cons_self, ?_, ?_⟩
  · intro p hp
    exact h.2.2 _ (List.mem_map_of_mem hp) _ List.mem_cons_self
  · intro p hp
    exact h.2.1.2.1 _ (List.mem_map_of_mem hp)

/-- C52: a linear or cubic curve passes through every keyframe and stays between neighbouring ones. -/
theorem c52_shape (pts : List (ℤ × ℝ)) (r : List (Option ℝ)) (hinc : Increasing pts)
    (hr : IsCurve linearSegment pts r ∨ IsCurve cubicSegment pts r) :
    (∀ p ∈ pts, 0 ≤ p.1 → p.1 < r.length → r[p.1.toNat]? = some (some p.2)) ∧
    (∀ i : Nat, i < r.length → ∃ pre q0 q1 post v, pts = pre ++ q0 :: q1 :: post ∧ q0.1 ≤ (i : ℤ) ∧ (i : ℤ) ≤ q1.1 ∧
      r[i]? = some (some v) ∧ Between q0.2 q1.2 v) := by
  constructor
  · intro p hp hp0 hpl
    have e : ((p.1.toNat : Nat) : ℤ) = p.1 := by omega
    have er : ((p.1.toNat : Nat) : ℝ) = (p.1 : ℝ) := by exact_mod_cast e
    have key : ∀ seg : ℝ → ℝ → ℝ → ℝ → ℝ → Option ℝ,
        (∀ t0 t1 f0 f1 : ℝ, t0 < t1 → seg t0 f0 t1 f1 t0 = some f0 ∧ seg t0 f0 t1 f1 t1 = some f1) →
        IsCurve seg pts r → r[p.1.toNat]? = some (some p.2) := by
      intro seg hseg hc
      obtain ⟨pre, q0, q1, post, h2, h3, h4, h5⟩ := hc.2 p.1.toNat (by omega)
      rw [h2] at hinc hp
      obtain ⟨hlt, hpre, hpost⟩ := increasing_append hinc
      have hltr : (q0.1 : ℝ) < q1.1 := by exact_mod_cast hlt
      rcases List.mem_append.mp hp with h | h
      · have := hpre p h; omega
      · rcases List.mem_cons.mp h with rfl | h
        · rw [h5, er, (hseg _ _ _ _ hltr).1]
        · rcases List.mem_cons.mp h with rfl | h
          · rw [h5, er, (hseg _ _ _ _ hltr).2]
          · have := hpost p h; omega
    rcases hr with hr | hr
    · exact key _ (fun t0 t1 f0 f1 h => linearSegment_ends f0 f1 h) hr
    · exact key _ (fun t0 t1 f0 f1 h => cubicSegment_ends f0 f1 h) hr
  · intro i hi
    have key : ∀ seg : ℝ → ℝ → ℝ → ℝ → ℝ → Option ℝ,
        (∀ t0 t1 t f0 f1 : ℝ, t0 < t1 → t0 ≤ t → t ≤ t1 →
          ∃ v, seg t0 f0 t1 f1 t = some v ∧ Between f0 f1 v) →
        IsCurve seg pts r → ∃ pre q0 q1 post v, pts = pre ++ q0 :: q1 :: post ∧ q0.1 ≤ (i : ℤ) ∧ (i : ℤ) ≤ q1.1 ∧
          r[i]? = some (some v) ∧ Between q0.2 q1.2 v := by
      intro seg hseg hc
      obtain ⟨pre, q0, q1, post, h2, h3, h4, h5⟩ := hc.2 i hi
      have hinc' := hinc
      rw [h2] at hinc'
      obtain ⟨hlt, -, -⟩ := increasing_append hinc'
      have hltr : (q0.1 : ℝ) < q1.1 := by exact_mod_cast hlt
      obtain ⟨v, hv, hb⟩ := hseg q0.1 q1.1 i q0.2 q1.2 hltr (by exact_mod_cast h3) (by exact_mod_cast h4)
      exact ⟨pre, q0, q1, post, v, h2, h3, h4, by rw [h5, hv], hb⟩
    rcases hr with hr | hr
    · exact key _ (fun t0 t1 t f0 f1 h h0 h1 => linearSegment_between f0 f1 h h0 h1) hr
    · exact key _ (fun t0 t1 t f0 f1 h h0 h1 => cubicSegment_between f0 f1 h h0 h1) hr

example : Increasing [(0, 0), (4, 1), (9, 0)] ∧ EndApart [(0, 0), (4, 1), (9, 0)] := by
  constructor
  · simp [Increasing]
  · intro pre a b h _
    have h' := congrArg List.reverse h
    simp at h'
    obtain ⟨rfl, rfl, -⟩ := h'
    norm_num

/-- C52 is false of the code: when the last two keyframes are at neighbouring samples the signal ends one
sample early, whatever the interpolation. -/
theorem c52_negation (seg : ℝ → ℝ → ℝ → ℝ → ℝ → Option ℝ) :
    ∃ r, interpolation2 seg 3 0 [(0, 0), (2, 1), (3, 0)] = .ok r ∧ r.length = 3 ∧
      ¬ IsCurve seg [(0, 0), (2, 1), (3, 0)] r := by
  refine ⟨segmentSamples seg (0, 0) (2, 1) 0 3 ++ [], ?_, by simp [segmentSamples], ?_⟩
  · simp [interpolation2]
  · rintro ⟨h, -⟩
    simp [segmentSamples] at h

/-- … and the sample that is missing is then read: with these keyframes `EvaluationBand` reads past the end
of the interpolated signal. -/
theorem c52_out_of_bounds (other : Nat → List (Int × ℝ) → Except Err (List (Option ℝ))) (n : Nat)
    (hn : 4 ≤ n) :
    addCurveEffect other CurveType.Linear 1000 0 1000 (List.replicate n (some 0))
      { keyframes := [⟨some 0, some 0, none⟩, ⟨some 2, some 1, none⟩, ⟨some 3, some 0, none⟩] }
      = .error .ub := by
  have hp : curvePoints 1000 1000 [⟨some 0, some 0, none⟩, ⟨some 2, some 1, none⟩, ⟨some 3, some 0, none⟩]
      = .ok [(0, 0), (2, 1), (3, 0)] := by
    simp [curvePoints, mapE, curvePoint, u32, toSigned]
  obtain ⟨r, hr, hlen, -⟩ := c52_negation linearSegment
  unfold addCurveEffect
  simp only [hp]
  rw [if_neg (by simp)]
  have hi : interpolateCurve other CurveType.Linear [(0, 0), (2, 1), (3, 0)] = .ok r := by
    simpa [interpolateCurve] using hr
  rw [hi]
  unfold addCurve
  dsimp only
  rw [if_pos]
  rw [List.any_eq_true]
  refine ⟨3, ?_, ?_⟩
  · rw [List.mem_range]; simp; omega
  · simp [u32, toSigned, hlen]

/-! ## C53: curve effects sound at their own time -/

/-- C53 for effects at the beginning of the rendered signal, with three or more keyframes (the property
asks for all effects: see the negations below): sample `i` of the effect is added to sample `i` of the
band, and nothing else changes. -/
theorem c53_partial (other : Nat → List (Int × ℝ) → Except Err (List (Option ℝ))) (curveType : Nat)
    (fs pad : Int) (timescale : Nat) (amp r curve : List (Option ℝ)) (e : Effect) (points : List (Int × ℝ))
    (h0 : e.position + pad = 0) (hp : curvePoints fs timescale e.keyframes = .ok points)
    (h2 : points.length ≠ 2) (hc : interpolateCurve other curveType points = .ok curve)
    (hlen : (curve.length : ℤ) = (points.getLastD (0, 0)).1 + 1) :
    addCurveEffect other curveType fs pad timescale amp e = .ok ((List.range amp.length).map (fun i =>
      if i < curve.length then fadd (amp.getD i (some 0)) (curve.getD i (some 0))
      else amp.getD i (some 0))) := by
  unfold addCurveEffect
  simp only [hp, if_neg h2, hc]
  unfold addCurve
  have hz : toSigned 32 (u32 ((e.position + pad) * fs * timescale)) = 0 := by
    rw [h0]; simp [u32, toSigned]
  simp only [hz]
  rw [if_neg]
  · congr 1
    apply List.map_congr_left
    intro i _
    simp only [Int.toNat_zero, neg_zero, Nat.sub_zero, Nat.add_zero, Nat.zero_le, true_and]
    by_cases h : i < curve.length
    · rw [if_pos h, if_pos]
      rw [decide_eq_true_iff]; omega
    · rw [if_neg h, if_neg]
      rw [decide_eq_true_iff]; omega
  · rw [List.any_eq_true]
    rintro ⟨i, -, hi⟩
    simp only [Int.toNat_zero, neg_zero, Nat.sub_zero, Nat.add_zero, Nat.zero_le, true_and,
      Bool.and_eq_true, decide_eq_true_eq] at hi
    omega

/-- C53 is false of the code: a curve effect with two keyframes is never heard. -/
theorem c53_two_keyframes_negation (other : Nat → List (Int × ℝ) → Except Err (List (Option ℝ)))
    (curveType : Nat) (fs pad : Int) (timescale : Nat) (amp r : List (Option ℝ)) (e : Effect)
    (h2 : e.keyframes.length = 2) (h : addCurveEffect other curveType fs pad timescale amp e = .ok r) :
    r = amp := by
  unfold addCurveEffect at h
  split at h
  · cases h
  · rename_i points hp
    have hl : points.length = 2 := by
      unfold curvePoints at hp
      split at hp
      · cases hp
      · cases hp
      · rename_i p ps hps
        cases hp
        have := mapE_length _ _ _ hps
        simp at this ⊢
        omega
    dsimp only at h
    rw [if_pos hl] at h
    split at h
    · cases h
    · cases h; rfl

/-- A curve with three keyframes that should start 10 ms into the signal. -/
def lateCurve : Effect :=
  { position := 10
    keyframes := [⟨some 0, some 1, none⟩, ⟨some 5, some 1, none⟩, ⟨some 20, some 1, none⟩] }

/-- C53 is false of the code: the position of a curve effect is multiplied by the time scale instead of
divided by it, so that an effect at 10 ms, in a signal of up to ten thousand seconds, is not heard. -/
theorem c53_position_negation (other : Nat → List (Int × ℝ) → Except Err (List (Option ℝ))) (n : Nat)
    (hn : n ≤ 10000000) :
    addCurveEffect other CurveType.Linear 1000 0 1000 (List.replicate n (some 0)) lateCurve
      = .ok (List.replicate n (some 0)) := by
  have hp : curvePoints 1000 1000 lateCurve.keyframes = .ok [(0, 1), (5, 1), (20, 1)] := by
    simp [lateCurve, curvePoints, mapE, curvePoint, u32, toSigned]
  have hpos : toSigned 32 (u32 ((lateCurve.position + 0) * 1000 * (1000 : Nat))) = ((10000000 : Nat) : ℤ) := by
    simp [lateCurve, u32, toSigned]
  generalize 10000000 = P at hn hpos
  obtain ⟨r, hr, -⟩ := c52_partial linearSegment (0, 1) (5, 1) [(20, 1)] rfl
    (by simp [Increasing]) (by
      intro pre a b h _
      have h' := congrArg List.reverse h
      simp at h'
      obtain ⟨rfl, rfl, -⟩ := h'
      norm_num)
  unfold addCurveEffect
  simp only [hp, hpos]
  rw [if_neg (by simp)]
  have hi : interpolateCurve other CurveType.Linear [(0, 1), (5, 1), (20, 1)] = .ok r := by
    simpa [interpolateCurve] using hr
  rw [hi]
  unfold addCurve
  dsimp only
  have hno : ∀ i < n, decide ((P : ℤ).toNat ≤ i ∧
      ((i - (P : ℤ).toNat + (-(P : ℤ)).toNat : Nat) : ℤ) ≤ ([(0, (1 : ℝ)), (5, 1), (20, 1)].getLastD (0, 0)).1)
      = false := by
    intro i hi
    rw [decide_eq_false_iff_not]
    rintro ⟨h, -⟩
    omega
  rw [if_neg]
  · congr 1
    apply List.ext_getElem
    · simp
    · intro i h1 h2
      simp only [List.length_map, List.length_range, List.length_replicate] at h1
      simp only [List.getElem_map, List.getElem_range, List.getElem_replicate]
      rw [hno i h1]
      simp [h1]
  · rw [List.any_eq_true]
    rintro ⟨i, hi, h⟩
    rw [List.mem_range, List.length_replicate] at hi
    rw [hno i hi] at h
    simp at h

/-- C53 is false of the code: a curve effect with a single keyframe reads past the end of an empty
signal. -/
theorem c53_single_keyframe_negation (other : Nat → List (Int × ℝ) → Except Err (List (Option ℝ)))
    (n : Nat) (a : ℚ) :
    addCurveEffect other CurveType.Linear 1000 0 1000 (List.replicate (n + 1) (some 0))
      { keyframes := [⟨some 0, some a, none⟩] } = .error .ub := by
  have hp : curvePoints 1000 1000 [⟨some 0, some a, none⟩] = .ok [(0, (a : ℝ))] := by
    simp [curvePoints, mapE, curvePoint, u32, toSigned]
  unfold addCurveEffect
  simp only [hp]
  rw [if_neg (by simp)]
  have hi : interpolateCurve other CurveType.Linear [(0, (a : ℝ))] = .ok [] := by
    simp [interpolateCurve, interpolation2]
  rw [hi]
  unfold addCurve
  dsimp only
  rw [if_pos]
  rw [List.any_eq_true]
  exact ⟨0, by simp, by simp [u32, toSigned]⟩

/-! ## C54: the length of the rendered signal -/

theorem foldl_max_le (l : List ℚ) (a : ℚ) : a ≤ l.foldl max a ∧ ∀ x ∈ l, x ≤ l.foldl max a := by
  induction l generalizing a with
  | nil => exact ⟨le_refl _, by simp⟩
  | cons b l ih =>
    obtain ⟨h1, h2⟩ := ih (max a b)
    rw [List.foldl_cons]
    refine ⟨le_trans (le_max_left _ _) h1, ?_⟩
    intro x hx
    rcases List.mem_cons.mp hx with rfl | hx
    · exact le_trans (le_max_right _ _) h1
    · exact h2 x hx

theorem mapE_ok_mem {α β : Type} (f : α → Except Err β) (l : List α) (r : List β) (h : mapE f l = .ok r)
    (a : α) (ha : a ∈ l) : ∃ b ∈ r, f a = .ok b := by
  induction l generalizing r with
  | nil => cases ha
  | cons x l ih =>
    unfold mapE at h
    split at h
    · cases h
    · rename_i b' hb'
      split at h
      · cases h
      · rename_i r' hr'
        cases h
        rcases List.mem_cons.mp ha with rfl | ha
        · exact ⟨b', List.mem_cons_self, hb'⟩
        · obtain ⟨b, hb, h'⟩ := ih r' hr' ha
          exact ⟨b, List.mem_cons_of_mem _ hb, h'⟩

/-- C54, for the last effect of each band (the property asks for all effects: see `c54_negation`): the
length of the experience covers every keyframe, provided positions are in order within the effect. -/
theorem c54_partial (h : Experience) (t : ℚ) (ht : h.timeLength = .ok t) (p : Perception)
    (hp : p ∈ h.perceptions) (c : Channel) (hc : c ∈ p.channels)
    (hfs : c.frequencySampling = none ∨ c.sampleCount = none) (b : Band) (hb : b ∈ c.bands)
    (hbt : b.bandType = BandType.Transient ∨ b.bandType = BandType.Curve ∨ b.bandType = BandType.VectorialWave)
    (e : Effect) (he : b.effects.getLast? = some e)
    (hord : (e.keyframes.filterMap Keyframe.relativePosition).Pairwise (· ≤ ·)) :
    endsBy e (t : ℝ) := by
  unfold Experience.timeLength at ht
  split at ht
  · cases ht
  · rename_i timescale hts
    split at ht
    · cases ht
    · rename_i l hl
      cases ht
      obtain ⟨x, hx, hxc⟩ := mapE_ok_mem _ _ _ hl c (List.mem_flatMap.mpr ⟨p, hp, hc⟩)
      have hlen : c.lengths timescale = mapE (fun b => b.timeLength timescale) c.bands := by
        unfold Channel.lengths
        rcases hfs with h | h <;> rw [h]
        cases c.frequencySampling <;> rfl
      rw [hlen] at hxc
      obtain ⟨y, hy, hyb⟩ := mapE_ok_mem _ _ _ hxc b hb
      have hmax := (foldl_max_le l.flatten 0).2 y (List.mem_flatten.mpr ⟨x, hx, hy⟩)
      unfold Band.timeLength at hyb
      rw [he] at hyb
      dsimp only at hyb
      split at hyb
      · cases hyb
      · rename_i len hlen'
        cases hyb
        intro k hk q hq
        unfold Effect.timeLength at hlen'
        rw [if_neg (by cases hke : e.keyframes <;> simp_all), if_pos (by
          rcases hbt with h | h | h <;> simp [h])] at hlen'
        have hqm : q ∈ e.keyframes.filterMap Keyframe.relativePosition :=
          List.mem_filterMap.mpr ⟨k, hk, hq⟩
        split at hlen'
        · cases hlen'
        · rename_i z hz
          obtain ⟨ini, hini⟩ := List.getLast?_eq_some_iff.mp hz
          have hqz : q ≤ z := by
            rw [hini] at hqm hord
            rcases List.mem_append.mp hqm with h | h
            · exact (List.pairwise_append.mp hord).2.2 q h z (by simp)
            · simp at h; omega
          have hqz' : (q : ℚ) ≤ z := by exact_mod_cast hqz
          have hzl : (z : ℚ) ≤ len := by
            cases hlen'
            split
            · have : (0 : ℚ) ≤ transientDuration timescale := by
                unfold transientDuration TRANSIENT_DURATION_MS; positivity
              linarith
            · exact le_refl _
          have : (e.position : ℚ) + q ≤ l.flatten.foldl max 0 := by linarith
          exact_mod_cast this

/-- An effect of 100 ms at 0 and one of 10 ms at 20 ms, in one band. -/
def overlappingBand : Band :=
  { bandType := BandType.VectorialWave
    effects := [{ position := 0, keyframes := [⟨some 0, some 1, none⟩, ⟨some 100, some 1, none⟩] },
                { position := 20, keyframes := [⟨some 0, some 1, none⟩, ⟨some 10, some 1, none⟩] }] }

/-- C54 is false of the code: the first effect of this experience lasts until 100 ms, but the rendered
signal ends at 30 ms, because only the last effect of a band is looked at. -/
theorem c54_negation :
    ({ perceptions := [{ channels := [{ bands := [overlappingBand] }] }] } : Experience).timeLength = .ok 30 ∧
    ∃ e ∈ overlappingBand.effects, ¬ endsBy e 30 := by
  constructor
  · simp [Experience.timeLength, mapE, Channel.lengths, Band.timeLength, overlappingBand, Effect.timeLength]
    norm_num
  · refine ⟨_, List.mem_cons_self, ?_⟩
    intro h
    have := h ⟨some 100, some 1, none⟩ (by simp) 100 rfl
    norm_num at this

end Haptics
