import Verif.Eval.PropsSplines
import Verif.Bits.PropsFloat

/-! C87: B-spline curves. -/

namespace Haptics.Splines
open Haptics

section Generic
variable {K : Type} [Field K] [LinearOrder K] [IsStrictOrderedRing K]

theorem knots_length (p : ℕ) (hp : 3 ≤ p) : (knots p : List K).length = p + 3 := by
  unfold knots
  simp
  omega

theorem knots_get (p i : ℕ) (hp : 3 ≤ p) (hi : i < p + 3) : (knots p : List K).getD i 0 =
    if i < 2 then 0 else if i ≤ p then ((i - 2 : ℕ) : K) / ((p - 2 : ℕ) : K) else 1 := by
  unfold knots
  rw [List.getD_eq_getElem?_getD]
  by_cases h1 : i < 2
  · rw [if_pos h1, List.append_assoc, List.getElem?_append_left (by simpa using h1)]
    match i, h1 with
    | 0, _ => rfl
    | 1, _ => rfl
  · rw [if_neg h1]
    by_cases h2 : i ≤ p
    · rw [if_pos h2, List.getElem?_append_left (by simp; omega), List.getElem?_append_right (by simp; omega),
        List.getElem?_map, List.getElem?_range (by simp; omega)]
      simp
    · rw [if_neg h2, List.getElem?_append_right (by simp; omega)]
      simp only [List.length_append, List.length_cons, List.length_nil, List.length_map, List.length_range]
      obtain h | h : i = p + 1 ∨ i = p + 2 := by omega
      · rw [show i - (0 + 1 + 1 + (p - 1)) = 0 by omega]; rfl
      · rw [show i - (0 + 1 + 1 + (p - 1)) = 1 by omega]; rfl

theorem knots_mono (p i : ℕ) (hp : 3 ≤ p) (hi : i + 1 < p + 3) : (knots p : List K).getD i 0 ≤ (knots p : List K).getD (i + 1) 0 := by
  have hp2 : (0 : K) < ((p - 2 : ℕ) : K) := by exact_mod_cast (show 0 < p - 2 by omega)
  rw [knots_get p i hp (by omega), knots_get p (i + 1) hp hi]
  by_cases h1 : i < 2
  · rw [if_pos h1]
    split
    · exact le_rfl
    · split
      · positivity
      · exact zero_le_one
  · rw [if_neg h1, if_neg (show ¬ i + 1 < 2 by omega)]
    by_cases h2 : i + 1 ≤ p
    · rw [if_pos h2, if_pos (show i ≤ p by omega)]
      apply div_le_div_of_nonneg_right _ hp2.le
      exact_mod_cast (show i - 2 ≤ i + 1 - 2 by omega)
    · rw [if_neg h2]
      split
      · rw [div_le_one hp2]
        exact_mod_cast (show i - 2 ≤ p - 2 by omega)
      · exact le_rfl

/-- What the search for the knot finds. -/
theorem knotIndex_some (t0 : K) (ts : List K) (k : ℕ) (h : knotIndex t0 ts = some k) :
    k < ts.length ∧ t0 < ts.getD k 0 ∧ ∀ j < k, ts.getD j 0 ≤ t0 := by
  unfold knotIndex at h
  rw [List.findIdx?_eq_some_iff_getElem] at h
  obtain ⟨hk, h1, h2⟩ := h
  refine ⟨hk, ?_, ?_⟩
  · rw [getD_get _ _ _ hk]; simpa using h1
  · intro j hj
    rw [getD_get _ _ _ (by omega)]
    have := h2 j hj
    simpa using this

theorem knotIndex_inside (p : ℕ) (hp : 3 ≤ p) (t0 : K) (h0 : 0 ≤ t0) (h1 : t0 < 1) :
    ∃ k, knotIndex t0 (knots p) = some k ∧ 3 ≤ k ∧ k ≤ p := by
  have hp2 : (0 : K) < ((p - 2 : ℕ) : K) := by exact_mod_cast (show 0 < p - 2 by omega)
  have hkp : t0 < (knots p : List K).getD p 0 := by
    rw [knots_get p p hp (by omega), if_neg (by omega), if_pos le_rfl, div_self hp2.ne']
    exact h1
  cases e : knotIndex t0 (knots p) with
  | none =>
    unfold knotIndex at e
    rw [List.findIdx?_eq_none_iff] at e
    have hlen := knots_length (K := K) p hp
    have := e _ (List.getElem_mem (show p < (knots p : List K).length by omega))
    rw [getD_get _ _ _ (by omega)] at hkp
    simp at this
    exact absurd hkp (not_lt.2 this)
  | some k =>
    obtain ⟨k1, k2, k3⟩ := knotIndex_some t0 _ k e
    refine ⟨k, rfl, ?_, ?_⟩
    · by_contra hc
      have : (knots p : List K).getD k 0 = 0 := by
        rw [knots_get p k hp (by omega)]
        split
        · rfl
        · rw [if_pos (by omega), show k - 2 = 0 by omega]
          simp
      rw [this] at k2
      exact absurd h0 (not_le.2 k2)
    · by_contra hc
      exact absurd hkp (not_lt.2 (k3 p (by omega)))

theorem weight_mem (p : ℕ) (hp : 3 ≤ p) (t0 : K) (k : ℕ) (hk : knotIndex t0 (knots p) = some k) (h3 : 3 ≤ k) (hkp : k ≤ p)
    (i j : ℕ) (hi : 1 ≤ i) (hij : i ≤ j) (hj : j ≤ 2) : 0 ≤ weight (knots p) t0 k i j ∧ weight (knots p) t0 k i j ≤ 1 := by
  obtain ⟨k1, k2, k3⟩ := knotIndex_some t0 _ k hk
  have hlo : (knots p : List K).getD (k - 3 + j) 0 ≤ t0 := k3 _ (by omega)
  have hhi : t0 < (knots p : List K).getD (k + j - i) 0 := by
    obtain h | h : k + j - i = k ∨ k + j - i = k + 1 := by omega
    · rw [h]; exact k2
    · rw [h]; exact lt_of_lt_of_le k2 (knots_mono p k hp (by omega))
  unfold weight
  simp only
  split
  · exact ⟨le_rfl, zero_le_one⟩
  · have hpos : (0 : K) < (knots p : List K).getD (k + j - i) 0 - (knots p : List K).getD (k - 3 + j) 0 := by linarith
    exact ⟨div_nonneg (by linarith) hpos.le, by rw [div_le_one hpos]; linarith⟩

theorem mix_mem (w a b lo hi : K) (w0 : 0 ≤ w) (w1 : w ≤ 1) (ha : lo ≤ a ∧ a ≤ hi) (hb : lo ≤ b ∧ b ≤ hi) :
    lo ≤ (1 - w) * a + w * b ∧ (1 - w) * a + w * b ≤ hi := by
  have u : 0 ≤ 1 - w := by linarith
  constructor
  · nlinarith [mul_le_mul_of_nonneg_left ha.1 u, mul_le_mul_of_nonneg_left hb.1 w0]
  · nlinarith [mul_le_mul_of_nonneg_left ha.2 u, mul_le_mul_of_nonneg_left hb.2 w0]

theorem deBoor_mem (p : ℕ) (hp : 3 ≤ p) (t0 : K) (k : ℕ) (hk : knotIndex t0 (knots p) = some k) (h3 : 3 ≤ k) (hkp : k ≤ p)
    (a0 a1 a2 lo hi : K) (h0 : lo ≤ a0 ∧ a0 ≤ hi) (h1 : lo ≤ a1 ∧ a1 ≤ hi) (h2 : lo ≤ a2 ∧ a2 ≤ hi) :
    lo ≤ deBoor (knots p) t0 k a0 a1 a2 ∧ deBoor (knots p) t0 k a0 a1 a2 ≤ hi := by
  obtain ⟨x1, x2⟩ := weight_mem p hp t0 k hk h3 hkp 1 1 (by omega) (by omega) (by omega)
  obtain ⟨y1, y2⟩ := weight_mem p hp t0 k hk h3 hkp 1 2 (by omega) (by omega) (by omega)
  obtain ⟨z1, z2⟩ := weight_mem p hp t0 k hk h3 hkp 2 2 (by omega) (by omega) (by omega)
  unfold deBoor
  simp only
  exact mix_mem _ _ _ lo hi z1 z2 (mix_mem _ _ _ lo hi x1 x2 h0 h1) (mix_mem _ _ _ lo hi y1 y2 h1 h2)

/-- The state of the loop: nothing yet, or a point of the curve. -/
def OnCurve (pts : List (ℤ × K)) (s : SplineState K) : Prop :=
  knotIndex s.t0 (knots pts.length) = some s.k ∧ 3 ≤ s.k ∧ s.k ≤ pts.length ∧ s.x = splineX pts s.t0 s.k

theorem advance_spec (rnd : K → K) (dt : K) (pts : List (ℤ × K)) (m : ℕ) : ∀ (fuel : ℕ) (s s' : SplineState K),
    (OnCurve pts s ∨ s.x < m) → advance rnd dt pts m fuel s = .ok s' → OnCurve pts s' ∧ (m : K) ≤ s'.x
  | 0, s, s', h, e => by
    unfold advance at e
    split at e
    · cases e
    · rename_i hx
      cases e
      rcases h with h | h
      · exact ⟨h, not_lt.1 hx⟩
      · exact absurd h hx
  | fuel + 1, s, s', h, e => by
    unfold advance at e
    split at e
    · simp only at e
      split at e
      · cases e
      · rename_i k hk
        split at e
        · cases e
        · rename_i hc
          push Not at hc
          exact advance_spec rnd dt pts m fuel _ s' (.inl ⟨hk, hc.1, hc.2, rfl⟩) e
    · rename_i hx
      cases e
      rcases h with h | h
      · exact ⟨h, not_lt.1 hx⟩
      · exact absurd h hx

theorem bsplineLoop_spec (rnd : K → K) (dt : K) (fuel : ℕ) (pts : List (ℤ × K)) (hp : 3 ≤ pts.length) (lo hi : K)
    (hb : ∀ p ∈ pts, lo ≤ p.2 ∧ p.2 ≤ hi) : ∀ (ms : List ℕ) (s : SplineState K) (r : List K),
    (∀ m ∈ ms, OnCurve pts s ∨ s.x < m) → bsplineLoop rnd dt fuel pts ms s = .ok r →
    r.length = ms.length ∧ ∀ v ∈ r, lo ≤ v ∧ v ≤ hi
  | [], s, r, _, e => by
    unfold bsplineLoop at e
    cases e
    exact ⟨rfl, by simp⟩
  | m :: ms, s, r, h, e => by
    unfold bsplineLoop at e
    cases e1 : advance rnd dt pts m fuel s with
    | error x => rw [e1] at e; cases e
    | ok s' =>
      rw [e1] at e
      simp only [bind, Except.bind] at e
      obtain ⟨c, -⟩ := advance_spec rnd dt pts m fuel s s' (h m (by simp)) e1
      cases e2 : bsplineLoop rnd dt fuel pts ms s' with
      | error x => rw [e2] at e; cases e
      | ok r' =>
        rw [e2] at e
        cases e
        obtain ⟨i1, i2⟩ := bsplineLoop_spec rnd dt fuel pts hp lo hi hb ms s' r' (fun _ _ => .inl c) e2
        refine ⟨by simp [i1], ?_⟩
        intro v hv
        rcases List.mem_cons.1 hv with rfl | hv
        · obtain ⟨c1, c2, c3, -⟩ := c
          have mem : ∀ i < pts.length, lo ≤ (pts.getD i (0, 0)).2 ∧ (pts.getD i (0, 0)).2 ≤ hi := by
            intro i hi'
            rw [getD_get _ _ _ hi']
            exact hb _ (List.getElem_mem hi')
          exact deBoor_mem pts.length hp s'.t0 s'.k c1 c2 c3 _ _ _ lo hi (mem _ (by omega)) (mem _ (by omega)) (mem _ (by omega))
        · exact i2 v hv

/-- **C87 (B-spline).** However the running parameter is rounded: if the computation ends without reading past the knots,
there is one value per sample up to the last keyframe, the first and the last are the amplitudes of the first and the last
keyframe, and no value exceeds the amplitudes of the keyframes. -/
theorem c87_bspline (rnd : K → K) (dt : K) (fuel : ℕ) (pts : List (ℤ × K)) (hp : 3 ≤ pts.length)
    (hlast : 1 ≤ (pts.getLastD (0, 0)).1) (lo hi : K) (hb : ∀ p ∈ pts, lo ≤ p.2 ∧ p.2 ≤ hi) (r : List K)
    (e : bspline rnd dt fuel pts = .ok r) :
    (r.length : ℤ) = (pts.getLastD (0, 0)).1 + 1 ∧ r.head? = some (pts.getD 0 (0, 0)).2 ∧
    r.getLast? = some (pts.getLastD (0, 0)).2 ∧ ∀ v ∈ r, lo ≤ v ∧ v ≤ hi := by
  unfold bspline at e
  simp only at e
  rw [if_neg (by omega), if_neg (by omega), if_neg (by omega)] at e
  cases e1 : bsplineLoop rnd dt fuel pts ((List.range ((pts.getLastD (0, 0)).1.toNat - 1)).map (· + 1)) ⟨0, 0, 0⟩ with
  | error x => rw [e1] at e; cases e
  | ok r' =>
    rw [e1] at e
    cases e
    obtain ⟨h1, h2⟩ := bsplineLoop_spec rnd dt fuel pts hp lo hi hb _ _ _ (by
      intro m hm
      obtain ⟨i, -, rfl⟩ := List.mem_map.1 hm
      right
      show (0 : K) < ((i + 1 : ℕ) : K)
      exact_mod_cast Nat.succ_pos i) e1
    rw [List.length_map, List.length_range] at h1
    have mem0 : lo ≤ (pts.getD 0 (0, 0)).2 ∧ (pts.getD 0 (0, 0)).2 ≤ hi := by
      rw [getD_get _ _ _ (by omega)]
      exact hb _ (List.getElem_mem _)
    have meml : lo ≤ (pts.getLastD (0, 0)).2 ∧ (pts.getLastD (0, 0)).2 ≤ hi := by
      have hne : pts ≠ [] := by intro h; rw [h] at hp; simp at hp
      rw [List.getLastD_eq_getLast?, List.getLast?_eq_getLast_of_ne_nil hne]
      exact hb _ (List.getLast_mem hne)
    refine ⟨?_, rfl, ?_, ?_⟩
    · rw [List.length_append, List.length_cons, h1, List.length_singleton]
      push_cast
      omega
    · rw [List.getLast?_append]
      rfl
    · intro v hv
      rcases List.mem_append.1 hv with hv | hv
      · rcases List.mem_cons.1 hv with rfl | hv
        · exact mem0
        · exact h2 v hv
      · rw [List.mem_singleton.1 hv]
        exact meml

/-! ### Up to seven keyframes -/

/-- One step before the end the curve is within a sample of the last keyframe. -/
theorem splineX_end (pts : List (ℤ × K)) (hp : 3 ≤ pts.length) (h7 : pts.length ≤ 7) (n : ℕ) (hn : 1 ≤ n)
    (hlast : (pts.getD (pts.length - 1) (0, 0)).1 = n) (hpos : ∀ i < pts.length, 0 ≤ (pts.getD i (0, 0)).1)
    (k : ℕ) (hk : knotIndex (1 - 1 / n / 10 : K) (knots pts.length) = some k) :
    (n : K) - 1 ≤ splineX pts (1 - 1 / n / 10) k := by
  have hn0 : (1 : K) ≤ n := by exact_mod_cast hn
  have hnp : (0 : K) < n := by linarith
  set p := pts.length with hpd
  have hdt0 : (0 : K) < 1 / n / 10 := by positivity
  have hdt1 : (n : K) * (1 / n / 10) = 1 / 10 := by field_simp
  set dt : K := 1 / n / 10 with hdt
  have hdt2 : dt ≤ 1 / 10 := by nlinarith
  have hq0 : (1 : K) ≤ ((p - 2 : ℕ) : K) := by exact_mod_cast (show 1 ≤ p - 2 by omega)
  have hq5 : ((p - 2 : ℕ) : K) ≤ 5 := by exact_mod_cast (show p - 2 ≤ 5 by omega)
  have hq1 : ((p - 1 - 2 : ℕ) : K) = ((p - 2 : ℕ) : K) - 1 := by
    rw [show p - 2 = (p - 1 - 2) + 1 by omega]; push_cast; ring
  obtain ⟨k', hk', k3, kp⟩ := knotIndex_inside p hp (1 - dt) (by linarith) (by linarith)
  rw [hk] at hk'
  obtain rfl : k = k' := Option.some.inj hk'
  obtain ⟨k1, k2, -⟩ := knotIndex_some _ _ k hk
  generalize hq : ((p - 2 : ℕ) : K) = q at *
  have hqp : (0 : K) < q := by linarith
  -- the last segment
  have hkp : k = p := by
    by_contra hc
    rw [knots_get p k hp (by omega), if_neg (by omega), if_pos kp, hq] at k2
    have : ((k - 2 : ℕ) : K) ≤ q - 1 := by
      rw [← hq1]; exact_mod_cast (show k - 2 ≤ p - 1 - 2 by omega)
    have h1 : ((k - 2 : ℕ) : K) / q ≤ (q - 1) / q := div_le_div_of_nonneg_right this hqp.le
    have h2 : (q - 1) / q = 1 - 1 / q := by field_simp
    have h3 : (1 : K) / 5 ≤ 1 / q := one_div_le_one_div_of_le hqp hq5
    linarith
  subst hkp
  have kA : (knots p : List K).getD (p - 1) 0 = (q - 1) / q := by
    rw [knots_get p (p - 1) hp (by omega), if_neg (by omega), if_pos (by omega), hq, hq1]
  have kB : (knots p : List K).getD p 0 = 1 := by
    rw [knots_get p p hp (by omega), if_neg (by omega), if_pos (by omega), hq, div_self hqp.ne']
  have kC : (knots p : List K).getD (p + 1) 0 = 1 := by
    rw [knots_get p (p + 1) hp (by omega), if_neg (by omega), if_neg (by omega)]
  have hw0 : 0 < 1 - q * dt := by nlinarith
  have hnum : (1 - dt) - (q - 1) / q = (1 - q * dt) / q := by field_simp; ring
  have hw : ∀ i, (i = 1 ∨ i = 2) → weight (knots p) (1 - dt) p i 2 = 1 - q * dt := by
    intro i hi
    unfold weight
    simp only
    rw [show p - 3 + 2 = p - 1 by omega, kA, hnum, if_neg (by positivity)]
    have : (knots p : List K).getD (p + 2 - i) 0 = 1 := by
      rcases hi with rfl | rfl
      · rw [show p + 2 - 1 = p + 1 by omega, kC]
      · rw [show p + 2 - 2 = p by omega, kB]
    rw [this]
    have h1 : (1 : K) - (q - 1) / q = 1 / q := by field_simp; ring
    rw [h1]
    field_simp
  obtain ⟨x1, x2⟩ := weight_mem p hp (1 - dt) p hk k3 le_rfl 1 1 (by omega) (by omega) (by omega)
  unfold splineX deBoor
  simp only [← hpd]
  rw [hw 1 (.inl rfl), hw 2 (.inr rfl), hlast]
  have c0 : (0 : K) ≤ ((pts.getD (p - 3) (0, 0)).1 : K) := by exact_mod_cast hpos (p - 3) (by omega)
  have c1 : (0 : K) ≤ ((pts.getD (p - 2) (0, 0)).1 : K) := by exact_mod_cast hpos (p - 2) (by omega)
  generalize weight (knots p) (1 - dt) p 1 1 = w at *
  generalize ((pts.getD (p - 3) (0, 0)).1 : K) = a0 at *
  generalize ((pts.getD (p - 2) (0, 0)).1 : K) = a1 at *
  have m1 : 0 ≤ (1 - w) * a0 + w * a1 := by
    have := mul_nonneg (show 0 ≤ 1 - w by linarith) c0
    have := mul_nonneg x1 c1
    linarith
  have hqd : 0 ≤ q * dt := by positivity
  have m2 : 0 ≤ (1 - (1 - q * dt)) * ((1 - w) * a0 + w * a1) := mul_nonneg (by linarith) m1
  have m3 : 0 ≤ (1 - q * dt) * ((1 - (1 - q * dt)) * a1) := mul_nonneg hw0.le (mul_nonneg (by linarith) c1)
  have m4 : (n : K) - 1 ≤ (1 - q * dt) * ((1 - q * dt) * n) := by
    have e1 : (1 - q * dt) * ((1 - q * dt) * n) = n - 2 * q * (n * dt) + (q * dt) ^ 2 * n := by ring
    rw [e1, hdt1]
    have : 0 ≤ (q * dt) ^ 2 * (n : K) := by positivity
    linarith
  push_cast
  nlinarith

theorem advance_ok (pts : List (ℤ × K)) (hp : 3 ≤ pts.length) (h7 : pts.length ≤ 7) (n : ℕ) (hn : 1 ≤ n)
    (hlast : (pts.getD (pts.length - 1) (0, 0)).1 = n) (hpos : ∀ i < pts.length, 0 ≤ (pts.getD i (0, 0)).1)
    (m : ℕ) (hm : m + 1 ≤ n) : ∀ (fuel i : ℕ) (s : SplineState K), s.t0 = i * (1 / n / 10) → i + 1 ≤ 10 * n →
    10 * n ≤ fuel + i + 1 → (OnCurve pts s ∨ i = 0) →
    ∃ (s' : SplineState K) (i' : ℕ), advance id (1 / (n : K) / 10) pts m fuel s = .ok s' ∧ s'.t0 = i' * (1 / n / 10) ∧ i' + 1 ≤ 10 * n ∧
      (OnCurve pts s' ∨ i' = 0) := by
  have hn0 : (1 : K) ≤ n := by exact_mod_cast hn
  have hdt0 : (0 : K) < 1 / n / 10 := by positivity
  have hm' : (m : K) ≤ n - 1 := by
    have : ((m + 1 : ℕ) : K) ≤ n := by exact_mod_cast hm
    push_cast at this
    linarith
  have hend : ∀ i : ℕ, i + 1 = 10 * n → (i : K) * (1 / n / 10) = 1 - 1 / n / 10 := by
    intro i hi
    have : (i : K) = 10 * n - 1 := by
      have : ((i + 1 : ℕ) : K) = 10 * n := by rw [hi]; push_cast; ring
      push_cast at this
      linarith
    rw [this]
    field_simp
  -- at the last step the curve has reached `m`
  have stop : ∀ (i : ℕ) (s : SplineState K), s.t0 = i * (1 / n / 10) → i + 1 = 10 * n → (OnCurve pts s ∨ i = 0) → ¬ s.x < m := by
    intro i s hs hi ho hx
    rcases ho with ⟨o1, -, -, o4⟩ | h
    · rw [hs, hend i hi] at o1 o4
      have := splineX_end pts hp h7 n hn hlast hpos s.k o1
      rw [← o4] at this
      linarith
    · omega
  intro fuel
  induction fuel with
  | zero =>
    intro i s hs h1 h2 ho
    refine ⟨s, i, ?_, hs, h1, ho⟩
    unfold advance
    rw [if_neg (stop i s hs (by omega) ho)]
  | succ fuel ih =>
    intro i s hs h1 h2 ho
    by_cases hx : s.x < m
    · have hi : i + 1 ≠ 10 * n := fun h => stop i s hs h ho hx
      have ht : id (s.t0 + 1 / n / 10) = ((i + 1 : ℕ) : K) * (1 / n / 10) := by
        rw [hs]; push_cast; simp only [id]; ring
      have ht1 : ((i + 1 : ℕ) : K) * (1 / n / 10) < 1 := by
        have : ((i + 1 : ℕ) : K) < 10 * n := by exact_mod_cast (show i + 1 < 10 * n by omega)
        have h10 : (10 * (n : K)) * (1 / n / 10) = 1 := by field_simp
        nlinarith
      obtain ⟨k, hk, k3, kp⟩ := knotIndex_inside pts.length hp (((i + 1 : ℕ) : K) * (1 / n / 10)) (by positivity) ht1
      unfold advance
      rw [if_pos hx]
      simp only [ht, hk]
      rw [if_neg (by omega)]
      exact ih (i + 1) _ rfl (by omega) (by omega) (.inl ⟨hk, k3, kp, rfl⟩)
    · refine ⟨s, i, ?_, hs, h1, ho⟩
      unfold advance
      rw [if_neg hx]

theorem bsplineLoop_ok (pts : List (ℤ × K)) (hp : 3 ≤ pts.length) (h7 : pts.length ≤ 7) (n : ℕ) (hn : 1 ≤ n)
    (hlast : (pts.getD (pts.length - 1) (0, 0)).1 = n) (hpos : ∀ i < pts.length, 0 ≤ (pts.getD i (0, 0)).1) :
    ∀ (ms : List ℕ), (∀ m ∈ ms, m + 1 ≤ n) → ∀ (i : ℕ) (s : SplineState K), s.t0 = i * (1 / n / 10) → i + 1 ≤ 10 * n →
    (OnCurve pts s ∨ i = 0) → ∃ r, bsplineLoop id (1 / (n : K) / 10) (10 * n) pts ms s = .ok r
  | [], _, _, _, _, _, _ => ⟨[], rfl⟩
  | m :: ms, hm, i, s, hs, hi, ho => by
    obtain ⟨s', i', e, a, b, c⟩ := advance_ok pts hp h7 n hn hlast hpos m (hm m (by simp)) (10 * n) i s hs hi (by omega) ho
    obtain ⟨r, hr⟩ := bsplineLoop_ok pts hp h7 n hn hlast hpos ms (fun m h => hm m (by simp [h])) i' s' a b c
    refine ⟨splineY pts s'.t0 s'.k :: r, ?_⟩
    unfold bsplineLoop
    rw [e]
    simp only [bind, Except.bind]
    rw [hr]

end Generic

/-- **C87 (B-spline).** Three to seven keyframes at increasing positions from 0, exact arithmetic: the computation ends and
stays inside the knots; one value per sample, none exceeding the amplitudes of the keyframes. -/
theorem c87_bspline_safe_partial (pts : List (ℤ × ℝ)) (hp : 3 ≤ pts.length) (h7 : pts.length ≤ 7) (h0 : (pts.getD 0 (0, 0)).1 = 0)
    (hinc : Increasing pts) (lo hi : ℝ) (hb : ∀ p ∈ pts, lo ≤ p.2 ∧ p.2 ≤ hi) :
    ∃ r, bspline id (1 / ((pts.getLastD (0, 0)).1 : ℝ) / 10) (10 * (pts.getLastD (0, 0)).1.toNat) pts = .ok r ∧
      FullLength pts r ∧ r.head? = some (pts.getD 0 (0, 0)).2 ∧ r.getLast? = some (pts.getLastD (0, 0)).2 ∧
      ∀ v ∈ r, lo ≤ v ∧ v ≤ hi := by
  have hlast : pts.getLastD (0, 0) = pts.getD (pts.length - 1) (0, 0) := by
    rw [List.getLastD_eq_getLast?, List.getLast?_eq_getElem?, List.getD_eq_getElem?_getD]
  have hl1 : 1 ≤ (pts.getLastD (0, 0)).1 := by
    have := getD_lt pts hinc 0 (pts.length - 1) (by omega) (by omega)
    rw [hlast]
    omega
  have hpos : ∀ i < pts.length, 0 ≤ (pts.getD i (0, 0)).1 := by
    intro i hi
    rcases Nat.eq_zero_or_pos i with h | h
    · rw [h, h0]
    · exact h0.symm.le.trans (getD_lt pts hinc 0 i h hi).le
  obtain ⟨n, hn⟩ := Int.eq_ofNat_of_zero_le (show 0 ≤ (pts.getLastD (0, 0)).1 by omega)
  obtain ⟨r, hr⟩ := bsplineLoop_ok (K := ℝ) pts hp h7 n (by omega) (by rw [← hlast]; exact hn) hpos
    ((List.range (n - 1)).map (· + 1)) (by
      intro m hm
      obtain ⟨i, hi, rfl⟩ := List.mem_map.1 hm
      rw [List.mem_range] at hi
      omega) 0 ⟨0, 0, 0⟩ (by simp) (by omega) (.inr rfl)
  have e : bspline id (1 / ((pts.getLastD (0, 0)).1 : ℝ) / 10) (10 * (pts.getLastD (0, 0)).1.toNat) pts =
      .ok ((pts.getD 0 (0, 0)).2 :: r ++ [(pts.getLastD (0, 0)).2]) := by
    unfold bspline
    simp only
    rw [if_neg (by omega), if_neg (by omega), if_neg (by omega), hn]
    simp only [Int.ofNat_eq_natCast, Int.cast_natCast, Int.toNat_natCast, hr, bind, Except.bind]
  exact ⟨_, e, c87_bspline _ _ _ pts hp hl1 lo hi hb _ e⟩

/-- Five keyframes. -/
example : let pts : List (ℤ × ℝ) := [(0, 0), (10, 1), (15, 1 / 2), (40, 0), (50, 1)]
    3 ≤ pts.length ∧ pts.length ≤ 7 ∧ (pts.getD 0 (0, 0)).1 = 0 ∧ Increasing pts ∧ ∀ p ∈ pts, 0 ≤ p.2 ∧ p.2 ≤ 1 := by
  simp [Increasing]
  norm_num

/-- **C87 (bands).** A curve effect at the start of the rendered signal with three to seven keyframes (for a Bezier curve an odd
number, no three of which span more than 32767 samples): sample `i` of its Akima, Bezier or B-spline curve is added to sample `i`
of the band, and nothing else changes. -/
theorem c87_played_partial (curveType : ℕ) (hc : 3 ≤ curveType ∧ curveType ≤ 5) (fs pad : ℤ) (timescale : ℕ) (amp : List (Option ℝ))
    (e : Effect) (pts : List (ℤ × ℝ)) (h0 : e.position + pad = 0) (hpts : curvePoints fs timescale e.keyframes = .ok pts)
    (hp : 3 ≤ pts.length) (h7 : pts.length ≤ 7) (hinc : Increasing pts)
    (hbez : curveType = 4 → pts.length % 2 = 1 ∧ Short pts) :
    ∃ curve, splines id (10 * (pts.getLastD (0, 0)).1.toNat) curveType pts = .ok curve ∧ FullLength pts curve ∧
      addCurveEffect (splines id (10 * (pts.getLastD (0, 0)).1.toNat)) curveType fs pad timescale amp e =
        .ok ((List.range amp.length).map (fun i =>
          if i < curve.length then fadd (amp.getD i (some 0)) (curve.getD i (some 0)) else amp.getD i (some 0))) := by
  have hz : (pts.getD 0 (0, 0)).1 = 0 := by
    unfold curvePoints at hpts
    split at hpts
    · cases hpts
    · cases hpts
    · cases hpts; rfl
  have hcurve : ∃ curve, splines id (10 * (pts.getLastD (0, 0)).1.toNat) curveType pts = .ok curve ∧ FullLength pts curve := by
    obtain h | h | h : curveType = 3 ∨ curveType = 4 ∨ curveType = 5 := by omega
    · obtain ⟨r, e1, e2, -⟩ := c87_akima pts hp hz hinc
      refine ⟨r.map some, ?_, by unfold FullLength at *; rw [List.length_map]; exact e2⟩
      unfold splines
      rw [if_pos h, e1]
      rfl
    · obtain ⟨r, e1, e2, -⟩ := c87_bezier_partial pts (hbez h).1 hz hinc (hbez h).2
      refine ⟨r, ?_, e2⟩
      unfold splines
      rw [if_neg (by omega), if_pos h, e1]
    · obtain ⟨hi, hhi⟩ : ∃ hi : ℝ, ∀ p ∈ pts, -hi ≤ p.2 ∧ p.2 ≤ hi := by
        clear hpts hp h7 hinc hbez hz
        induction pts with
        | nil => exact ⟨0, by simp⟩
        | cons p l ih =>
          obtain ⟨b, hb⟩ := ih
          refine ⟨max b |p.2|, ?_⟩
          intro q hq
          rcases List.mem_cons.1 hq with rfl | hq
          · exact abs_le.1 (le_max_right _ _)
          · obtain ⟨x, y⟩ := hb q hq
            have := le_max_left b |p.2|
            constructor <;> linarith
      obtain ⟨r, e1, e2, -⟩ := c87_bspline_safe_partial pts hp h7 hz hinc (-hi) hi hhi
      refine ⟨r.map some, ?_, by unfold FullLength at *; rw [List.length_map]; exact e2⟩
      unfold splines
      rw [if_neg (by omega), if_neg (by omega)]
      simp only [id]
      change Except.map _ (bspline id _ _ _) = _
      rw [e1]
      rfl
  obtain ⟨curve, e1, e2⟩ := hcurve
  refine ⟨curve, e1, e2, ?_⟩
  refine c53_partial _ curveType fs pad timescale amp amp curve e pts h0 hpts (by omega) ?_ e2
  unfold interpolateCurve
  simp only [CurveType.Linear]
  rw [if_neg (by omega), if_pos hc, e1]

/-- Three keyframes at 0, 5 and 20 ms, at 1 kHz. -/
example : ∃ pts : List (ℤ × ℝ), curvePoints 1000 1000 [⟨some 0, some 0, none⟩, ⟨some 5, some 1, none⟩, ⟨some 20, some 0, none⟩] = .ok pts ∧
    pts.length = 3 ∧ Increasing pts ∧ Short pts := by
  refine ⟨[(0, ((0 : ℚ) : ℝ)), (5, ((1 : ℚ) : ℝ)), (20, ((0 : ℚ) : ℝ))], by simp [curvePoints, mapE, curvePoint, u32, toSigned], rfl,
    by simp [Increasing], ?_⟩
  intro pre q0 q1 q2 post h
  have hl := congrArg List.length h
  simp only [List.length_append, List.length_cons, List.length_nil] at hl
  have hpre : pre = [] := List.length_eq_zero_iff.1 (by omega)
  subst hpre
  simp only [List.nil_append, List.cons.injEq] at h
  obtain ⟨rfl, rfl, rfl, -⟩ := h
  norm_num

/-- Nine keyframes, the last one later than the others. -/
def manyKeyframes : List (ℤ × ℚ) := (List.range 8).map (fun i : ℕ => ((i : ℤ), 1)) ++ [(29, 0)]

/-- **C87 is false** for more keyframes: with nine of them, the running parameter of the B-spline, which is rounded to
a double at each step, passes 1 before the curve is within a sample of the last keyframe, and the search for a knot runs past the
last one. -/
theorem c87_bspline_unsafe : bspline fl64 (fl64 (fl64 (1 / 29) / 10)) 1000 manyKeyframes = .error .ub := by
  decide +kernel

/-- The same in exact arithmetic. -/
theorem c87_bspline_exact_unsafe : bspline id (1 / 29 / 10) 1000 manyKeyframes = .error .ub := by
  decide +kernel

end Haptics.Splines
