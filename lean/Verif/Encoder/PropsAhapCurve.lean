import Verif.Encoder.AhapCurve
import Verif.Encoder.PropsAhapSafe

/-! C77: keyframes of the continuous events of AHAP files. -/

namespace Haptics.Ahap
open Haptics

/-! ### Precision -/

theorem fl64_near {x B : ℚ} (hB : 1 ≤ B) (hx : |x| ≤ B) : |fl64 x - x| ≤ B / 2 ^ 52 := by
  have h1 := flo_abs_err 53 (-1022) x
  have h2 : (2 : ℚ) ^ ((-1022 : ℤ) - (53 : ℕ)) ≤ 1 / 2 ^ 100 := by
    rw [one_div, ← zpow_natCast, ← zpow_neg]
    exact zpow_le_zpow_right₀ (by norm_num) (by norm_num)
  have h3 : |x| * (2 : ℚ) ^ (-((53 : ℕ) : ℤ)) = |x| / 2 ^ 53 := by
    rw [zpow_neg, zpow_natCast, div_eq_mul_inv]
  rw [h3] at h1
  have : |fl64 x - x| ≤ |x| / 2 ^ 53 + 1 / 2 ^ 100 := by unfold fl64; linarith
  have h4 : |x| / 2 ^ 53 ≤ B / 2 ^ 53 := by
    apply div_le_div_of_nonneg_right hx (by positivity)
  have h5 : (1 : ℚ) / 2 ^ 100 ≤ B / 2 ^ 53 := by
    rw [div_le_div_iff₀ (by positivity) (by positivity)]
    nlinarith
  have h6 : B / 2 ^ 53 + B / 2 ^ 53 = B / 2 ^ 52 := by ring
  linarith

theorem linear64_near {q p : Point} {x : Int} (hq : q.1 < x) (hp : x ≤ p.1) (hq0 : -2 ^ 31 ≤ q.1) (hp0 : p.1 < 2 ^ 31)
    (hq1 : -1 ≤ q.2 ∧ q.2 ≤ 1) (hp1 : -1 ≤ p.2 ∧ p.2 ≤ 1) :
    ∃ y, linear64 q p x = some y ∧ |y - Ivs.lineAt q p x| ≤ 1 / 2 ^ 48 := by
  unfold linear64
  rw [if_neg (by omega), if_neg (by omega), if_neg (by omega)]
  refine ⟨_, rfl, ?_⟩
  obtain ⟨D, hD⟩ : ∃ D : ℚ, D = (p.1 : ℚ) - q.1 := ⟨_, rfl⟩
  have hqx : (q.1 : ℚ) + 1 ≤ x := by exact_mod_cast hq
  have hxp : (x : ℚ) ≤ p.1 := by exact_mod_cast hp
  have hD1 : 1 ≤ D := by rw [hD]; linarith
  have hu : |q.2 * ((p.1 : ℚ) - x)| ≤ D := by
    rw [abs_mul, abs_of_nonneg (show (0 : ℚ) ≤ (p.1 : ℚ) - x by linarith)]
    have : |q.2| ≤ 1 := abs_le.mpr hq1
    have h0 : (0 : ℚ) ≤ (p.1 : ℚ) - x := by linarith
    nlinarith
  have hw : |p.2 * ((x : ℚ) - q.1)| ≤ D := by
    rw [abs_mul, abs_of_nonneg (show (0 : ℚ) ≤ (x : ℚ) - q.1 by linarith)]
    have : |p.2| ≤ 1 := abs_le.mpr hp1
    have h0 : (0 : ℚ) ≤ (x : ℚ) - q.1 := by linarith
    nlinarith
  have hline : Ivs.lineAt q p x = (q.2 * ((p.1 : ℚ) - x) + p.2 * ((x : ℚ) - q.1)) / D := by
    unfold Ivs.lineAt
    rw [← hD, eq_div_iff (by linarith), add_mul, div_mul_cancel₀ _ (by linarith), hD]
    ring
  have e1 := fl64_near hD1 hu
  have e2 := fl64_near hD1 hw
  rw [hline, ← hD]
  generalize q.2 * ((p.1 : ℚ) - x) = a at *
  generalize p.2 * ((x : ℚ) - q.1) = b at *
  have e3 : |fl64 a + fl64 b| ≤ 4 * D := by
    obtain ⟨a1, a2⟩ := abs_le.mp hu
    obtain ⟨b1, b2⟩ := abs_le.mp hw
    obtain ⟨c1, c2⟩ := abs_le.mp e1
    obtain ⟨d1, d2⟩ := abs_le.mp e2
    have : D / 2 ^ 52 ≤ D := by
      rw [div_le_iff₀ (by positivity)]; nlinarith
    rw [abs_le]; constructor <;> linarith
  have e4 := fl64_near (B := 4 * D) (by linarith) e3
  have hsum : |fl64 (fl64 a + fl64 b) - (a + b)| ≤ 6 * D / 2 ^ 52 := by
    obtain ⟨c1, c2⟩ := abs_le.mp e1
    obtain ⟨d1, d2⟩ := abs_le.mp e2
    obtain ⟨f1, f2⟩ := abs_le.mp e4
    rw [abs_le]; constructor <;> linarith
  have hDp : 0 < D := by linarith
  have hdiv : |fl64 (fl64 a + fl64 b) / D - (a + b) / D| ≤ 6 / 2 ^ 52 := by
    rw [← sub_div, abs_div, abs_of_pos hDp, div_le_iff₀ hDp]
    linarith
  have hbig : |fl64 (fl64 a + fl64 b) / D| ≤ 9 := by
    rw [abs_div, abs_of_pos hDp, div_le_iff₀ hDp]
    obtain ⟨f1, f2⟩ := abs_le.mp e4
    obtain ⟨g1, g2⟩ := abs_le.mp e3
    have : 4 * D / 2 ^ 52 ≤ D := by
      rw [div_le_iff₀ (by positivity)]; nlinarith
    rw [abs_le]; constructor <;> linarith
  have e5 := fl64_near (B := 9) (by norm_num) hbig
  obtain ⟨c1, c2⟩ := abs_le.mp e5
  obtain ⟨d1, d2⟩ := abs_le.mp hdiv
  rw [abs_le]; constructor <;> linarith

theorem line_unit {q p : Point} {x : Int} (hq : q.1 < x) (hp : x ≤ p.1)
    (hq1 : -1 ≤ q.2 ∧ q.2 ≤ 1) (hp1 : -1 ≤ p.2 ∧ p.2 ≤ 1) : |Ivs.lineAt q p x| ≤ 1 := by
  have hqx : (q.1 : ℚ) + 1 ≤ x := by exact_mod_cast hq
  have hxp : (x : ℚ) ≤ p.1 := by exact_mod_cast hp
  have hD : (0 : ℚ) < (p.1 : ℚ) - q.1 := by linarith
  have hline : Ivs.lineAt q p x = (q.2 * ((p.1 : ℚ) - x) + p.2 * ((x : ℚ) - q.1)) / ((p.1 : ℚ) - q.1) := by
    unfold Ivs.lineAt
    rw [eq_div_iff (by linarith), add_mul, div_mul_cancel₀ _ (by linarith)]
    ring
  have h0 : (0 : ℚ) ≤ (p.1 : ℚ) - x := by linarith
  have h1 : (0 : ℚ) ≤ (x : ℚ) - q.1 := by linarith
  rw [hline, abs_le]
  constructor
  · rw [le_div_iff₀ hD]; nlinarith [hq1.1, hp1.1]
  · rw [div_le_iff₀ hD]; nlinarith [hq1.2, hp1.2]

/-- A product with the amplitude of the event, in `float`. -/
theorem product_near {y z base : ℚ} (hb : 0 ≤ base ∧ base ≤ 1) (hz : |z| ≤ 1) (h : |y - z| ≤ 1 / 2 ^ 22) :
    |fl32 (y * base) - base * z| ≤ 1 / 2 ^ 21 := by
  obtain ⟨z1, z2⟩ := abs_le.mp hz
  obtain ⟨h1, h2⟩ := abs_le.mp h
  have hyb : |y * base| ≤ 5 / 4 := by
    rw [abs_mul, abs_of_nonneg hb.1]
    have : |y| ≤ 5 / 4 := by
      rw [abs_le]; constructor <;> linarith
    nlinarith [abs_nonneg y, hb.1, hb.2]
  have e := fl32_err (y * base) (5 / 4) (by norm_num) hyb
  have e2 : |y * base - base * z| ≤ 1 / 2 ^ 22 := by
    rw [show y * base - base * z = base * (y - z) by ring, abs_mul, abs_of_nonneg hb.1]
    nlinarith [abs_nonneg (y - z), hb.1, hb.2]
  obtain ⟨c1, c2⟩ := abs_le.mp e
  obtain ⟨d1, d2⟩ := abs_le.mp e2
  rw [abs_le]; constructor <;> linarith

theorem fl32_unit {v : ℚ} (h : |v| ≤ 1) : |fl32 v - v| ≤ 1 / 2 ^ 22 := by
  have := fl32_err v 1 le_rfl h
  linarith

theorem interpolated_near {q p : Point} {x : Int} {y base : ℚ} (hb : 0 ≤ base ∧ base ≤ 1) (hq : q.1 < x) (hp : x ≤ p.1)
    (hgq : 0 ≤ q.1 ∧ q.1 ≤ 2 ^ 30 ∧ -1 ≤ q.2 ∧ q.2 ≤ 1) (hgp : 0 ≤ p.1 ∧ p.1 ≤ 2 ^ 30 ∧ -1 ≤ p.2 ∧ p.2 ≤ 1)
    (h : interpolated q p x = .ok y) : |fl32 (y * base) - base * Ivs.lineAt q p x| ≤ 1 / 2 ^ 21 := by
  obtain ⟨w, hw, hw2⟩ := linear64_near hq hp (by omega) (by omega) hgq.2.2 hgp.2.2
  have hl := line_unit hq hp hgq.2.2 hgp.2.2
  refine product_near hb hl ?_
  unfold interpolated at h
  rw [hw] at h
  have h := Except.ok.inj h
  rw [← h]
  obtain ⟨l1, l2⟩ := abs_le.mp hl
  obtain ⟨w1, w2⟩ := abs_le.mp hw2
  have := fl32_err w (5 / 4) (by norm_num) (by rw [abs_le]; constructor <;> linarith)
  obtain ⟨c1, c2⟩ := abs_le.mp this
  rw [abs_le]; constructor <;> linarith

theorem toHz_near {f : ℚ} (h1 : -1 ≤ f) (h2 : f ≤ 1) : |toHz f - inHz f| ≤ 1 / 4000 := by
  unfold toHz normalize64 ACTUAL_FREQUENCY_MIN ACTUAL_FREQUENCY_MAX inHz
  have e1 : fl64 ((1 : ℚ) - 0) = 1 := by rw [sub_zero]; exact fl64_one
  have e2 : fl64 (((300 : Int) : ℚ) - ((65 : Int) : ℚ)) = 235 := by
    have := fl64_int 235 (by norm_num)
    rw [show ((300 : Int) : ℚ) - ((65 : Int) : ℚ) = ((235 : Int) : ℚ) by norm_num, this]; norm_num
  have e3 : fl64 (235 / 1) = 235 := by
    have := fl64_int 235 (by norm_num)
    rw [show (235 : ℚ) / 1 = ((235 : Int) : ℚ) by norm_num, this]; norm_num
  rw [e1, e2, if_pos (by norm_num), e3]
  have a := fl64_near (x := f - 1) (B := 2) (by norm_num) (by rw [abs_le]; constructor <;> linarith)
  obtain ⟨a1, a2⟩ := abs_le.mp a
  generalize fl64 (f - 1) = u at *
  have b := fl64_near (x := 235 * u) (B := 1000) (by norm_num) (by rw [abs_le]; constructor <;> linarith)
  obtain ⟨b1, b2⟩ := abs_le.mp b
  generalize fl64 (235 * u) = w at *
  have c := fl64_near (x := w + ((300 : Int) : ℚ)) (B := 2000) (by norm_num)
    (by push_cast; rw [abs_le]; constructor <;> linarith)
  push_cast at c ⊢
  obtain ⟨c1, c2⟩ := abs_le.mp c
  rw [abs_le]; constructor <;> linarith

theorem round_near (x : ℚ) : |roundAway x - x| ≤ 1 / 2 := by
  unfold roundAway
  split
  · have h1 := Int.floor_le (x + 1 / 2)
    have h2 := Int.lt_floor_add_one (x + 1 / 2)
    rw [abs_le]; constructor <;> linarith
  · have h1 := Int.le_ceil (x - 1 / 2)
    have h2 := Int.ceil_lt_add_one (x - 1 / 2)
    rw [abs_le]; constructor <;> linarith

theorem hz_near {f : ℚ} (h1 : -1 ≤ f) (h2 : f ≤ 1) : |(hz f : ℚ) - inHz f| ≤ 1 / 2 + 1 / 4000 := by
  unfold hz
  rw [truncQ_round]
  have a := round_near (toHz f)
  have b := toHz_near h1 h2
  obtain ⟨a1, a2⟩ := abs_le.mp a
  obtain ⟨b1, b2⟩ := abs_le.mp b
  rw [abs_le]; constructor <;> linarith

theorem hz_range {f : ℚ} (h1 : 0 ≤ f) (h2 : f ≤ 1) : 65 ≤ hz f ∧ hz f ≤ 300 := by
  have := hz_near (f := f) (by linarith) h2
  obtain ⟨a, b⟩ := abs_le.mp this
  unfold inHz at a b
  have l1 : (64 : ℚ) < hz f := by linarith
  have l2 : (hz f : ℚ) < 301 := by linarith
  constructor
  · have : (64 : Int) < hz f := by exact_mod_cast l1
    omega
  · have : hz f < 301 := by exact_mod_cast l2
    omega

theorem clamp01_near {x y d : ℚ} (hd : 0 ≤ d) (h : |x - y| ≤ d) : |clamp01 x - clamp01 y| ≤ d := by
  obtain ⟨a, b⟩ := abs_le.mp h
  unfold clamp01
  rw [abs_le]
  split_ifs <;> constructor <;> linarith

theorem hz_sum_near {v base : ℚ} (hv : -1 ≤ v ∧ v ≤ 1) (hb : 0 ≤ base ∧ base ≤ 1) :
    |(hz (clamp01 (fl64 (v + base))) : ℚ) - inHz (clamp01 (v + base))| ≤ 1 / 2 + 1 / 1000 := by
  have a := fl64_near (x := v + base) (B := 2) (by norm_num) (by rw [abs_le]; constructor <;> linarith)
  have b := clamp01_near (by positivity) a
  have c := hz_near (f := clamp01 (fl64 (v + base))) (by linarith [clamp01_nonneg (fl64 (v + base))]) (clamp01_le_one _)
  obtain ⟨b1, b2⟩ := abs_le.mp b
  obtain ⟨c1, c2⟩ := abs_le.mp c
  unfold inHz at *
  rw [abs_le]; constructor <;> linarith

/-! ### Neighbours in a curve -/

theorem exists_prev {points : List Point} (hr : Rising points) {r p : Point} (hrm : r ∈ points) (hp : p ∈ points)
    (h : r.1 < p.1) : ∃ q, Ivs.Neighbours points q p ∧ q.1 < p.1 := by
  induction points generalizing r with
  | nil => cases hp
  | cons z l ih =>
    obtain ⟨g1, g2⟩ := List.pairwise_cons.mp hr
    rcases List.mem_cons.mp hp with rfl | hp
    · rcases List.mem_cons.mp hrm with rfl | hrm
      · omega
      · have := g1 r hrm; omega
    · cases l with
      | nil => cases hp
      | cons y t =>
        rcases List.mem_cons.mp hp with rfl | hp'
        · exact ⟨z, ⟨[], t, rfl⟩, g1 p List.mem_cons_self⟩
        · have : y.1 < p.1 := (List.pairwise_cons.mp g2).1 p hp'
          obtain ⟨q, ⟨a, b, hab⟩, hq⟩ := ih g2 (r := y) List.mem_cons_self hp this
          exact ⟨q, ⟨z :: a, b, by rw [hab]; rfl⟩, hq⟩

theorem between_neighbours {points : List Point} (hr : Rising points) {p q r : Point} (h : Ivs.Neighbours points p q)
    (hrm : r ∈ points) (h1 : p.1 ≤ r.1) (h2 : r.1 < q.1) : r = p := by
  obtain ⟨a, b, rfl⟩ := h
  obtain ⟨u1, u2⟩ := rising_split hr
  rcases List.mem_append.mp hrm with hm | hm
  · have := u1 r hm; omega
  · rcases List.mem_cons.mp hm with rfl | hm
    · rfl
    · rcases List.mem_cons.mp hm with rfl | hm
      · omega
      · have := (List.pairwise_cons.mp (List.pairwise_cons.mp (List.pairwise_append.mp hr).2.1).2).1 r hm
        omega

theorem neighbour_not_last {points : List Point} (hr : Rising points) {p q : Point} (h : Ivs.Neighbours points p q) :
    points.getLast? ≠ some p := by
  intro hl
  have hlt : p.1 < q.1 := by
    obtain ⟨a, b, rfl⟩ := h
    exact (rising_split hr).2 q List.mem_cons_self
  rcases List.eq_nil_or_concat points with rfl | ⟨init, z, rfl⟩
  · cases hl
  · simp only [List.concat_eq_append] at *
    simp only [List.getLast?_append, List.getLast?_singleton, Option.some_or, Option.some.injEq] at hl
    subst hl
    exact last_not_neighbour hr h

theorem line_start (p q : Point) : Ivs.lineAt p q p.1 = p.2 := by
  unfold Ivs.lineAt; simp
theorem line_end (p q : Point) (h : p.1 < q.1) : Ivs.lineAt p q q.1 = q.2 := by
  unfold Ivs.lineAt
  have : (p.1 : ℚ) < q.1 := by exact_mod_cast h
  rw [mul_div_assoc, div_self (by linarith)]
  ring

/-! ### Amplitudes -/

theorem amplitudes_some {points : List Point} {position length : Int} {base : ℚ} {f : Int} {kfs : List Keyframe}
    {last : ℚ} (h : Amplitudes points position length base f kfs last) (x : Int) :
    (ampAt kfs x).isSome ↔ x = 0 ∨ ∃ p ∈ points, p.1 = position + x ∧ 0 < x ∧ x < length := by
  constructor
  · intro hs
    obtain ⟨xs, h1, h2⟩ := h.times
    by_contra hx
    rw [← h2] at hx
    rw [ampAt, kfAt_none h1 hx] at hs
    cases hs
  · rintro (rfl | ⟨p, hp, e1, e2, e3⟩)
    · obtain ⟨a, ha, -⟩ := h.start
      rw [ha]; rfl
    · rw [h.point p hp x e1 e2 e3]; rfl

theorem amplitudes_value {points : List Point} (hr : Rising points) (hg : GoodPoints points) {position length : Int}
    (hl : 1 ≤ length) {base : ℚ} (hb : 0 ≤ base ∧ base ≤ 1) {f : Int} {kfs : List Keyframe}
    {last : ℚ} (h : Amplitudes points position length base f kfs last) (x : Int) (a : ℚ) (ha : ampAt kfs x = some a) :
    IsAmplitude points position length base x a := by
  rcases (amplitudes_some h x).mp (by rw [ha]; rfl) with rfl | ⟨r, hrm, e1, e2, e3⟩
  · obtain ⟨a', ha', s1, s2, s3, s4⟩ := h.start
    rw [ha] at ha'
    obtain rfl := Option.some.inj ha'
    simp only [add_zero] at *
    refine ⟨?_, by simpa using s1, fun h1 _ => s2 (by simpa using h1)⟩
    intro p q hn hp hq
    simp only [add_zero] at hp hq ⊢
    have hq : position < q.1 := by
      rcases hq with hq | ⟨hq, -⟩
      · exact hq
      · omega
    rcases lt_or_eq_of_le hp with hp | hp
    · obtain ⟨y, hy, rfl⟩ := s4 p q hn hp hq
      exact interpolated_near hb hp hq.le (hg p (neighbours_mem hn).1) (hg q (neighbours_mem hn).2) hy
    · rw [s3 p q hn hp, ← hp, line_start]
      obtain ⟨-, -, v1, v2⟩ := hg p (neighbours_mem hn).1
      have hv : |p.2| ≤ 1 := abs_le.mpr ⟨v1, v2⟩
      rw [mul_comm base (fl32 p.2)]
      exact product_near hb hv (fl32_unit hv)
  · have hpt := h.point r hrm x e1 e2 e3
    rw [ha] at hpt
    have hpt := Option.some.inj hpt
    refine ⟨?_, ?_, ?_⟩
    · intro p q hn hp hq
      have hq : position + x < q.1 := by
        rcases hq with hq | ⟨hq, -⟩
        · exact hq
        · omega
      have : r = p := between_neighbours hr hn hrm (by omega) (by omega)
      subst this
      rw [if_neg (neighbour_not_last hr hn)] at hpt
      rw [hpt, ← e1, line_start]
      obtain ⟨-, -, v1, v2⟩ := hg r hrm
      have hv : |r.2| ≤ 1 := abs_le.mpr ⟨v1, v2⟩
      exact product_near hb hv (fl32_unit hv)
    · intro hall
      have := hall r hrm; omega
    · intro hall _
      have hlast : points.getLast? = some r := by
        rcases List.eq_nil_or_concat points with rfl | ⟨init, z, rfl⟩
        · cases hrm
        · simp only [List.concat_eq_append] at *
          have hz := hall z (by simp)
          simp only [List.getLast?_append, List.getLast?_singleton, Option.some_or, Option.some.injEq]
          rcases List.mem_append.mp hrm with hm | hm
          · have := (rising_split hr).1 r hm; omega
          · exact (List.mem_singleton.mp hm).symm
      rw [hpt, if_pos hlast]

theorem amplitudes_last {points : List Point} (hr : Rising points) (hg : GoodPoints points) {position length : Int}
    {base : ℚ} (hb : 0 ≤ base ∧ base ≤ 1) {f : Int} {kfs : List Keyframe}
    {last : ℚ} (h : Amplitudes points position length base f kfs last) :
    IsAmplitude points position length base length last := by
  refine ⟨?_, ?_, ?_⟩
  · intro p q hn hp hq
    have hpq : p.1 < q.1 := by
      obtain ⟨a, b, rfl⟩ := hn
      exact (rising_split hr).2 q List.mem_cons_self
    have hq : position + length ≤ q.1 := by
      rcases hq with hq | ⟨-, hq⟩ <;> omega
    have hpm := (neighbours_mem hn).1
    rcases lt_or_eq_of_le hp with hp | hp
    · obtain ⟨y, hy, rfl⟩ := h.lastNew p q hn hp hq
      exact interpolated_near hb hp hq (hg p hpm) (hg q (neighbours_mem hn).2) hy
    · obtain ⟨r, hrm, hr1⟩ := h.lastReached (List.ne_nil_of_mem hpm)
      obtain ⟨q', hn', hq'⟩ := exists_prev hr hrm hpm (by omega)
      obtain ⟨y, hy, rfl⟩ := h.lastNew q' p hn' (by omega) (by omega)
      have := interpolated_near hb (by omega) (by omega) (hg q' (neighbours_mem hn').1) (hg p hpm) hy
      rw [← hp] at this ⊢
      rw [line_start]
      rwa [line_end q' p hq'] at this
  · intro hall
    cases hpts : points with
    | nil => exact h.lastKeep (by rw [hpts]; simp)
    | cons z zs =>
      obtain ⟨r, hrm, hr1⟩ := h.lastReached (by rw [hpts]; simp)
      have := hall r hrm; omega
  · rintro - (hlt | hall)
    · omega
    · exact h.lastKeep hall

/-! ### Frequencies -/

theorem frequencies_some {points : List Point} {position length : Int} {base : ℚ} {f : Int} {kfs0 kfs : List Keyframe}
    {last : Int} (h : Frequencies points position length base f kfs0 kfs last)
    (h0 : ∀ y, freqAt kfs0 y = if y = 0 then some f else none) (x : Int) :
    (freqAt kfs x).isSome ↔ x = 0 ∨ ∃ p ∈ points, p.1 = position + x ∧ 0 < x ∧ x < length := by
  constructor
  · intro hs
    by_contra hx
    push Not at hx
    rw [h.other x hx.1 (fun p hp e1 hh => by have := hx.2 p hp e1 hh.1; omega), h0, if_neg hx.1] at hs
    cases hs
  · rintro (rfl | ⟨p, hp, e1, e2, e3⟩)
    · obtain ⟨g, hg, -⟩ := h.start
      rw [hg]; rfl
    · rw [h.point p hp x e1 e2 e3]; rfl

theorem frequencies_value {points : List Point} (hr : Rising points) (hg : GoodPoints points) {position length : Int}
    (hl : 1 ≤ length) {base : ℚ} (hb : 0 ≤ base ∧ base ≤ 1) {f : Int} {kfs0 kfs : List Keyframe}
    {last : Int} (h : Frequencies points position length base f kfs0 kfs last)
    (h0 : ∀ y, freqAt kfs0 y = if y = 0 then some f else none) (x : Int) (g : Int) (ha : freqAt kfs x = some g) :
    IsFrequency points position length base f x g := by
  rcases (frequencies_some h h0 x).mp (by rw [ha]; rfl) with rfl | ⟨r, hrm, e1, e2, e3⟩
  · obtain ⟨g', hg', s1, s2, s3, s4⟩ := h.start
    rw [ha] at hg'
    obtain rfl := Option.some.inj hg'
    refine ⟨?_, fun p _ _ h => absurd h (lt_irrefl 0), by simpa using s1, fun h1 _ => s2 (by simpa using h1),
      fun _ h => absurd h (lt_irrefl 0)⟩
    intro p q hn hp _
    simp only [add_zero] at hp
    rw [s3 p q hn hp]
    exact hz_sum_near (hg p (neighbours_mem hn).1).2.2 hb
  · have hpt := h.point r hrm x e1 e2 e3
    rw [ha] at hpt
    have hpt := Option.some.inj hpt
    refine ⟨?_, ?_, ?_, ?_, ?_⟩
    · intro p q hn hp _
      have : p = r := rising_unique hr (neighbours_mem hn).1 hrm (by omega)
      subst this
      rw [hpt, if_neg (neighbour_not_last hr hn)]
      exact hz_sum_near (hg p hrm).2.2 hb
    · intro p hp1 hp2 _ _
      have : p = r := rising_unique hr (List.mem_of_getLast? hp1) hrm (by omega)
      subst this
      rw [hpt, if_pos hp1]
      have := hz_near (f := base) (by linarith [hb.1]) hb.2
      linarith
    · intro hall
      have := hall r hrm; omega
    · rintro - (h1 | h1)
      · omega
      · have := h1 r hrm; omega
    · intro _ _ _
      rw [hpt]
      split
      · exact hz_range hb.1 hb.2
      · exact hz_range (clamp01_nonneg _) (clamp01_le_one _)

theorem frequencies_last {points : List Point} {position length : Int} (hl : 1 ≤ length)
    {base : ℚ} {f : Int} {kfs0 kfs : List Keyframe}
    {last : Int} (h : Frequencies points position length base f kfs0 kfs last) :
    IsFrequency points position length base f length last := by
  refine ⟨fun _ _ _ _ h => absurd h (lt_irrefl _), fun _ _ _ _ h => absurd h (lt_irrefl _), ?_, ?_,
    fun _ _ h => absurd h (lt_irrefl _)⟩
  · intro hall
    cases hpts : points with
    | nil => exact h.lastKeep (by rw [hpts]; simp)
    | cons z zs =>
      obtain ⟨r, hrm, hr1⟩ := h.lastReached (by rw [hpts]; simp)
      have := hall r hrm; omega
  · rintro - (hlt | hall)
    · omega
    · exact h.lastKeep hall

/-! ### Keyframes -/

theorem at_append {l : List Keyframe} {xs : List Int} (h : At l xs) {k : Keyframe} {x : Int}
    (hk : k.relativePosition = some x) (hx : ∀ y ∈ xs, y < x) : At (l ++ [k]) (xs ++ [x]) := by
  refine ⟨by rw [List.map_append, List.map_append, h.1, List.map_singleton, hk]; rfl, ?_⟩
  refine List.pairwise_append.mpr ⟨h.2, by simp, ?_⟩
  intro a ha b hb
  rw [List.mem_singleton.mp hb]
  exact hx a ha

/-- **C77.** The keyframes of a continuous event. -/
theorem c77_keyframes (A F : List Point) (hA : Rising A) (hF : Rising F) (gA : GoodPoints A) (gF : GoodPoints F)
    (position length : Int) (hl : 1 ≤ length) (a s : ℚ) (ha : 0 ≤ a ∧ a ≤ 1) (hs : 0 ≤ s ∧ s ≤ 1) (f : Int)
    (kfs : List Keyframe) (h : continuousKeyframes A F position length a s f = .ok kfs) :
    IsModulated A F position length a s f kfs := by
  unfold continuousKeyframes at h
  cases e1 : modulateAmplitude A position length a [⟨some 0, some a, some f⟩] with
  | error e => rw [e1] at h; cases h
  | ok r =>
    obtain ⟨k1, la⟩ := r
    rw [e1] at h
    change (modulateFrequency F position length s k1 f).bind _ = _ at h
    cases e2 : modulateFrequency F position length s k1 f with
    | error e => rw [e2] at h; cases h
    | ok r =>
      obtain ⟨k2, lf⟩ := r
      rw [e2] at h
      have h := Except.ok.inj h
      have MA := modulateAmplitude_spec A hA position length hl a f k1 la e1
      obtain ⟨xs1, t1, t2⟩ := MA.times
      obtain ⟨ys, rfl⟩ : ∃ ys, xs1 = 0 :: ys := by
        have hm : (0 : Int) ∈ xs1 := (t2 0).mpr (Or.inl rfl)
        cases xs1 with
        | nil => cases hm
        | cons z zs =>
          have hz : z = 0 := by
            rcases (t2 z).mp List.mem_cons_self with hz | ⟨p, -, -, hz, -⟩
            · exact hz
            · rcases List.mem_cons.mp hm with h0 | h0
              · exact h0.symm
              · have := (List.pairwise_cons.mp t1.2).1 0 h0
                omega
          exact ⟨zs, by rw [hz]⟩
      have hf0 : freqAt k1 0 = some f := by rw [MA.freq]; rfl
      have MF := modulateFrequency_spec F hF position length hl s hs f k1 k2 ys t1 hf0 lf e2
      obtain ⟨xs2, u1, u2⟩ := MF.times _ t1
      have hmem : ∀ x, x ∈ xs2 ↔ x = 0 ∨ ∃ p ∈ A ++ F, p.1 = position + x ∧ 0 < x ∧ x < length := by
        intro x
        rw [u2, t2]
        constructor
        · rintro ((h0 | ⟨p, hp, e⟩) | ⟨p, hp, e⟩)
          · exact Or.inl h0
          · exact Or.inr ⟨p, List.mem_append_left _ hp, e⟩
          · exact Or.inr ⟨p, List.mem_append_right _ hp, e⟩
        · rintro (h0 | ⟨p, hp, e⟩)
          · exact Or.inl (Or.inl h0)
          · rcases List.mem_append.mp hp with hp | hp
            · exact Or.inl (Or.inr ⟨p, hp, e⟩)
            · exact Or.inr ⟨p, hp, e⟩
      have hlt : ∀ x ∈ xs2, x < length := by
        intro x hx
        rcases (hmem x).mp hx with rfl | ⟨p, -, -, -, h3⟩
        · omega
        · exact h3
      -- a keyframe is the last one, or one of `k2`
      have hcase : ∀ k ∈ kfs, ∀ x, k.relativePosition = some x →
          (x = length ∧ k.amplitudeModulation = some la ∧ k.frequencyModulation = some lf) ∨
          (x < length ∧ k.amplitudeModulation = ampAt k1 x ∧ k.frequencyModulation = freqAt k2 x) := by
        intro k hk x hx
        rw [← h] at hk
        rcases List.mem_append.mp hk with hk | hk
        · obtain ⟨y, hy, e3, e4⟩ := kfAt_mem u1 hk
          rw [hx] at e3
          obtain rfl := Option.some.inj e3
          refine Or.inr ⟨hlt x hy, ?_, ?_⟩
          · rw [← MF.amp, ampAt, e4]; rfl
          · rw [freqAt, e4]; rfl
        · rw [List.mem_singleton.mp hk] at hx ⊢
          exact Or.inl ⟨(Option.some.inj hx).symm, rfl, rfl⟩
      have hreach : ∀ k ∈ kfs, ∀ x, k.relativePosition = some x → 0 ≤ x ∧ x ≤ length := by
        intro k hk x hx
        rw [← h] at hk
        rcases List.mem_append.mp hk with hk | hk
        · obtain ⟨y, hy, e3, e4⟩ := kfAt_mem u1 hk
          rw [hx] at e3
          obtain rfl := Option.some.inj e3
          rcases (hmem x).mp hy with rfl | ⟨p, -, -, h1, h2⟩ <;> omega
        · rw [List.mem_singleton.mp hk] at hx
          have := Option.some.inj hx
          omega
      refine ⟨?_, ?_, ?_⟩
      · refine ⟨xs2 ++ [length], ?_, fun x => ?_⟩
        · rw [← h]
          exact at_append u1 rfl hlt
        · rw [List.mem_append, hmem, List.mem_singleton]
          exact or_assoc.trans (or_congr_right or_comm)
      · intro k hk x hx
        rcases hcase k hk x hx with ⟨rfl, h1, h2⟩ | ⟨h1, h2, h3⟩
        · rw [h1]
          refine ⟨⟨fun _ => Or.inr (Or.inl rfl), fun _ => rfl⟩, fun b hb => ?_⟩
          rw [← Option.some.inj hb]
          exact amplitudes_last hA gA ha MA
        · rw [h2]
          refine ⟨?_, fun b hb => amplitudes_value hA gA hl ha MA x b hb⟩
          rw [amplitudes_some MA]
          have hx0 := hreach k hk x hx
          constructor
          · rintro (h0 | ⟨p, hp, e, -⟩)
            · exact Or.inl h0
            · exact Or.inr (Or.inr ⟨p, hp, e⟩)
          · rintro (h0 | h0 | ⟨p, hp, e⟩)
            · exact Or.inl h0
            · omega
            · by_cases h0 : x = 0
              · exact Or.inl h0
              · exact Or.inr ⟨p, hp, e, by omega, h1⟩
      · intro k hk x hx
        rcases hcase k hk x hx with ⟨rfl, h1, h2⟩ | ⟨h1, h2, h3⟩
        · rw [h2]
          refine ⟨⟨fun _ => Or.inr (Or.inl rfl), fun _ => rfl⟩, fun b hb => ?_⟩
          rw [← Option.some.inj hb]
          exact frequencies_last hl MF
        · rw [h3]
          refine ⟨?_, fun b hb => frequencies_value hF gF hl hs MF MA.freq x b hb⟩
          rw [frequencies_some MF MA.freq]
          have hx0 := hreach k hk x hx
          constructor
          · rintro (h0 | ⟨p, hp, e, -⟩)
            · exact Or.inl h0
            · exact Or.inr (Or.inr ⟨p, hp, e⟩)
          · rintro (h0 | h0 | ⟨p, hp, e⟩)
            · exact Or.inl h0
            · omega
            · by_cases h0 : x = 0
              · exact Or.inl h0
              · exact Or.inr ⟨p, hp, e, by omega, h1⟩

end Haptics.Ahap
