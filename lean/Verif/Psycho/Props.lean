import Verif.Psycho.Model
import Verif.Psycho.Spec
import Mathlib.Tactic.Linarith
import Mathlib.Data.Finset.Max
import Mathlib.Order.Interval.Finset.Nat
import Mathlib.Tactic.FieldSimp
import Mathlib.Tactic.Positivity
import Mathlib.Tactic.Ring

/-! C86: the peaks of a spectrum, and the mask they make. -/

namespace Haptics.Psycho
open Haptics

theorem get_ok (x : List ℚ) (i : ℕ) (h : i < x.length) : get x i = .ok (x.getD i 0) := by
  unfold get
  rw [List.getD_eq_getElem?_getD, List.getElem?_eq_getElem h]
  rfl

theorem plateauEnd_spec (x : List ℚ) (v : ℚ) : ∀ (rest : List ℚ) (q : ℕ), rest = x.drop q → q ≤ x.length →
    q ≤ plateauEnd v rest q ∧ plateauEnd v rest q ≤ x.length ∧ ∀ s, q ≤ s → s < plateauEnd v rest q → x.getD s 0 = v
  | [], q, _, hq => ⟨le_rfl, hq, fun s h1 h2 => absurd h2 (by unfold plateauEnd; omega)⟩
  | a :: l, q, hr, hq => by
    have hlt : q < x.length := by
      by_contra hc
      rw [List.drop_of_length_le (by omega)] at hr
      cases hr
    have ha : x.getD q 0 = a := by
      have : (x.drop q)[0]? = some a := by rw [← hr]; rfl
      rw [List.getElem?_drop, Nat.add_zero] at this
      rw [List.getD_eq_getElem?_getD, this]
      rfl
    have hl : l = x.drop (q + 1) := by
      rw [← List.tail_drop, ← hr]
      rfl
    unfold plateauEnd
    split
    · exact ⟨le_rfl, hq, fun s h1 h2 => absurd h2 (by omega)⟩
    · rename_i hav
      push Not at hav
      obtain ⟨h1, h2, h3⟩ := plateauEnd_spec x v l (q + 1) hl hlt
      refine ⟨by omega, h2, ?_⟩
      intro s hs1 hs2
      rcases Nat.eq_or_lt_of_le hs1 with h | h
      · rw [← h, ha, hav]
      · exact h3 s h hs2

/-- What `findAllPeakLocations` finds from `i` on: inner bins or the last one, in order, with their heights. -/
def Found (x : List ℚ) (i : ℕ) (ps : List (ℕ × ℚ)) : Prop :=
  (∀ p ∈ ps, i ≤ p.1 ∧ p.1 < x.length ∧ p.2 = x.getD p.1 0) ∧ ps.Pairwise (fun a b => a.1 < b.1)

theorem Found.mono {x : List ℚ} {i j : ℕ} {ps : List (ℕ × ℚ)} (h : Found x j ps) (hij : i ≤ j) : Found x i ps :=
  ⟨fun p hp => ⟨hij.trans (h.1 p hp).1, (h.1 p hp).2⟩, h.2⟩

theorem Found.cons {x : List ℚ} {j : ℕ} {ps : List (ℕ × ℚ)} (h : Found x j ps) (i l : ℕ) (v : ℚ) (hi : i ≤ l) (hj : l < j)
    (hl : l < x.length) (hv : v = x.getD l 0) : Found x i ((l, v) :: ps) := by
  constructor
  · intro p hp
    rcases List.mem_cons.1 hp with rfl | hp
    · exact ⟨hi, hl, hv⟩
    · obtain ⟨a, b, c⟩ := h.1 p hp
      exact ⟨by omega, b, c⟩
  · refine List.pairwise_cons.2 ⟨?_, h.2⟩
    intro p hp
    have := (h.1 p hp).1
    simp only
    omega

theorem findLoop_safe (x : List ℚ) : ∀ (fuel i : ℕ), 1 ≤ i → x.length ≤ fuel + i →
    ∃ ps, findLoop x fuel i = .ok ps ∧ Found x i ps
  | 0, i, _, hf => ⟨[], by unfold findLoop; rw [if_neg (by omega)], by simp [Found]⟩
  | fuel + 1, i, hi, hf => by
    by_cases hc : i < x.length - 1
    · obtain ⟨m1, e1, f1⟩ := findLoop_safe x fuel (i + 1) (by omega) (by omega)
      unfold findLoop
      rw [if_pos hc, get_ok x _ (by omega), get_ok x _ (by omega)]
      simp only [bind, Except.bind]
      by_cases c1 : x.getD (i - 1) 0 < x.getD i 0
      · rw [if_pos c1, get_ok x _ (by omega)]
        simp only
        by_cases c2 : x.getD (i + 1) 0 < x.getD i 0
        · rw [if_pos c2, e1]
          exact ⟨_, rfl, f1.cons i i _ le_rfl (by omega) (by omega) rfl⟩
        · rw [if_neg c2]
          by_cases c3 : i + 1 < x.length ∧ x.getD (i + 1) 0 = x.getD i 0
          · rw [if_pos c3]
            set v := x.getD i 0 with hv
            obtain ⟨p1, p2, p3⟩ := plateauEnd_spec x v (x.drop (i + 1)) (i + 1) rfl (by omega)
            set p := plateauEnd v (x.drop (i + 1)) (i + 1) with hp
            obtain ⟨m2, e2, f2⟩ := findLoop_safe x fuel (p + 1) (by omega) (by omega)
            have hpeak : x.getD ((i + p) / 2) 0 = v := by
              rcases Nat.eq_or_lt_of_le (show i ≤ (i + p) / 2 by omega) with h | h
              · rw [← h]
              · exact p3 _ (by omega) (by omega)
            have hpp : plateauPeak x i p v = .ok (some ((i + p) / 2, v)) ∨ plateauPeak x i p v = .ok none := by
              unfold plateauPeak
              simp only
              rw [if_neg (show ¬ (i + p) / 2 ≥ x.length by omega)]
              by_cases c4 : p ≥ x.length - 1
              · rw [if_pos c4]; exact .inl rfl
              · rw [if_neg c4, get_ok x _ (by omega)]
                simp only [bind, Except.bind]
                split
                · exact .inl rfl
                · exact .inr rfl
            rcases hpp with h | h <;> rw [h] <;> simp only
            · rw [e2]
              exact ⟨_, rfl, f2.cons i _ _ (by omega) (by omega) (by omega) hpeak.symm⟩
            · rw [e1]
              exact ⟨_, rfl, f1.mono (by omega)⟩
          · rw [if_neg c3, e1]
            exact ⟨_, rfl, f1.mono (by omega)⟩
      · rw [if_neg c1, e1]
        exact ⟨_, rfl, f1.mono (by omega)⟩
    · unfold findLoop
      rw [if_neg hc]
      exact ⟨[], rfl, by simp [Found]⟩

theorem valleyLoop_spec (x : List ℚ) : ∀ (js : List ℕ) (m : ℚ) (v : ℕ), (∀ j ∈ js, j < x.length) →
    ∃ r, valleyLoop x js m v = .ok r ∧
      ((r = v ∧ ∀ j ∈ js, m < x.getD j 0) ∨ (r ∈ js ∧ x.getD r 0 ≤ m ∧ ∀ j ∈ js, x.getD r 0 ≤ x.getD j 0))
  | [], m, v, _ => ⟨v, rfl, .inl ⟨rfl, by simp⟩⟩
  | j :: js, m, v, h => by
    unfold valleyLoop
    rw [get_ok x j (h j (by simp))]
    simp only [bind, Except.bind]
    by_cases c : x.getD j 0 ≤ m
    · rw [if_pos c]
      obtain ⟨r, e, hr⟩ := valleyLoop_spec x js (x.getD j 0) j (fun i hi => h i (by simp [hi]))
      refine ⟨r, e, .inr ?_⟩
      rcases hr with ⟨rfl, hr⟩ | ⟨h1, h2, h3⟩
      · refine ⟨by simp, c, ?_⟩
        intro i hi
        rcases List.mem_cons.1 hi with rfl | hi
        · exact le_rfl
        · exact (hr i hi).le
      · refine ⟨by simp [h1], h2.trans c, ?_⟩
        intro i hi
        rcases List.mem_cons.1 hi with rfl | hi
        · exact h2
        · exact h3 i hi
    · rw [if_neg c]
      push Not at c
      obtain ⟨r, e, hr⟩ := valleyLoop_spec x js m v (fun i hi => h i (by simp [hi]))
      refine ⟨r, e, ?_⟩
      rcases hr with ⟨h1, h2⟩ | ⟨h1, h2, h3⟩
      · refine .inl ⟨h1, ?_⟩
        intro i hi
        rcases List.mem_cons.1 hi with rfl | hi
        · exact c
        · exact h2 i hi
      · refine .inr ⟨by simp [h1], h2, ?_⟩
        intro i hi
        rcases List.mem_cons.1 hi with rfl | hi
        · exact h2.trans c.le
        · exact h3 i hi

theorem firstHigher_spec (h : ℚ) (ps : List (ℕ × ℚ)) (l : ℕ) (e : firstHigher h ps = some l) :
    ∃ p ∈ ps, p.1 = l ∧ h < p.2 := by
  unfold firstHigher at e
  rw [Option.map_eq_some_iff] at e
  obtain ⟨p, hp, rfl⟩ := e
  exact ⟨p, List.mem_of_find?_eq_some hp, rfl, by simpa using List.find?_some hp⟩

theorem firstHigher_first (h : ℚ) (R : ℕ → ℕ → Prop) : ∀ (ps : List (ℕ × ℚ)),
    ps.Pairwise (fun a b => R a.1 b.1) → ∀ p ∈ ps, h < p.2 → ∃ l, firstHigher h ps = some l ∧ (l = p.1 ∨ R l p.1)
  | [], _, p, hp, _ => by cases hp
  | a :: ps, hw, p, hp, hh => by
    obtain ⟨h1, h2⟩ := List.pairwise_cons.1 hw
    unfold firstHigher
    rw [List.find?_cons]
    by_cases c : h < a.2
    · rw [show decide (a.2 > h) = true from decide_eq_true c]
      refine ⟨a.1, rfl, ?_⟩
      rcases List.mem_cons.1 hp with rfl | hp
      · exact .inl rfl
      · exact .inr (h1 p hp)
    · rw [show decide (a.2 > h) = false from decide_eq_false c]
      rcases List.mem_cons.1 hp with rfl | hp
      · exact absurd hh c
      · exact firstHigher_first h R ps h2 p hp hh

theorem prominence_safe (x : List ℚ) (before after : List (ℕ × ℚ)) (p : ℕ × ℚ) (hp : p.1 < x.length)
    (ha : ∀ q ∈ after, q.1 < x.length) : ∃ h, prominence x before p after = .ok h := by
  unfold prominence
  obtain ⟨l, el, hl⟩ := valleyLoop_spec x
    ((List.range (p.1 - (firstHigher p.2 before).getD 0)).map (fun d => p.1 - 1 - d)) p.2 0 (by
      intro j hj
      obtain ⟨d, -, rfl⟩ := List.mem_map.1 hj
      omega)
  have hjmax : (firstHigher p.2 after).getD (x.length - 1) < x.length := by
    cases e : firstHigher p.2 after with
    | none => simp only [Option.getD_none]; omega
    | some l =>
      obtain ⟨q, hq, rfl, -⟩ := firstHigher_spec _ _ _ e
      exact ha q hq
  obtain ⟨r, er, hr⟩ := valleyLoop_spec x
    ((List.range ((firstHigher p.2 after).getD (x.length - 1) - p.1)).map (fun d => p.1 + 1 + d)) p.2 0 (by
      intro j hj
      obtain ⟨d, hd, rfl⟩ := List.mem_map.1 hj
      rw [List.mem_range] at hd
      omega)
  have l1 : l < x.length := by
    rcases hl with ⟨rfl, -⟩ | ⟨h, -⟩
    · omega
    · obtain ⟨d, hd, rfl⟩ := List.mem_map.1 h
      omega
  have r1 : r < x.length := by
    rcases hr with ⟨rfl, -⟩ | ⟨h, -⟩
    · omega
    · obtain ⟨d, hd, rfl⟩ := List.mem_map.1 h
      rw [List.mem_range] at hd
      omega
  simp only [el, er, get_ok x l l1, get_ok x r r1, bind, Except.bind]
  exact ⟨_, rfl⟩

theorem prominenceLoop_safe (x : List ℚ) : ∀ (ps before : List (ℕ × ℚ)), (∀ q ∈ ps, q.1 < x.length) →
    ∃ rs, prominenceLoop x before ps = .ok rs ∧ rs.map (·.1) = ps.map (·.1)
  | [], _, _ => ⟨[], rfl, rfl⟩
  | p :: ps, before, h => by
    obtain ⟨v, hv⟩ := prominence_safe x before ps p (h p (by simp)) (fun q hq => h q (by simp [hq]))
    obtain ⟨rs, hrs, hm⟩ := prominenceLoop_safe x ps (p :: before) (fun q hq => h q (by simp [hq]))
    refine ⟨(p.1, v) :: rs, ?_, by simp [hm]⟩
    unfold prominenceLoop
    rw [hv, hrs]
    rfl

theorem heights_spec (x : List ℚ) : ∀ (ps : List (ℕ × ℚ)), (∀ q ∈ ps, q.1 < x.length) →
    heights x ps = .ok (ps.map (fun p => (p.1, x.getD p.1 0)))
  | [], _ => rfl
  | p :: ps, h => by
    unfold heights
    rw [get_ok x _ (h p (by simp)), heights_spec x ps (fun q hq => h q (by simp [hq]))]
    rfl

/-- **C86 (every spectrum).** Finding the peaks stays inside the spectrum, and ends.  The peaks come in increasing order,
have the height of the spectrum, and are never at bin 0. -/
theorem c86_safe (x : List ℚ) (minProminence minHeight : ℚ) : ∃ ps, findPeaks x minProminence minHeight = .ok ps ∧
    ps.Pairwise (fun a b => a.1 < b.1) ∧
    ∀ p ∈ ps, 1 ≤ p.1 ∧ p.1 < x.length ∧ p.2 = x.getD p.1 0 ∧ minHeight ≤ p.2 := by
  unfold findPeaks
  by_cases h0 : x = []
  · rw [if_pos h0]; exact ⟨[], rfl, List.Pairwise.nil, by simp⟩
  · rw [if_neg h0]
    obtain ⟨all, e1, f1, f2⟩ := findLoop_safe x x.length 1 le_rfl (by omega)
    simp only [findAllPeakLocations, e1, bind, Except.bind]
    by_cases h1 : all = []
    · rw [if_pos h1]; exact ⟨[], rfl, List.Pairwise.nil, by simp⟩
    · rw [if_neg h1]
      by_cases h2 : filterPeakCriterion all minHeight = []
      · rw [if_pos h2]; exact ⟨[], rfl, List.Pairwise.nil, by simp⟩
      · rw [if_neg h2]
        have hhigh : ∀ q ∈ filterPeakCriterion all minHeight, 1 ≤ q.1 ∧ q.1 < x.length ∧ q.2 = x.getD q.1 0 ∧
            minHeight ≤ q.2 := by
          intro q hq
          obtain ⟨a, b⟩ := List.mem_filter.1 hq
          obtain ⟨c, d, e⟩ := f1 q a
          exact ⟨c, d, e, by simpa using b⟩
        obtain ⟨rs, e2, hm⟩ := prominenceLoop_safe x (filterPeakCriterion all minHeight) [] (fun q hq => (hhigh q hq).2.1)
        have hr : ∀ q ∈ filterPeakCriterion rs minProminence, ∃ p ∈ filterPeakCriterion all minHeight, p.1 = q.1 := by
          intro q hq
          have : q.1 ∈ rs.map (·.1) := List.mem_map.2 ⟨q, (List.mem_filter.1 hq).1, rfl⟩
          rw [hm] at this
          exact List.mem_map.1 this
        simp only [e2]
        rw [heights_spec x _ (fun q hq => by
          obtain ⟨p, hp, e⟩ := hr q hq
          rw [← e]; exact (hhigh p hp).2.1)]
        refine ⟨_, rfl, ?_, ?_⟩
        · rw [List.pairwise_map]
          have hw : (rs.map (·.1)).Pairwise (· < ·) := by
            rw [hm, List.pairwise_map]
            exact f2.filter _
          rw [List.pairwise_map] at hw
          exact hw.filter _
        · intro p hp
          obtain ⟨q, hq, rfl⟩ := List.mem_map.1 hp
          obtain ⟨p, hp, e⟩ := hr q hq
          obtain ⟨a, b, c, d⟩ := hhigh p hp
          rw [← e]
          exact ⟨a, b, rfl, by rw [← c]; exact d⟩

/-! ### Spectra without plateaus -/

theorem findLoop_exact (x : List ℚ) (hd : Distinct x) : ∀ (fuel i : ℕ), 1 ≤ i → x.length ≤ fuel + i →
    ∃ ps, findLoop x fuel i = .ok ps ∧ ∀ l v, (l, v) ∈ ps ↔ i ≤ l ∧ LocalMax x l ∧ v = x.getD l 0
  | 0, i, hi, hf => by
    refine ⟨[], by unfold findLoop; rw [if_neg (by omega)], ?_⟩
    intro l v
    simp only [List.not_mem_nil, false_iff, not_and]
    intro h1 h2
    have := h2.2.1
    omega
  | fuel + 1, i, hi, hf => by
    by_cases hc : i < x.length - 1
    · obtain ⟨m1, e1, f1⟩ := findLoop_exact x hd fuel (i + 1) (by omega) (by omega)
      unfold findLoop
      rw [if_pos hc, get_ok x _ (by omega), get_ok x _ (by omega)]
      simp only [bind, Except.bind]
      have skip : ¬ LocalMax x i → ∀ l v, (l, v) ∈ m1 ↔ i ≤ l ∧ LocalMax x l ∧ v = x.getD l 0 := by
        intro hn l v
        rw [f1]
        constructor
        · rintro ⟨a, b⟩; exact ⟨by omega, b⟩
        · rintro ⟨a, b, c⟩
          refine ⟨?_, b, c⟩
          rcases Nat.eq_or_lt_of_le a with h | h
          · rw [← h] at b; exact absurd b hn
          · exact h
      by_cases c1 : x.getD (i - 1) 0 < x.getD i 0
      · rw [if_pos c1, get_ok x _ (by omega)]
        simp only
        by_cases c2 : x.getD (i + 1) 0 < x.getD i 0
        · rw [if_pos c2, e1]
          refine ⟨_, rfl, ?_⟩
          intro l v
          rw [List.mem_cons, f1, Prod.mk.injEq]
          constructor
          · rintro (⟨rfl, rfl⟩ | ⟨a, b⟩)
            · exact ⟨le_rfl, ⟨hi, by omega, c1, c2⟩, rfl⟩
            · exact ⟨by omega, b⟩
          · rintro ⟨a, b, c⟩
            rcases Nat.eq_or_lt_of_le a with h | h
            · exact .inl ⟨h.symm, by rw [c, h]⟩
            · exact .inr ⟨h, b, c⟩
        · rw [if_neg c2, if_neg (fun h => hd i (by omega) h.2.symm), e1]
          exact ⟨_, rfl, skip (fun h => c2 h.2.2.2)⟩
      · rw [if_neg c1, e1]
        exact ⟨_, rfl, skip (fun h => c1 h.2.2.1)⟩
    · unfold findLoop
      rw [if_neg hc]
      refine ⟨[], rfl, ?_⟩
      intro l v
      simp only [List.not_mem_nil, false_iff, not_and]
      intro h1 h2
      have := h2.2.1
      omega

/-- Between two bins that are not above `h` there is a peak above `h`, if there is anything above it. -/
theorem exists_peak (x : List ℚ) (hd : Distinct x) (h : ℚ) (r q l : ℕ) (hl : l < x.length) (h1 : r < q) (h2 : q < l)
    (hr : x.getD r 0 ≤ h) (hq : h < x.getD q 0) (hll : x.getD l 0 ≤ h) :
    ∃ s, r < s ∧ s < l ∧ LocalMax x s ∧ h < x.getD s 0 := by
  obtain ⟨s, hs, hmax⟩ := Finset.exists_max_image (Finset.Ioo r l) (fun i => x.getD i 0)
    ⟨q, Finset.mem_Ioo.2 ⟨h1, h2⟩⟩
  rw [Finset.mem_Ioo] at hs
  have hsq : h < x.getD s 0 := lt_of_lt_of_le hq (hmax q (Finset.mem_Ioo.2 ⟨h1, h2⟩))
  refine ⟨s, hs.1, hs.2, ⟨by omega, by omega, ?_, ?_⟩, hsq⟩
  · rcases Nat.eq_or_lt_of_le (show r ≤ s - 1 by omega) with e | e
    · rw [← e]; linarith
    · have a := hmax (s - 1) (Finset.mem_Ioo.2 ⟨e, by omega⟩)
      have b := hd (s - 1) (by omega)
      rw [show s - 1 + 1 = s by omega] at b
      exact lt_of_le_of_ne a b
  · rcases Nat.eq_or_lt_of_le (show s + 1 ≤ l by omega) with e | e
    · rw [e]; linarith
    · have a := hmax (s + 1) (Finset.mem_Ioo.2 ⟨by omega, e⟩)
      exact lt_of_le_of_ne a (hd s (by omega)).symm

theorem prominence_exact (x : List ℚ) (hd : Distinct x) (minProminence minHeight : ℚ) (hp0 : 0 ≤ minProminence)
    (before after : List (ℕ × ℚ)) (p : ℕ × ℚ) (hp : LocalMax x p.1) (hv : p.2 = x.getD p.1 0) (hh : minHeight ≤ p.2)
    (hb : ∀ q ∈ before, q.1 < p.1 ∧ q.2 = x.getD q.1 0) (ha : ∀ q ∈ after, p.1 < q.1 ∧ q.1 < x.length ∧ q.2 = x.getD q.1 0)
    (wb : before.Pairwise (fun a b => b.1 < a.1)) (wa : after.Pairwise (fun a b => a.1 < b.1))
    (allb : ∀ s < p.1, LocalMax x s → minHeight ≤ x.getD s 0 → (s, x.getD s 0) ∈ before)
    (alla : ∀ s, p.1 < s → LocalMax x s → minHeight ≤ x.getD s 0 → (s, x.getD s 0) ∈ after) :
    ∃ h, prominence x before p after = .ok h ∧ (minProminence ≤ h ↔ Prominent x p.1 minProminence) := by
  obtain ⟨g1, g2, g3, g4⟩ := hp
  obtain ⟨pl, pv⟩ := p
  simp only at *
  subst hv
  set h := x.getD pl 0 with hh'
  have hl : (firstHigher h before).getD 0 < pl := by
    cases e : firstHigher h before with
    | none => simp only [Option.getD_none]; omega
    | some l =>
      obtain ⟨q, hq, rfl, -⟩ := firstHigher_spec _ _ _ e
      exact (hb q hq).1
  have hr : pl < (firstHigher h after).getD (x.length - 1) ∧ (firstHigher h after).getD (x.length - 1) < x.length := by
    cases e : firstHigher h after with
    | none => simp only [Option.getD_none]; omega
    | some l =>
      obtain ⟨q, hq, rfl, -⟩ := firstHigher_spec _ _ _ e
      exact ⟨(ha q hq).1, (ha q hq).2.1⟩
  -- no sample between the nearest higher peak and this one is higher
  have leftLow : ∀ r, (firstHigher h before).getD 0 ≤ r → r < pl → x.getD r 0 ≤ h → ∀ s, r < s → s < pl → x.getD s 0 ≤ h := by
    intro r hr1 hr2 hr3 s hs1 hs2
    by_contra hc
    push Not at hc
    obtain ⟨t, t1, t2, t3, t4⟩ := exists_peak x hd h r s pl (by omega) hs1 hs2 hr3 hc le_rfl
    obtain ⟨l, e, hle⟩ := firstHigher_first h (fun a b => b < a) before wb _ (allb t t2 t3 (by linarith)) t4
    rw [e, Option.getD_some] at hr1
    simp only at hle
    omega
  have rightLow : ∀ r, r ≤ (firstHigher h after).getD (x.length - 1) → pl < r → x.getD r 0 ≤ h →
      ∀ s, pl < s → s < r → x.getD s 0 ≤ h := by
    intro r hr1 hr2 hr3 s hs1 hs2
    by_contra hc
    push Not at hc
    obtain ⟨t, t1, t2, t3, t4⟩ := exists_peak x hd h pl s r (by omega) hs1 hs2 le_rfl hc hr3
    obtain ⟨l, e, hle⟩ := firstHigher_first h (fun a b => a < b) after wa _ (alla t t1 t3 (by linarith)) t4
    rw [e, Option.getD_some] at hr1
    simp only at hle
    omega
  -- the nearest higher peak itself is higher
  have leftHigh : ∀ r < pl, x.getD r 0 ≤ h → (∀ s, r < s → s < pl → x.getD s 0 ≤ h) → (firstHigher h before).getD 0 ≤ r := by
    intro r hr1 hr2 hr3
    cases e : firstHigher h before with
    | none => simp
    | some l =>
      obtain ⟨q, hq, rfl, hq2⟩ := firstHigher_spec _ _ _ e
      rw [(hb q hq).2] at hq2
      rw [Option.getD_some]
      by_contra hc
      have := hr3 q.1 (by omega) (hb q hq).1
      linarith
  have rightHigh : ∀ r, pl < r → r < x.length → x.getD r 0 ≤ h → (∀ s, pl < s → s < r → x.getD s 0 ≤ h) →
      r ≤ (firstHigher h after).getD (x.length - 1) := by
    intro r hr1 hr1' hr2 hr3
    cases e : firstHigher h after with
    | none => simp only [Option.getD_none]; omega
    | some l =>
      obtain ⟨q, hq, rfl, hq2⟩ := firstHigher_spec _ _ _ e
      rw [(ha q hq).2.2] at hq2
      rw [Option.getD_some]
      by_contra hc
      have := hr3 q.1 (ha q hq).1 (by omega)
      linarith
  obtain ⟨l, el, hl'⟩ := valleyLoop_spec x
    ((List.range (pl - (firstHigher h before).getD 0)).map (fun d => pl - 1 - d)) h 0 (by
      intro j hj
      obtain ⟨d, -, rfl⟩ := List.mem_map.1 hj
      omega)
  obtain ⟨r, er, hr'⟩ := valleyLoop_spec x
    ((List.range ((firstHigher h after).getD (x.length - 1) - pl)).map (fun d => pl + 1 + d)) h 0 (by
      intro j hj
      obtain ⟨d, hd, rfl⟩ := List.mem_map.1 hj
      rw [List.mem_range] at hd
      omega)
  set jmin := (firstHigher h before).getD 0 with hjmin
  set jmax := (firstHigher h after).getD (x.length - 1) with hjmax
  have memL : ∀ j, j ∈ (List.range (pl - jmin)).map (fun d => pl - 1 - d) ↔ jmin ≤ j ∧ j < pl := by
    intro j
    rw [List.mem_map]
    constructor
    · rintro ⟨d, hd, rfl⟩
      rw [List.mem_range] at hd
      omega
    · rintro ⟨h1, h2⟩
      exact ⟨pl - 1 - j, by rw [List.mem_range]; omega, by omega⟩
  have memR : ∀ j, j ∈ (List.range (jmax - pl)).map (fun d => pl + 1 + d) ↔ pl < j ∧ j ≤ jmax := by
    intro j
    rw [List.mem_map]
    constructor
    · rintro ⟨d, hd, rfl⟩
      rw [List.mem_range] at hd
      omega
    · rintro ⟨h1, h2⟩
      exact ⟨j - (pl + 1), by rw [List.mem_range]; omega, by omega⟩
  simp only [memL] at hl'
  simp only [memR] at hr'
  obtain ⟨⟨l1, l2⟩, -, l3⟩ : (jmin ≤ l ∧ l < pl) ∧ x.getD l 0 ≤ h ∧ ∀ j, jmin ≤ j ∧ j < pl → x.getD l 0 ≤ x.getD j 0 := by
    rcases hl' with ⟨-, hc⟩ | hc
    · have := hc (pl - 1) ⟨by omega, by omega⟩
      linarith
    · exact hc
  obtain ⟨⟨r1, r2⟩, -, r3⟩ : (pl < r ∧ r ≤ jmax) ∧ x.getD r 0 ≤ h ∧ ∀ j, pl < j ∧ j ≤ jmax → x.getD r 0 ≤ x.getD j 0 := by
    rcases hr' with ⟨-, hc⟩ | hc
    · have := hc (pl + 1) ⟨by omega, by omega⟩
      linarith
    · exact hc
  have ev : prominence x before (pl, h) after =
      .ok (h - if x.getD l 0 > x.getD r 0 then x.getD l 0 else x.getD r 0) := by
    unfold prominence
    simp only [← hjmin, ← hjmax, el, er, get_ok x l (by omega), get_ok x r (by omega), bind, Except.bind]
  refine ⟨_, ev, ?_⟩
  have hmax : (minProminence ≤ h - if x.getD l 0 > x.getD r 0 then x.getD l 0 else x.getD r 0) ↔
      x.getD l 0 ≤ h - minProminence ∧ x.getD r 0 ≤ h - minProminence := by
    split
    · constructor
      · intro a; constructor <;> linarith
      · rintro ⟨a, b⟩; linarith
    · constructor
      · intro a; constructor <;> linarith
      · rintro ⟨a, b⟩; linarith
  rw [hmax]
  constructor
  · rintro ⟨a, b⟩
    exact ⟨⟨l, l2, a, leftLow l l1 l2 (by linarith)⟩, ⟨r, by omega, r1, b, rightLow r r2 r1 (by linarith)⟩⟩
  · rintro ⟨⟨r', a1, a2, a3⟩, ⟨s', b1, b2, b3, b4⟩⟩
    rw [← hh'] at a2 a3 b3 b4
    exact ⟨(l3 r' ⟨leftHigh r' a1 (by linarith) a3, a1⟩).trans a2,
      (r3 s' ⟨b2, rightHigh s' b2 b1 (by linarith) b4⟩).trans b3⟩

theorem prominenceLoop_exact (x : List ℚ) (hd : Distinct x) (minProminence minHeight : ℚ) (hp0 : 0 ≤ minProminence) :
    ∀ (ps before : List (ℕ × ℚ)), (before.reverse ++ ps).Pairwise (fun a b => a.1 < b.1) →
    (∀ l v, (l, v) ∈ before.reverse ++ ps ↔ LocalMax x l ∧ v = x.getD l 0 ∧ minHeight ≤ v) →
    ∃ rs, prominenceLoop x before ps = .ok rs ∧
      ∀ l, (∃ h, (l, h) ∈ rs ∧ minProminence ≤ h) ↔ (∃ v, (l, v) ∈ ps) ∧ Prominent x l minProminence
  | [], _, _, _ => ⟨[], rfl, by simp⟩
  | p :: ps, before, hw, hm => by
    have hp := (hm p.1 p.2).1 (by simp)
    obtain ⟨w1, w2, w3⟩ := List.pairwise_append.1 hw
    obtain ⟨w4, w5⟩ := List.pairwise_cons.1 w2
    have wb : before.Pairwise (fun a b => b.1 < a.1) := List.pairwise_reverse.1 w1
    obtain ⟨h, e1, e2⟩ := prominence_exact x hd minProminence minHeight hp0 before ps p hp.1 hp.2.1 hp.2.2
      (fun q hq => ⟨w3 q (by simpa using hq) p (by simp), ((hm q.1 q.2).1 (by simp [hq])).2.1⟩)
      (fun q hq => ⟨w4 q hq, by
        have := ((hm q.1 q.2).1 (by simp [hq])).1.2.1
        omega, ((hm q.1 q.2).1 (by simp [hq])).2.1⟩) wb w5
      (by
        intro s hs h1 h2
        have := (hm s (x.getD s 0)).2 ⟨h1, rfl, h2⟩
        rcases List.mem_append.1 this with h | h
        · simpa using h
        · rcases List.mem_cons.1 h with h | h
          · rw [← h] at hs; simp at hs
          · have := w4 _ h
            simp only at this
            omega)
      (by
        intro s hs h1 h2
        have := (hm s (x.getD s 0)).2 ⟨h1, rfl, h2⟩
        rcases List.mem_append.1 this with h | h
        · have := w3 _ h p (by simp)
          simp only at this
          omega
        · rcases List.mem_cons.1 h with h | h
          · rw [← h] at hs; simp at hs
          · exact h)
    obtain ⟨rs, e3, e4⟩ := prominenceLoop_exact x hd minProminence minHeight hp0 ps (p :: before)
      (by simpa using hw) (by simpa using hm)
    refine ⟨(p.1, h) :: rs, ?_, ?_⟩
    · unfold prominenceLoop
      rw [e1, e3]
      rfl
    · intro l
      constructor
      · rintro ⟨h', hmem, hle⟩
        rcases List.mem_cons.1 hmem with hh | hh
        · rw [Prod.mk.injEq] at hh
          rw [hh.1]
          exact ⟨⟨p.2, by simp⟩, e2.1 (by rw [← hh.2]; exact hle)⟩
        · obtain ⟨⟨v, hv⟩, hpr⟩ := (e4 l).1 ⟨h', hh, hle⟩
          exact ⟨⟨v, by simp [hv]⟩, hpr⟩
      · rintro ⟨⟨v, hv⟩, hpr⟩
        rcases List.mem_cons.1 hv with hh | hh
        · have hl : l = p.1 := by rw [← hh]
          subst hl
          exact ⟨h, by simp, e2.2 hpr⟩
        · obtain ⟨h', a, b⟩ := (e4 l).2 ⟨⟨v, hh⟩, hpr⟩
          exact ⟨h', by simp [a], b⟩

/-- **C86 (spectra without plateaus).** The peaks are exactly the inner bins higher than both neighbours that have
the height and the prominence asked for. -/
theorem c86_peaks_partial (x : List ℚ) (hd : Distinct x) (minProminence minHeight : ℚ) (hp0 : 0 ≤ minProminence) :
    ∃ ps, findPeaks x minProminence minHeight = .ok ps ∧
      ∀ l v, (l, v) ∈ ps ↔ LocalMax x l ∧ v = x.getD l 0 ∧ minHeight ≤ v ∧ Prominent x l minProminence := by
  unfold findPeaks
  obtain ⟨all, e1, f1⟩ := findLoop_exact x hd x.length 1 le_rfl (by omega)
  have f1' : ∀ l v, (l, v) ∈ all ↔ LocalMax x l ∧ v = x.getD l 0 := by
    intro l v
    rw [f1]
    exact ⟨fun h => h.2, fun h => ⟨h.1.1, h⟩⟩
  have f2 : all.Pairwise (fun a b => a.1 < b.1) := by
    obtain ⟨all', e', -, h⟩ := findLoop_safe x x.length 1 le_rfl (by omega)
    rw [e1] at e'
    injection e' with e'
    rw [e']
    exact h
  have hhigh : ∀ l v, (l, v) ∈ filterPeakCriterion all minHeight ↔ LocalMax x l ∧ v = x.getD l 0 ∧ minHeight ≤ v := by
    intro l v
    unfold filterPeakCriterion
    rw [List.mem_filter, f1']
    simp only [ge_iff_le, decide_eq_true_eq, and_assoc]
  have none : (∀ l v, ¬ (l, v) ∈ filterPeakCriterion all minHeight) → ∀ l v, (l, v) ∈ ([] : List (ℕ × ℚ)) ↔
      LocalMax x l ∧ v = x.getD l 0 ∧ minHeight ≤ v ∧ Prominent x l minProminence := by
    intro h l v
    simp only [List.not_mem_nil, false_iff]
    rintro ⟨a, b, c, -⟩
    exact h l v ((hhigh l v).2 ⟨a, b, c⟩)
  by_cases h0 : x = []
  · rw [if_pos h0]
    refine ⟨[], rfl, none ?_⟩
    intro l v h
    have := ((hhigh l v).1 h).1.2.1
    rw [h0] at this
    simp at this
  · rw [if_neg h0]
    simp only [findAllPeakLocations, e1, bind, Except.bind]
    by_cases h1 : all = []
    · rw [if_pos h1]
      refine ⟨[], rfl, none ?_⟩
      rw [h1]
      simp [filterPeakCriterion]
    · rw [if_neg h1]
      by_cases h2 : filterPeakCriterion all minHeight = []
      · rw [if_pos h2]
        refine ⟨[], rfl, none ?_⟩
        rw [h2]
        simp
      · rw [if_neg h2]
        obtain ⟨rs, e2, hm⟩ := prominenceLoop_exact x hd minProminence minHeight hp0
          (filterPeakCriterion all minHeight) [] (f2.filter _) (by simpa using hhigh)
        have hlen : ∀ q ∈ filterPeakCriterion rs minProminence, q.1 < x.length := by
          intro q hq
          obtain ⟨a, b⟩ := List.mem_filter.1 hq
          obtain ⟨⟨v, hv⟩, -⟩ := (hm q.1).1 ⟨q.2, a, by simpa using b⟩
          have := ((hhigh q.1 v).1 hv).1.2.1
          omega
        simp only [e2]
        rw [heights_spec x _ hlen]
        refine ⟨_, rfl, ?_⟩
        intro l v
        rw [List.mem_map]
        constructor
        · rintro ⟨q, hq, hlv⟩
          obtain ⟨a, b⟩ := List.mem_filter.1 hq
          rw [Prod.mk.injEq] at hlv
          obtain ⟨⟨w, hw⟩, hp⟩ := (hm q.1).1 ⟨q.2, a, by simpa using b⟩
          obtain ⟨g1, g2, g3⟩ := (hhigh q.1 w).1 hw
          rw [← hlv.1, ← hlv.2]
          exact ⟨g1, rfl, by rw [← g2]; exact g3, hp⟩
        · rintro ⟨a, b, c, d⟩
          obtain ⟨h, g1, g2⟩ := (hm l).2 ⟨⟨v, (hhigh l v).2 ⟨a, b, c⟩⟩, d⟩
          refine ⟨(l, h), List.mem_filter.2 ⟨g1, by simpa using g2⟩, by rw [b]⟩

/-- Three peaks; the one at 3 stands out by 1 only. -/
example : findPeaks [0, 20, 18, 19, 3, 16, 0] 12 0 = .ok [(1, 20), (5, 16)] ∧ Distinct [0, 20, 18, 19, 3, 16, 0] := by
  refine ⟨by decide +kernel, ?_⟩
  intro i hi
  have : i < 6 := by
    simp only [List.length_cons, List.length_nil] at hi
    omega
  match i, this with
  | 0, _ => decide
  | 1, _ => decide
  | 2, _ => decide
  | 3, _ => decide
  | 4, _ => decide
  | 5, _ => decide

/-- **C86 is false** for a plateau: two equal bins, lower than what follows, are reported as a peak, and the peak
that follows is not. -/
theorem c86_plateau_negation : findPeaks [0, 20, 20, 50, 0, 0] 12 0 = .ok [(2, 20)] ∧
    LocalMax [0, 20, 20, 50, 0, 0] 3 ∧ Prominent [0, 20, 20, 50, 0, 0] 3 12 := by
  refine ⟨by decide +kernel, ⟨by decide, by decide, by decide +kernel, by decide +kernel⟩, ?_, ?_⟩
  · exact ⟨2, by decide, by decide +kernel, fun s h1 h2 => by omega⟩
  · exact ⟨4, by decide, by decide, by decide +kernel, fun s h1 h2 => by omega⟩

/-- **C86 is false** for a plateau: it is overlooked if the bin after the next one is higher. -/
theorem c86_missed_negation : findPeaks [0, 20, 20, 0, 30, 0] 12 0 = .ok [(4, 30)] := by decide +kernel

/-- **C86 is false** for a plateau at the end: its prominence depends on the first bin. -/
theorem c86_end_negation : findPeaks [0, 0, 20, 20] 12 0 = .ok [(3, 20)] ∧ findPeaks [10, 0, 20, 20] 12 0 = .ok [] := by
  constructor <;> decide +kernel

/-! ### The mask -/

theorem freqs_get (bl fs i : ℕ) (hi : i < bl) : get (freqs bl fs) i = .ok (i * ((fs : ℚ) / (2 * bl - 1))) := by
  unfold get freqs
  rw [List.getElem?_map, List.getElem?_range hi]
  rfl

theorem freq_pos (bl fs i : ℕ) (hi : i < bl) (h1 : 1 ≤ i) (hfs : 0 < fs) : (0 : ℚ) < i * ((fs : ℚ) / (2 * bl - 1)) := by
  have h2 : (1 : ℚ) ≤ i := by exact_mod_cast h1
  have h3 : (0 : ℚ) < fs := by exact_mod_cast hfs
  have h4 : (2 : ℚ) ≤ bl := by exact_mod_cast (show 2 ≤ bl by omega)
  have h5 : (0 : ℚ) < 2 * bl - 1 := by linarith
  positivity

theorem maskAt_ok (bl fs : ℕ) (p : ℕ × ℚ) (g : ℚ) (h1 : 1 ≤ p.1) (h2 : p.1 < bl) (hfs : 0 < fs) :
    maskAt (freqs bl fs) p g = .ok (some (curve (p.1 * ((fs : ℚ) / (2 * bl - 1))) p.2 g)) := by
  unfold maskAt
  rw [freqs_get bl fs p.1 h2]
  have hf := freq_pos bl fs p.1 h2 h1 hfs
  generalize (p.1 : ℚ) * ((fs : ℚ) / (2 * bl - 1)) = f at hf ⊢
  simp only [bind, Except.bind]
  rw [if_neg hf.ne']
  congr 2
  unfold curve
  field_simp
  ring

theorem maskLoop_ok (bl fs : ℕ) (hfs : 0 < fs) (g : ℚ) : ∀ (ps : List (ℕ × ℚ)) (m : ℚ),
    (∀ p ∈ ps, 1 ≤ p.1 ∧ p.1 < bl) → ∃ r, maskLoop (freqs bl fs) g ps m = .ok (some r) ∧ m ≤ r ∧
      (∀ p ∈ ps, curve (p.1 * ((fs : ℚ) / (2 * bl - 1))) p.2 g ≤ r) ∧
      (r = m ∨ ∃ p ∈ ps, r = curve (p.1 * ((fs : ℚ) / (2 * bl - 1))) p.2 g)
  | [], m, _ => ⟨m, rfl, le_rfl, by simp, .inl rfl⟩
  | p :: ps, m, h => by
    unfold maskLoop
    rw [maskAt_ok bl fs p g (h p (by simp)).1 (h p (by simp)).2 hfs]
    simp only [bind, Except.bind]
    obtain ⟨r, e, r1, r2, r3⟩ := maskLoop_ok bl fs hfs g ps
      (if curve (p.1 * ((fs : ℚ) / (2 * bl - 1))) p.2 g > m then curve (p.1 * ((fs : ℚ) / (2 * bl - 1))) p.2 g else m)
      (fun q hq => h q (by simp [hq]))
    refine ⟨r, e, ?_, ?_, ?_⟩
    · split at r1 <;> linarith
    · intro q hq
      rcases List.mem_cons.1 hq with rfl | hq
      · split at r1 <;> linarith
      · exact r2 q hq
    · rcases r3 with r3 | ⟨q, hq, r3⟩
      · split at r3
        · exact .inr ⟨p, by simp, r3⟩
        · exact .inl r3
      · exact .inr ⟨q, by simp [hq], r3⟩

/-- **C86 (mask).** The mask of the peaks found in a spectrum is defined at every frequency, no division is one by zero,
and it is the largest of the masks of the single peaks.  Without peaks there is none. -/
theorem c86_mask (x : List ℚ) (fs : ℕ) (hfs : 0 < fs) (minProminence minHeight g : ℚ) :
    ∃ ps, findPeaks x minProminence minHeight = .ok ps ∧
      (ps = [] → peakMask (freqs x.length fs) g ps = .ok none) ∧
      (ps ≠ [] → ∃ m, peakMask (freqs x.length fs) g ps = .ok (some m) ∧
        (∀ p ∈ ps, curve (p.1 * ((fs : ℚ) / (2 * x.length - 1))) p.2 g ≤ m) ∧
        ∃ p ∈ ps, m = curve (p.1 * ((fs : ℚ) / (2 * x.length - 1))) p.2 g) := by
  obtain ⟨ps, e, -, h⟩ := c86_safe x minProminence minHeight
  refine ⟨ps, e, fun h0 => by rw [h0]; rfl, ?_⟩
  intro hne
  match ps, hne, h with
  | p :: ps, _, h =>
    simp only [peakMask]
    rw [maskAt_ok x.length fs p g (h p (by simp)).1 (h p (by simp)).2.1 hfs]
    simp only [bind, Except.bind]
    obtain ⟨r, e, r1, r2, r3⟩ := maskLoop_ok x.length fs hfs g ps (curve (p.1 * ((fs : ℚ) / (2 * x.length - 1))) p.2 g)
      (fun q hq => ⟨(h q (by simp [hq])).1, (h q (by simp [hq])).2.1⟩)
    refine ⟨r, e, ?_, ?_⟩
    · intro q hq
      rcases List.mem_cons.1 hq with rfl | hq
      · exact r1
      · exact r2 q hq
    · rcases r3 with r3 | ⟨q, hq, r3⟩
      · exact ⟨p, by simp, r3⟩
      · exact ⟨q, by simp [hq], r3⟩

/-- A single peak of 20 at bin 1 of 7, at 1300 Hz in 8450 Hz (650 Hz apart): 20 − 5 + 650/280 − 30. -/
example : findPeaks [0, 20, 18, 3, 2, 1, 0] 12 0 = .ok [(1, 20)] ∧
    peakMask (freqs 7 8450) 1300 [(1, 20)] = .ok (some (20 - 5 + 650 / 280 - 30)) := by
  constructor <;> decide +kernel

/-- **C86 (bands).** For a block of `8 · 2^k` bins the bands follow each other from bin 0 to the last one: the first two have
four bins, and every other one is as long as all before it. -/
theorem c86_bands (k : ℕ) : bookCumulative (8 * 2 ^ k) = .ok (0 :: (List.range (k + 2)).map (fun i => 4 * 2 ^ i)) ∧
    ((0 :: (List.range (k + 2)).map (fun i => 4 * 2 ^ i)).getLast (by simp) = 8 * 2 ^ k) := by
  have hl : Nat.log2 (8 * 2 ^ k / 4) = k + 1 := by
    rw [show 8 * 2 ^ k / 4 = 2 ^ (k + 1) by rw [pow_succ]; omega]
    exact Nat.log2_two_pow
  constructor
  · unfold bookCumulative
    simp only [hl]
    rw [if_neg (by have := Nat.one_le_two_pow (n := k); omega), if_neg (by omega)]
    congr 3
    funext i
    rw [Nat.shiftLeft_eq, Nat.shiftRight_eq_div_pow, show 8 * 2 ^ k = 4 * 2 ^ (k + 1) by rw [pow_succ]; ring,
      Nat.mul_div_cancel _ (by positivity)]
  · rw [List.getLast_eq_getElem]
    simp only [List.length_cons, List.length_map, List.length_range, Nat.add_sub_cancel]
    rw [List.getElem_cons_succ, List.getElem_map, List.getElem_range, pow_succ]
    ring

/-- **C86 is false** for blocks of less than eight bins: the model of them is not even built. -/
theorem c86_short_unsafe (bl : ℕ) (h1 : bl ≠ 1) (h : bl < 8) : bookCumulative bl = .error .ub := by
  match bl, h1, h with
  | 0, _, _ => decide
  | 2, _, _ => decide
  | 3, _, _ => decide
  | 4, _, _ => decide
  | 5, _, _ => decide
  | 6, _, _ => decide
  | 7, _, _ => decide

end Haptics.Psycho
