import Verif.Encoder.AhapLemmas
import Mathlib.Data.List.Pairwise

/-! Keyframes of continuous events of AHAP files: the loops over control points. -/

namespace Haptics.Ahap
open Haptics

/-- The keyframe at a time. -/
def kfAt (l : List Keyframe) (x : Int) : Option Keyframe := l.find? (fun k => k.relativePosition == some x)
def ampAt (l : List Keyframe) (x : Int) : Option ℚ := (kfAt l x).bind (·.amplitudeModulation)
def freqAt (l : List Keyframe) (x : Int) : Option Int := (kfAt l x).bind (·.frequencyModulation)

theorem kfAt_cons (k : Keyframe) (l : List Keyframe) (x : Int) :
    kfAt (k :: l) x = if k.relativePosition = some x then some k else kfAt l x := by
  unfold kfAt
  rw [List.find?_cons]
  by_cases h : k.relativePosition = some x
  · simp [h]
  · have : (k.relativePosition == some x) = false := by simpa using h
    rw [this, if_neg h]

theorem at_cons {k : Keyframe} {l : List Keyframe} {xs : List Int} (h : At (k :: l) xs) :
    ∃ y ys, xs = y :: ys ∧ k.relativePosition = some y ∧ At l ys ∧ ∀ z ∈ ys, y < z := by
  obtain ⟨h1, h2⟩ := h
  cases xs with
  | nil => simp at h1
  | cons y ys =>
    simp only [List.map_cons, List.cons.injEq] at h1
    obtain ⟨h3, h4⟩ := List.pairwise_cons.mp h2
    exact ⟨y, ys, rfl, h1.1, ⟨h1.2, h4⟩, h3⟩

theorem at_nil_iff {xs : List Int} : At [] xs ↔ xs = [] := by
  constructor
  · rintro ⟨h, -⟩
    cases xs with
    | nil => rfl
    | cons y ys => simp at h
  · rintro rfl; exact ⟨rfl, .nil⟩

theorem kfAt_none {l : List Keyframe} {xs : List Int} (h : At l xs) {x : Int} (hx : x ∉ xs) : kfAt l x = none := by
  induction l generalizing xs with
  | nil => rfl
  | cons k l ih =>
    obtain ⟨y, ys, rfl, h1, h2, h3⟩ := at_cons h
    rw [kfAt_cons, h1, if_neg (by simp at hx ⊢; exact fun e => hx.1 e.symm)]
    exact ih h2 (fun hh => hx (List.mem_cons_of_mem _ hh))

theorem kfAt_some {l : List Keyframe} {xs : List Int} (h : At l xs) {x : Int} (hx : x ∈ xs) :
    ∃ k ∈ l, kfAt l x = some k ∧ k.relativePosition = some x := by
  induction l generalizing xs with
  | nil => rw [at_nil_iff] at h; subst h; cases hx
  | cons k l ih =>
    obtain ⟨y, ys, rfl, h1, h2, h3⟩ := at_cons h
    rw [kfAt_cons, h1]
    rcases List.mem_cons.mp hx with rfl | hx
    · exact ⟨k, List.mem_cons_self, by simp, h1⟩
    · have := h3 x hx
      rw [if_neg (by simp; omega)]
      obtain ⟨k', e1, e2, e3⟩ := ih h2 hx
      exact ⟨k', List.mem_cons_of_mem _ e1, e2, e3⟩

theorem kfAt_mem {l : List Keyframe} {xs : List Int} (h : At l xs) {k : Keyframe} (hk : k ∈ l) :
    ∃ x ∈ xs, k.relativePosition = some x ∧ kfAt l x = some k := by
  induction l generalizing xs with
  | nil => cases hk
  | cons c l ih =>
    obtain ⟨y, ys, rfl, h1, h2, h3⟩ := at_cons h
    rcases List.mem_cons.mp hk with rfl | hk
    · exact ⟨y, List.mem_cons_self, h1, by rw [kfAt_cons, if_pos h1]⟩
    · obtain ⟨x, e1, e2, e3⟩ := ih h2 hk
      refine ⟨x, List.mem_cons_of_mem _ e1, e2, ?_⟩
      have := h3 x e1
      rw [kfAt_cons, h1, if_neg (by simp; omega)]
      exact e3

theorem at_insert {k : Keyframe} {l : List Keyframe} {ys : List Int} {x y : Int} (hk : k.relativePosition = some y)
    (hl : At l ys) (h3 : ∀ z ∈ ys, y < z) : At (k :: l) (y :: ys) :=
  ⟨by rw [List.map_cons, List.map_cons, hk, hl.1], List.pairwise_cons.mpr ⟨h3, hl.2⟩⟩

theorem addAmplitude_spec (a : Option ℚ) (x : Int) {l : List Keyframe} {xs : List Int} (h : At l xs) :
    ∃ xs', At (addAmplitudeKf a x true l) xs' ∧ (∀ y, y ∈ xs' ↔ y = x ∨ y ∈ xs) ∧
      ∀ y, kfAt (addAmplitudeKf a x true l) y = if y = x then some ⟨some x, a, freqAt l x⟩ else kfAt l y := by
  induction l generalizing xs with
  | nil =>
    rw [at_nil_iff] at h; subst h
    refine ⟨[x], ⟨rfl, by simp⟩, by simp, fun y => ?_⟩
    rw [addAmplitudeKf, kfAt_cons]
    by_cases hy : y = x
    · subst hy; simp [freqAt, kfAt]
    · rw [if_neg (by simpa using fun e => hy e.symm), if_neg hy]
  | cons k l ih =>
    obtain ⟨y, ys, rfl, h1, h2, h3⟩ := at_cons h
    rw [addAmplitudeKf]
    by_cases hge : y ≥ x
    · have hnb : k.notBefore x = true := by simp [Keyframe.notBefore, h1, hge]
      rw [if_pos hnb]
      by_cases he : y = x
      · subst he
        rw [if_pos h1, if_pos rfl]
        refine ⟨y :: ys, at_insert (x := y) h1 h2 h3, by simp, fun z => ?_⟩
        rw [kfAt_cons]
        by_cases hz : z = y
        · subst hz
          rw [if_pos h1, if_pos rfl]
          cases k
          simp only at h1
          subst h1
          simp [freqAt, kfAt_cons]
        · rw [if_neg (by simp [h1]; exact fun e => hz e.symm), if_neg hz, kfAt_cons,
            if_neg (by simp [h1]; exact fun e => hz e.symm)]
      · have hxy : x < y := by omega
        rw [if_neg (by rw [h1]; simpa using he)]
        have hnx : x ∉ y :: ys := by
          intro hh
          rcases List.mem_cons.mp hh with rfl | hh
          · omega
          · have := h3 x hh; omega
        refine ⟨x :: y :: ys, at_insert (x := x) rfl h (fun z hz => ?_), by simp, fun z => ?_⟩
        · rcases List.mem_cons.mp hz with rfl | hz
          · exact hxy
          · have := h3 z hz; omega
        · rw [kfAt_cons]
          by_cases hz : z = x
          · subst hz
            rw [if_pos rfl, if_pos rfl]
            simp [freqAt, kfAt_none h hnx]
          · rw [if_neg (by simpa using fun e => hz e.symm), if_neg hz]
    · have hnb : k.notBefore x = false := by simp [Keyframe.notBefore, h1]; omega
      rw [hnb]
      simp only [Bool.false_eq_true, if_false]
      obtain ⟨zs, e1, e2, e3⟩ := ih h2
      refine ⟨y :: zs, at_insert (x := x) h1 e1 (fun z hz => ?_), fun z => ?_, fun z => ?_⟩
      · rcases (e2 z).mp hz with rfl | hz
        · omega
        · exact h3 z hz
      · simp only [List.mem_cons, e2]
        tauto
      · rw [kfAt_cons, kfAt_cons, h1]
        by_cases hz : y = z
        · subst hz
          rw [if_pos rfl, if_pos rfl, if_neg (by omega)]
        · have hne : ¬ (some y = some z) := by simpa using hz
          rw [if_neg hne, if_neg hne, e3]
          have : freqAt (k :: l) x = freqAt l x := by
            unfold freqAt
            rw [kfAt_cons, h1, if_neg (by simp; omega)]
          rw [this]

theorem addFrequency_spec (f : Option Int) (x : Int) {l : List Keyframe} {xs : List Int} (h : At l xs) :
    ∃ xs', At (addFrequencyKf f x l) xs' ∧ (∀ y, y ∈ xs' ↔ y = x ∨ y ∈ xs) ∧
      ∀ y, kfAt (addFrequencyKf f x l) y = if y = x then some ⟨some x, ampAt l x, f⟩ else kfAt l y := by
  induction l generalizing xs with
  | nil =>
    rw [at_nil_iff] at h; subst h
    refine ⟨[x], ⟨rfl, by simp⟩, by simp, fun y => ?_⟩
    rw [addFrequencyKf, kfAt_cons]
    by_cases hy : y = x
    · subst hy; simp [ampAt, kfAt]
    · rw [if_neg (by simpa using fun e => hy e.symm), if_neg hy]
  | cons k l ih =>
    obtain ⟨y, ys, rfl, h1, h2, h3⟩ := at_cons h
    rw [addFrequencyKf]
    by_cases hge : y ≥ x
    · have hnb : k.notBefore x = true := by simp [Keyframe.notBefore, h1, hge]
      rw [if_pos hnb]
      by_cases he : y = x
      · subst he
        rw [if_pos h1]
        refine ⟨y :: ys, at_insert (x := y) h1 h2 h3, by simp, fun z => ?_⟩
        rw [kfAt_cons]
        by_cases hz : z = y
        · subst hz
          rw [if_pos h1, if_pos rfl]
          cases k
          simp only at h1
          subst h1
          simp [ampAt, kfAt_cons]
        · rw [if_neg (by simp [h1]; exact fun e => hz e.symm), if_neg hz, kfAt_cons,
            if_neg (by simp [h1]; exact fun e => hz e.symm)]
      · have hxy : x < y := by omega
        rw [if_neg (by rw [h1]; simpa using he)]
        have hnx : x ∉ y :: ys := by
          intro hh
          rcases List.mem_cons.mp hh with rfl | hh
          · omega
          · have := h3 x hh; omega
        refine ⟨x :: y :: ys, at_insert (x := x) rfl h (fun z hz => ?_), by simp, fun z => ?_⟩
        · rcases List.mem_cons.mp hz with rfl | hz
          · exact hxy
          · have := h3 z hz; omega
        · rw [kfAt_cons]
          by_cases hz : z = x
          · subst hz
            rw [if_pos rfl, if_pos rfl]
            simp [ampAt, kfAt_none h hnx]
          · rw [if_neg (by simpa using fun e => hz e.symm), if_neg hz]
    · have hnb : k.notBefore x = false := by simp [Keyframe.notBefore, h1]; omega
      rw [hnb]
      simp only [Bool.false_eq_true, if_false]
      obtain ⟨zs, e1, e2, e3⟩ := ih h2
      refine ⟨y :: zs, at_insert (x := x) h1 e1 (fun z hz => ?_), fun z => ?_, fun z => ?_⟩
      · rcases (e2 z).mp hz with rfl | hz
        · omega
        · exact h3 z hz
      · simp only [List.mem_cons, e2]
        tauto
      · rw [kfAt_cons, kfAt_cons, h1]
        by_cases hz : y = z
        · subst hz
          rw [if_pos rfl, if_pos rfl, if_neg (by omega)]
        · have hne : ¬ (some y = some z) := by simpa using hz
          rw [if_neg hne, if_neg hne, e3]
          have : ampAt (k :: l) x = ampAt l x := by
            unfold ampAt
            rw [kfAt_cons, h1, if_neg (by simp; omega)]
          rw [this]

/-! ### Neighbours -/

theorem neighbours_cons {α : Type} {x a b : α} {l : List α} (h : Ivs.Neighbours (x :: l) a b) :
    (x = a ∧ ∃ l', l = b :: l') ∨ Ivs.Neighbours l a b := by
  obtain ⟨pre, post, h⟩ := h
  cases pre with
  | nil =>
    simp only [List.nil_append, List.cons.injEq] at h
    exact Or.inl ⟨h.1, post, h.2⟩
  | cons y pre =>
    simp only [List.cons_append, List.cons.injEq] at h
    exact Or.inr ⟨pre, post, h.2⟩

theorem neighbours_mem {α : Type} {a b : α} {l : List α} (h : Ivs.Neighbours l a b) : a ∈ l ∧ b ∈ l := by
  obtain ⟨pre, post, rfl⟩ := h
  simp

/-! ### The loops -/

/-- What the loop over an intensity curve does. -/
structure AmplitudeDone (position length : Int) (base : ℚ) (before : Option Point) (rest : List Point)
    (kfs : List Keyframe) (xs : List Int) (last : ℚ) (kfs' : List Keyframe) (last' : ℚ) : Prop where
  times : ∃ xs', At kfs' xs' ∧ ∀ y, y ∈ xs' ↔ y ∈ xs ∨ ∃ p ∈ rest, p.1 = position + y ∧ 0 < y ∧ y < length
  freq : ∀ y, freqAt kfs' y = freqAt kfs y
  keep : ∀ y, (∀ p ∈ rest, p.1 = position + y → ¬ (0 < y ∧ y < length)) → kfAt kfs' y = kfAt kfs y
  point : ∀ p ∈ rest, ∀ y, p.1 = position + y → 0 < y → y < length →
    ampAt kfs' y = some (if rest.getLast? = some p then base else fl32 (fl32 p.2 * base))
  lastKeep : (∀ p ∈ rest, p.1 < position + length) → last' = last
  lastNew : ∀ q p, Ivs.Neighbours (before.toList ++ rest) q p → q.1 < position + length → position + length ≤ p.1 →
    ∃ y, interpolated q p (position + length) = .ok y ∧ last' = fl32 (y * last)

theorem addThree (a b c : Option ℚ) (x : Int) (m n : Bool) {l : List Keyframe} {xs : List Int} (h : At l xs) :
    ∃ xs', At (if n then addAmplitudeKf c x true (addAmplitudeKf b x true
        (if m then addAmplitudeKf a x true l else l)) else addAmplitudeKf b x true
        (if m then addAmplitudeKf a x true l else l)) xs' ∧ (∀ y, y ∈ xs' ↔ y = x ∨ y ∈ xs) ∧
      ∀ y, kfAt (if n then addAmplitudeKf c x true (addAmplitudeKf b x true
        (if m then addAmplitudeKf a x true l else l)) else addAmplitudeKf b x true
        (if m then addAmplitudeKf a x true l else l)) y
        = if y = x then some ⟨some x, if n then c else b, freqAt l x⟩ else kfAt l y := by
  have two : ∀ (d e : Option ℚ) {l : List Keyframe} {xs : List Int}, At l xs →
      ∃ xs', At (addAmplitudeKf e x true (addAmplitudeKf d x true l)) xs' ∧ (∀ y, y ∈ xs' ↔ y = x ∨ y ∈ xs) ∧
      ∀ y, kfAt (addAmplitudeKf e x true (addAmplitudeKf d x true l)) y
        = if y = x then some ⟨some x, e, freqAt l x⟩ else kfAt l y := by
    intro d e l xs h
    obtain ⟨x1, p1, p2, p3⟩ := addAmplitude_spec d x h
    obtain ⟨x2, q1, q2, q3⟩ := addAmplitude_spec e x p1
    refine ⟨x2, q1, fun y => by rw [q2, p2]; tauto, fun y => ?_⟩
    rw [q3]
    by_cases hy : y = x
    · subst hy
      rw [if_pos rfl, if_pos rfl]
      have : freqAt (addAmplitudeKf d y true l) y = freqAt l y := by
        rw [freqAt, p3, if_pos rfl]; rfl
      rw [this]
    · rw [if_neg hy, if_neg hy, p3, if_neg hy]
  have hfirst : ∃ xs', At (addAmplitudeKf b x true (if m then addAmplitudeKf a x true l else l)) xs' ∧
      (∀ y, y ∈ xs' ↔ y = x ∨ y ∈ xs) ∧
      ∀ y, kfAt (addAmplitudeKf b x true (if m then addAmplitudeKf a x true l else l)) y
        = if y = x then some ⟨some x, b, freqAt l x⟩ else kfAt l y := by
    cases m
    · exact addAmplitude_spec b x h
    · exact two a b h
  cases n
  · exact hfirst
  · obtain ⟨x1, p1, p2, p3⟩ := hfirst
    obtain ⟨x2, q1, q2, q3⟩ := addAmplitude_spec c x p1
    refine ⟨x2, q1, fun y => by rw [q2, p2]; tauto, fun y => ?_⟩
    simp only [if_true]
    rw [q3]
    by_cases hy : y = x
    · subst hy
      rw [if_pos rfl, if_pos rfl]
      have : freqAt (addAmplitudeKf b y true (if m then addAmplitudeKf a y true l else l)) y = freqAt l y := by
        rw [freqAt, p3, if_pos rfl]; rfl
      rw [this]
    · rw [if_neg hy, if_neg hy, p3, if_neg hy]

theorem amplitudeLoop_spec (position length : Int) (base : ℚ) (before : Option Point) (rest : List Point)
    (hr : Rising (before.toList ++ rest)) (hp : ∀ p ∈ rest, position ≤ p.1)
    (kfs : List Keyframe) (xs : List Int) (hk : At kfs xs)
    (last : ℚ) (kfs' : List Keyframe) (last' : ℚ)
    (h : amplitudeLoop position length base before rest kfs last = .ok (kfs', last')) :
    AmplitudeDone position length base before rest kfs xs last kfs' last' := by
  induction rest generalizing before kfs xs with
  | nil =>
    have h := Except.ok.inj h
    obtain ⟨rfl, rfl⟩ := Prod.mk.inj h
    refine ⟨⟨xs, hk, by simp⟩, fun _ => rfl, fun _ _ => rfl, by simp, fun _ => rfl, ?_⟩
    intro q p hn h1 h2
    obtain ⟨pre, post, hn⟩ := hn
    cases before with
    | none => simp at hn
    | some b =>
      have := congrArg List.length hn
      simp at this
      omega
  | cons p0 rest ih =>
    have hrest : Rising ((some p0).toList ++ rest) := by
      refine hr.sublist ?_
      exact List.sublist_append_right _ _
    have hgt : ∀ p ∈ rest, p0.1 < p.1 := (List.pairwise_cons.mp hrest).1
    unfold amplitudeLoop at h
    split at h
    · rename_i hge
      -- the end of the event
      cases before with
      | none => cases h
      | some b =>
        have hb : b.1 < p0.1 := (List.pairwise_cons.mp hr).1 p0 (by simp)
        have hall : ∀ p ∈ p0 :: rest, position + length ≤ p.1 := by
          intro p hpm
          rcases List.mem_cons.mp hpm with rfl | hpm
          · exact hge
          · have := hgt p hpm; omega
        cases hy : interpolated b p0 (position + length) with
        | error e => simp only [hy] at h; cases h
        | ok y =>
          simp only [hy] at h
          obtain ⟨rfl, rfl⟩ := Prod.mk.inj (Except.ok.inj h)
          refine ⟨⟨xs, hk, fun z => ?_⟩, fun _ => rfl, fun _ _ => rfl, ?_, ?_, ?_⟩
          · constructor
            · exact Or.inl
            · rintro (hz | ⟨p, hpm, e1, e2, e3⟩)
              · exact hz
              · have := hall p hpm; omega
          · intro p hpm z e1 e2 e3
            have := hall p hpm; omega
          · intro hlt
            have := hlt p0 List.mem_cons_self; omega
          · intro q p hn h1 h2
            rcases neighbours_cons hn with ⟨rfl, l', hl⟩ | hn
            · have hl : p0 = p ∧ rest = l' := List.cons.inj hl
              rw [← hl.1]
              exact ⟨y, hy, rfl⟩
            · have := hall q (neighbours_mem hn).1; omega
    · rename_i hlt
      push Not at hlt
      split at h
      · rename_i hpos
        obtain ⟨x1, p1, p2, p3⟩ := addThree (some base) (some (fl32 (fl32 p0.2 * base))) (some base) (p0.1 - position)
          before.isNone rest.isEmpty hk
        have done := ih (some p0) hrest (fun p hpm => hp p (List.mem_cons_of_mem _ hpm)) _ x1 p1 h
        have hfreq : ∀ y, freqAt kfs' y = freqAt kfs y := by
          intro y
          rw [done.freq, freqAt, p3]
          split
          · rename_i hy; rw [hy]; rfl
          · rfl
        refine ⟨?_, hfreq, ?_, ?_, ?_, ?_⟩
        · obtain ⟨xs', q1, q2⟩ := done.times
          refine ⟨xs', q1, fun y => ?_⟩
          rw [q2, p2]
          constructor
          · rintro ((rfl | hy) | ⟨p, hpm, e⟩)
            · exact Or.inr ⟨p0, List.mem_cons_self, by omega, by omega, by omega⟩
            · exact Or.inl hy
            · exact Or.inr ⟨p, List.mem_cons_of_mem _ hpm, e⟩
          · rintro (hy | ⟨p, hpm, e1, e2, e3⟩)
            · exact Or.inl (Or.inr hy)
            · rcases List.mem_cons.mp hpm with rfl | hpm
              · exact Or.inl (Or.inl (by omega))
              · exact Or.inr ⟨p, hpm, e1, e2, e3⟩
        · intro y hy
          rw [done.keep y (fun p hpm => hy p (List.mem_cons_of_mem _ hpm)), p3, if_neg]
          intro hyx
          exact hy p0 List.mem_cons_self (by omega) ⟨by omega, by omega⟩
        · intro p hpm y e1 e2 e3
          rcases List.mem_cons.mp hpm with rfl | hpm
          · have hyx : y = p.1 - position := by omega
            rw [ampAt, done.keep y (fun q hq e => by have := hgt q hq; omega), p3, if_pos hyx]
            cases rest with
            | nil => simp
            | cons r rest =>
              have hne : ¬ ((p :: r :: rest).getLast? = some p) := by
                rw [List.getLast?_cons_cons]
                intro hh
                have := hgt p (List.mem_of_getLast? hh)
                omega
              rw [if_neg hne]
              rfl
          · rw [done.point p hpm y e1 e2 e3]
            cases rest with
            | nil => cases hpm
            | cons r rest => rw [List.getLast?_cons_cons]
        · intro hlt
          exact done.lastKeep (fun p hpm => hlt p (List.mem_cons_of_mem _ hpm))
        · intro q p hn h1 h2
          refine done.lastNew q p ?_ h1 h2
          cases before with
          | none => exact hn
          | some b =>
            rcases neighbours_cons hn with ⟨rfl, l', hl⟩ | hn
            · have hl : p0 = p ∧ rest = l' := List.cons.inj hl
              rw [← hl.1] at h2
              omega
            · exact hn
      · rename_i hpos
        have hpos : p0.1 = position := by have := hp p0 List.mem_cons_self; omega
        have done := ih (some p0) hrest (fun p hpm => hp p (List.mem_cons_of_mem _ hpm)) kfs xs hk h
        refine ⟨?_, done.freq, ?_, ?_, ?_, ?_⟩
        · obtain ⟨xs', q1, q2⟩ := done.times
          refine ⟨xs', q1, fun y => ?_⟩
          rw [q2]
          constructor
          · rintro (hy | ⟨p, hpm, e⟩)
            · exact Or.inl hy
            · exact Or.inr ⟨p, List.mem_cons_of_mem _ hpm, e⟩
          · rintro (hy | ⟨p, hpm, e1, e2, e3⟩)
            · exact Or.inl hy
            · rcases List.mem_cons.mp hpm with rfl | hpm
              · omega
              · exact Or.inr ⟨p, hpm, e1, e2, e3⟩
        · intro y hy
          exact done.keep y (fun p hpm => hy p (List.mem_cons_of_mem _ hpm))
        · intro p hpm y e1 e2 e3
          rcases List.mem_cons.mp hpm with rfl | hpm
          · omega
          · rw [done.point p hpm y e1 e2 e3]
            cases rest with
            | nil => cases hpm
            | cons r rest => rw [List.getLast?_cons_cons]
        · intro hlt
          exact done.lastKeep (fun p hpm => hlt p (List.mem_cons_of_mem _ hpm))
        · intro q p hn h1 h2
          refine done.lastNew q p ?_ h1 h2
          cases before with
          | none => exact hn
          | some b =>
            rcases neighbours_cons hn with ⟨rfl, l', hl⟩ | hn
            · have hl : p0 = p ∧ rest = l' := List.cons.inj hl
              rw [← hl.1] at h2
              omega
            · exact hn

/-! ### The whole intensity curve -/

theorem neighbours_append {α : Type} {pre rest : List α} {q p : α} (h : Ivs.Neighbours (pre ++ rest) q p)
    (hp : p ∉ pre) : Ivs.Neighbours (pre.getLast?.toList ++ rest) q p := by
  induction pre with
  | nil => exact h
  | cons x pre ih =>
    cases pre with
    | nil => exact h
    | cons y t =>
      rw [List.getLast?_cons_cons]
      refine ih ?_ (fun hh => hp (List.mem_cons_of_mem _ hh))
      rcases neighbours_cons h with ⟨rfl, l', hl⟩ | hn
      · exact absurd (by rw [(List.cons.inj hl).1]; simp) hp
      · exact hn

/-- Keyframes, and the amplitude of the last one, under an intensity curve; exact. -/
structure Amplitudes (points : List Point) (position length : Int) (base : ℚ) (f : Int) (kfs : List Keyframe)
    (last : ℚ) : Prop where
  times : ∃ xs, At kfs xs ∧ ∀ y, y ∈ xs ↔ y = 0 ∨ ∃ p ∈ points, p.1 = position + y ∧ 0 < y ∧ y < length
  freq : ∀ y, freqAt kfs y = if y = 0 then some f else none
  start : ∃ a, ampAt kfs 0 = some a ∧
    ((∀ p ∈ points, position < p.1) → a = base) ∧ ((∀ p ∈ points, p.1 ≤ position) → a = base) ∧
    (∀ q p, Ivs.Neighbours points q p → q.1 = position → a = fl32 (base * fl32 q.2)) ∧
    (∀ q p, Ivs.Neighbours points q p → q.1 < position → position < p.1 →
      ∃ y, interpolated q p position = .ok y ∧ a = fl32 (y * base))
  point : ∀ p ∈ points, ∀ y, p.1 = position + y → 0 < y → y < length →
    ampAt kfs y = some (if points.getLast? = some p then base else fl32 (fl32 p.2 * base))
  lastKeep : (∀ p ∈ points, p.1 < position + length) → last = base
  lastNew : ∀ q p, Ivs.Neighbours points q p → q.1 < position + length → position + length ≤ p.1 →
    ∃ y, interpolated q p (position + length) = .ok y ∧ last = fl32 (y * base)
  lastReached : points ≠ [] → ∃ p ∈ points, p.1 < position + length

theorem kfAt_single (a : ℚ) (f y : Int) : kfAt [⟨some 0, some a, some f⟩] y
    = if y = 0 then some ⟨some 0, some a, some f⟩ else none := by
  rw [kfAt_cons]
  by_cases hy : y = 0
  · subst hy; rfl
  · rw [if_neg (by simpa using fun e => hy e.symm), if_neg hy]; rfl

theorem assemble {points pre rest : List Point} {position length : Int} (hl : 1 ≤ length) {base a : ℚ} {f : Int}
    {kfs : List Keyframe} {last : ℚ} (he : points = pre ++ rest) (hpre : ∀ q ∈ pre, q.1 ≤ position)
    (D : AmplitudeDone position length base pre.getLast? rest [⟨some 0, some a, some f⟩] [0] base kfs last)
    (hreach : pre = [] → ∃ p ∈ points, p.1 < position + length)
    (h1 : (∀ p ∈ points, position < p.1) → a = base) (h2 : (∀ p ∈ points, p.1 ≤ position) → a = base)
    (h3 : ∀ q p, Ivs.Neighbours points q p → q.1 = position → a = fl32 (base * fl32 q.2))
    (h4 : ∀ q p, Ivs.Neighbours points q p → q.1 < position → position < p.1 →
      ∃ y, interpolated q p position = .ok y ∧ a = fl32 (y * base)) :
    Amplitudes points position length base f kfs last := by
  subst he
  refine ⟨?_, ?_, ⟨a, ?_, h1, h2, h3, h4⟩, ?_, ?_, ?_, ?_⟩
  · obtain ⟨xs, q1, q2⟩ := D.times
    refine ⟨xs, q1, fun y => ?_⟩
    rw [q2]
    constructor
    · rintro (hy | ⟨p, hp, e⟩)
      · exact Or.inl (by simpa using hy)
      · exact Or.inr ⟨p, List.mem_append_right _ hp, e⟩
    · rintro (rfl | ⟨p, hp, e1, e2, e3⟩)
      · exact Or.inl (by simp)
      · rcases List.mem_append.mp hp with hp | hp
        · have := hpre p hp; omega
        · exact Or.inr ⟨p, hp, e1, e2, e3⟩
  · intro y
    rw [D.freq, freqAt, kfAt_single]
    split <;> rfl
  · rw [ampAt, D.keep 0 (fun p _ _ => by omega), kfAt_single]
    rfl
  · intro p hp y e1 e2 e3
    rcases List.mem_append.mp hp with hp | hp
    · have := hpre p hp; omega
    · rw [D.point p hp y e1 e2 e3]
      have : (pre ++ rest).getLast? = rest.getLast? := by
        rw [List.getLast?_append]
        cases hr : rest.getLast? with
        | none => rw [List.getLast?_eq_none_iff] at hr; subst hr; cases hp
        | some z => rfl
      rw [this]
  · intro hlt
    exact D.lastKeep (fun p hp => hlt p (List.mem_append_right _ hp))
  · intro q p hn e1 e2
    refine D.lastNew q p (neighbours_append hn ?_) e1 e2
    intro hp
    have := hpre p hp; omega
  · intro _
    cases pre with
    | nil => exact hreach rfl
    | cons q pre => exact ⟨q, by simp, by have := hpre q (by simp); omega⟩

theorem neighbours_unique {points : List Point} (hr : Rising points) {q p q' p' : Point} {x : Int}
    (h : Ivs.Neighbours points q p) (h' : Ivs.Neighbours points q' p') (h1 : q.1 ≤ x) (h2 : x < p.1)
    (h1' : q'.1 ≤ x) (h2' : x < p'.1) : q = q' ∧ p = p' := by
  induction points with
  | nil => obtain ⟨pre, post, h⟩ := h; simp at h
  | cons z l ih =>
    obtain ⟨g1, g2⟩ := List.pairwise_cons.mp hr
    rcases neighbours_cons h with ⟨rfl, l1, e1⟩ | hn
    · rcases neighbours_cons h' with ⟨rfl, l2, e2⟩ | hn'
      · rw [e1] at e2
        exact ⟨rfl, (List.cons.inj e2).1⟩
      · subst e1
        have : p.1 ≤ q'.1 := by
          rcases List.mem_cons.mp (neighbours_mem hn').1 with rfl | hm
          · exact le_rfl
          · exact ((List.pairwise_cons.mp g2).1 q' hm).le
        omega
    · rcases neighbours_cons h' with ⟨rfl, l2, e2⟩ | hn'
      · subst e2
        have : p'.1 ≤ q.1 := by
          rcases List.mem_cons.mp (neighbours_mem hn).1 with rfl | hm
          · exact le_rfl
          · exact ((List.pairwise_cons.mp g2).1 q hm).le
        omega
      · exact ih g2 hn hn'

theorem rising_unique {points : List Point} (hr : Rising points) {p q : Point} (hp : p ∈ points) (hq : q ∈ points)
    (h : p.1 = q.1) : p = q := by
  induction points with
  | nil => cases hp
  | cons z l ih =>
    obtain ⟨g1, g2⟩ := List.pairwise_cons.mp hr
    rcases List.mem_cons.mp hp with rfl | hp' <;> rcases List.mem_cons.mp hq with rfl | hq'
    · rfl
    · have := g1 q hq'; omega
    · have := g1 p hp'; omega
    · exact ih g2 hp' hq'

theorem rising_split {pre rest : List Point} {p : Point} (hr : Rising (pre ++ p :: rest)) :
    (∀ q ∈ pre, q.1 < p.1) ∧ ∀ q ∈ rest, p.1 < q.1 := by
  obtain ⟨-, h2, h3⟩ := List.pairwise_append.mp hr
  exact ⟨fun q hq => h3 q hq p List.mem_cons_self, (List.pairwise_cons.mp h2).1⟩

theorem last_not_neighbour {pre : List Point} {p q : Point} (hr : Rising (pre ++ [p]))
    (h : Ivs.Neighbours (pre ++ [p]) p q) : False := by
  have hq := (neighbours_mem h).2
  obtain ⟨a, b, hab⟩ := h
  have hpq : p.1 < q.1 := by
    have : Rising (a ++ p :: q :: b) := hab ▸ hr
    exact (rising_split this).2 q List.mem_cons_self
  rcases List.mem_append.mp hq with hq | hq
  · have := (rising_split hr).1 q hq; omega
  · rw [List.mem_singleton.mp hq] at hpq; omega

theorem at_start (a : ℚ) (f : Int) : At [⟨some 0, some a, some f⟩] [0] := ⟨rfl, by simp⟩

theorem modulateAmplitude_spec (points : List Point) (hr : Rising points) (position length : Int) (hl : 1 ≤ length)
    (base : ℚ) (f : Int) (kfs : List Keyframe) (last : ℚ)
    (h : modulateAmplitude points position length base [⟨some 0, some base, some f⟩] = .ok (kfs, last)) :
    Amplitudes points position length base f kfs last := by
  cases hpt : points with
  | nil =>
    rw [hpt] at h
    obtain ⟨rfl, rfl⟩ := Prod.mk.inj (Except.ok.inj h)
    refine ⟨⟨[0], at_start _ _, by simp⟩, fun y => ?_, ⟨base, rfl, fun _ => rfl, fun _ => rfl, ?_, ?_⟩,
      by simp, fun _ => rfl, ?_, fun h => absurd rfl h⟩
    · rw [freqAt, kfAt_single]; split <;> rfl
    · rintro q p ⟨a, b, hab⟩; simp at hab
    · rintro q p ⟨a, b, hab⟩; simp at hab
    · rintro q p ⟨a, b, hab⟩; simp at hab
  | cons z zs =>
  rw [← hpt]
  have hne : points.isEmpty = false := by rw [hpt]; rfl
  unfold modulateAmplitude at h
  rw [hne] at h
  simp only [Bool.false_eq_true, if_false] at h
  rcases split_points points position with ⟨h1, h2⟩ | ⟨pre, p, rest, h1, h2, h3, h4, h5⟩
  · rw [h1] at h; cases h
  rw [h2, h3] at h
  simp only at h
  have hr' : Rising (pre ++ p :: rest) := h1 ▸ hr
  obtain ⟨hs1, hs2⟩ := rising_split hr'
  have hsub : ∀ b : Option Point, b = (pre ++ [p]).getLast? → Rising (b.toList ++ rest) := by
    rintro b rfl
    rw [List.getLast?_append]
    exact (List.pairwise_append.mp hr').2.1
  split at h
  · -- a point at the start
    rename_i hc
    obtain ⟨hc1, hc2⟩ := hc
    have hrest : rest ≠ [] := by intro hh; rw [hh] at hc2; cases hc2
    have D := amplitudeLoop_spec position length base (some p) rest (hsub _ (by simp))
      (fun q hq => by have := hs2 q hq; omega) _ [0] (at_start _ _) base kfs last h
    refine assemble (pre := pre ++ [p]) (rest := rest) hl (by rw [h1]; simp) ?_ (by simpa using D) (by simp) ?_ ?_ ?_ ?_
    · intro q hq
      rcases List.mem_append.mp hq with hq | hq
      · exact (h4 q hq).le
      · rw [List.mem_singleton.mp hq]; omega
    · intro hall
      have := hall p (by rw [h1]; simp); omega
    · intro hall
      obtain ⟨r, rs, hrs⟩ := List.exists_cons_of_ne_nil hrest
      have := hall r (by rw [h1, hrs]; simp)
      have := hs2 r (by rw [hrs]; simp)
      omega
    · intro q r hn hq
      rw [rising_unique hr (neighbours_mem hn).1 (by rw [h1]; simp : p ∈ points) (by omega)]
    · intro q r hn hq hrr
      exfalso
      obtain ⟨a, b, hab⟩ := hn
      have hr2 : Rising (a ++ q :: r :: b) := hab ▸ hr
      obtain ⟨u1, u2⟩ := rising_split hr2
      have hpm : p ∈ a ++ q :: r :: b := by rw [← hab, h1]; simp
      rcases List.mem_append.mp hpm with hm | hm
      · have := u1 p hm; omega
      · rcases List.mem_cons.mp hm with rfl | hm
        · omega
        · rcases List.mem_cons.mp hm with rfl | hm
          · omega
          · have : r.1 < p.1 := (List.pairwise_cons.mp (List.pairwise_cons.mp (List.pairwise_append.mp hr2).2.1).2).1 p hm
            omega
  · rename_i hc
    have hsub2 : Rising (pre.getLast?.toList ++ p :: rest) := by
      rcases List.eq_nil_or_concat pre with rfl | ⟨pre', q, rfl⟩
      · exact hr'
      · simp only [List.concat_eq_append, List.getLast?_append, List.getLast?_singleton, Option.some_or]
        refine hr'.sublist ?_
        simp
    have hge : ∀ q ∈ p :: rest, position ≤ q.1 := by
      intro q hq
      rcases List.mem_cons.mp hq with rfl | hq
      · exact h5
      · have := hs2 q hq; omega
    have hnb : ∀ q r, Ivs.Neighbours points q r → q.1 ≠ position := by
      intro q r hn hq
      have hqp : q = p := by
        have hm := (neighbours_mem hn).1
        rw [h1] at hm
        rcases List.mem_append.mp hm with hm | hm
        · have := h4 q hm; omega
        · rcases List.mem_cons.mp hm with rfl | hm
          · rfl
          · have := hs2 q hm; omega
      subst hqp
      have hrest : rest = [] := by
        cases rest with
        | nil => rfl
        | cons r rs => exact absurd ⟨hq, rfl⟩ hc
      subst hrest
      rw [h1] at hn
      exact last_not_neighbour hr' hn
    rcases List.eq_nil_or_concat pre with rfl | ⟨pre', q, rfl⟩
    · simp only [List.getLast?_nil] at h
      have D := amplitudeLoop_spec position length base none (p :: rest) hsub2 hge _ [0] (at_start _ _) base kfs last h
      refine assemble (pre := []) hl (by rw [h1]) (by simp) D ?_ (fun _ => rfl) (fun _ => rfl)
        (fun q r hn hq => absurd hq (hnb q r hn)) ?_
      · intro _
        refine ⟨p, by rw [h1]; simp, ?_⟩
        by_contra hcon
        unfold amplitudeLoop at h
        rw [if_pos (by omega)] at h
        cases h
      · intro q r hn hq hrr
        have hm := (neighbours_mem hn).1
        rw [h1] at hm
        have := hge q hm
        omega
    · simp only [List.concat_eq_append] at h h1 h4 hsub2 hr' hs1
      simp only [List.getLast?_append, List.getLast?_singleton, Option.some_or] at h hsub2
      have hpre : ∀ r ∈ pre' ++ [q], r.1 ≤ position := fun r hrm => (h4 r hrm).le
      have hqp : Ivs.Neighbours points q p := ⟨pre', rest, by rw [h1]; simp⟩
      have hq0 : q.1 < position := h4 q (by simp)
      split at h
      · rename_i hlt
        cases hy : interpolated q p position with
        | error e => simp only [hy] at h; cases h
        | ok y =>
          simp only [hy] at h
          have D := amplitudeLoop_spec position length base (some q) (p :: rest) hsub2 hge _ [0] (at_start _ _) base
            kfs last h
          refine assemble (pre := pre' ++ [q]) hl h1 hpre (by simpa using D) (by simp) ?_ ?_
            (fun q r hn hq => absurd hq (hnb q r hn)) ?_
          · intro hall
            have := hall q (by rw [h1]; simp); omega
          · intro hall
            have := hall p (by rw [h1]; simp); omega
          · intro q' r hn hq' hr'
            obtain ⟨rfl, rfl⟩ := neighbours_unique hr hqp hn hq0.le hlt hq'.le hr'
            exact ⟨y, hy, rfl⟩
      · rename_i hlt
        have hpe : p.1 = position := by omega
        have hrest : rest = [] := by
          cases rest with
          | nil => rfl
          | cons r rs => exact absurd ⟨hpe, rfl⟩ hc
        have D := amplitudeLoop_spec position length base (some q) (p :: rest) hsub2 hge _ [0] (at_start _ _) base
          kfs last h
        refine assemble (pre := pre' ++ [q]) hl h1 hpre (by simpa using D) (by simp) (fun _ => rfl) (fun _ => rfl)
            (fun q r hn hq => absurd hq (hnb q r hn)) ?_
        intro q' r hn hq' hr2
        have hm := (neighbours_mem hn).2
        subst hrest
        rw [h1] at hm
        rcases List.mem_append.mp hm with hm | hm
        · have := h4 r hm; omega
        · rw [List.mem_singleton.mp hm] at hr2; omega

/-! ### Sharpness -/

/-- Sharpness in Hz, rounded. -/
def hz (s : ℚ) : Int := truncQ (roundAway (toHz s))

/-- What the loop over a sharpness curve does. -/
structure FrequencyDone (position length : Int) (base : ℚ) (before : Option Point) (rest : List Point)
    (kfs : List Keyframe) (xs : List Int) (last : Int) (kfs' : List Keyframe) (last' : Int) : Prop where
  times : ∃ xs', At kfs' xs' ∧ ∀ y, y ∈ xs' ↔ y ∈ xs ∨ ∃ p ∈ rest, p.1 = position + y ∧ 0 < y ∧ y < length
  amp : ∀ y, ampAt kfs' y = ampAt kfs y
  keep : ∀ y, (∀ p ∈ rest, p.1 = position + y → ¬ (0 < y ∧ y < length)) → kfAt kfs' y = kfAt kfs y
  point : ∀ p ∈ rest, ∀ y, p.1 = position + y → 0 < y → y < length →
    freqAt kfs' y = some (if rest.getLast? = some p then hz base else hz (clamp01 (fl64 (p.2 + base))))
  lastKeep : (∀ p ∈ rest, p.1 < position + length) → last' = last
  lastNew : ∀ q p, Ivs.Neighbours (before.toList ++ rest) q p → q.1 < position + length → position + length ≤ p.1 →
    last' = hz (clamp01 (fl64 (chirp64 q.1 p.1 (fl64 (q.2 + base)) (fl64 (p.2 + base)) (position + length) + base)))

theorem addThreeF (g h : Int) (x : Int) (m n : Bool) {base : ℚ} (hb : roundHz base = .ok g) {l : List Keyframe}
    {xs : List Int} (hl : At l xs) :
    ∃ l1 l2 xs', addBaseFrequency m base x l = .ok l1 ∧
      addBaseFrequency n base x (addFrequencyKf (some h) x l1) = .ok l2 ∧ At l2 xs' ∧ (∀ y, y ∈ xs' ↔ y = x ∨ y ∈ xs) ∧
      ∀ y, kfAt l2 y = if y = x then some ⟨some x, ampAt l x, some (if n then g else h)⟩ else kfAt l y := by
  have one : ∀ (m : Bool) {l : List Keyframe} {xs : List Int}, At l xs → ∃ l1 x1, addBaseFrequency m base x l = .ok l1 ∧
      At l1 x1 ∧ (∀ y, (y = x ∨ y ∈ x1) ↔ (y = x ∨ y ∈ xs)) ∧ (∀ y ∈ xs, y ∈ x1) ∧
      ∀ y, kfAt l1 y = if y = x ∧ m = true then some ⟨some x, ampAt l x, some g⟩ else kfAt l y := by
    intro m l xs hl
    cases m
    · exact ⟨l, xs, rfl, hl, fun _ => Iff.rfl, fun _ h => h, fun y => by simp⟩
    · obtain ⟨x1, p1, p2, p3⟩ := addFrequency_spec (some g) x hl
      refine ⟨_, x1, by rw [addBaseFrequency, if_pos rfl, hb]; rfl, p1, fun y => by rw [p2]; tauto,
        fun y hy => by rw [p2]; exact Or.inr hy, fun y => ?_⟩
      rw [p3]
      simp
  obtain ⟨l1, x1, a1, a2, a3, -, a4⟩ := one m hl
  obtain ⟨x2, b1, b2, b3⟩ := addFrequency_spec (some h) x a2
  obtain ⟨l3, x3, c1, c2, c3, c4, c5⟩ := one n b1
  refine ⟨l1, l3, x3, a1, c1, c2, fun y => ?_, fun y => ?_⟩
  · have := c3 y
    have h2 := b2 y
    have h3 := a3 y
    constructor
    · intro hy
      exact h3.mp (h2.mp ((this.mp (Or.inr hy)).elim (fun e => h2.mpr (Or.inl e)) id))
    · intro hy
      exact c4 y (h2.mpr (h3.mpr hy))
  · have e1 : ampAt l1 x = ampAt l x := by
      rw [ampAt, a4]
      split <;> rfl
    have e2 : ampAt (addFrequencyKf (some h) x l1) x = ampAt l x := by
      rw [ampAt, b3, if_pos rfl]; exact e1
    rw [c5, b3, a4, e1, e2]
    by_cases hy : y = x
    · cases n <;> simp [hy]
    · simp [hy]

theorem frequencyLoop_spec (position length : Int) (base : ℚ) (hb : 0 ≤ base ∧ base ≤ 1) (before : Option Point) (rest : List Point)
    (hr : Rising (before.toList ++ rest)) (hp : ∀ p ∈ rest, position ≤ p.1)
    (kfs : List Keyframe) (xs : List Int) (hk : At kfs xs)
    (last : Int) (kfs' : List Keyframe) (last' : Int)
    (h : frequencyLoop position length base before rest kfs last = .ok (kfs', last')) :
    FrequencyDone position length base before rest kfs xs last kfs' last' := by
  induction rest generalizing before kfs xs with
  | nil =>
    have h := Except.ok.inj h
    obtain ⟨rfl, rfl⟩ := Prod.mk.inj h
    refine ⟨⟨xs, hk, by simp⟩, fun _ => rfl, fun _ _ => rfl, by simp, fun _ => rfl, ?_⟩
    intro q p hn h1 h2
    obtain ⟨pre, post, hn⟩ := hn
    cases before with
    | none => simp at hn
    | some b =>
      have := congrArg List.length hn
      simp at this
      omega
  | cons p0 rest ih =>
    have hrest : Rising ((some p0).toList ++ rest) := by
      refine hr.sublist ?_
      exact List.sublist_append_right _ _
    have hgt : ∀ p ∈ rest, p0.1 < p.1 := (List.pairwise_cons.mp hrest).1
    unfold frequencyLoop at h
    split at h
    · rename_i hge
      -- the end of the event
      cases before with
      | none => cases h
      | some b =>
        have hb : b.1 < p0.1 := (List.pairwise_cons.mp hr).1 p0 (by simp)
        have hall : ∀ p ∈ p0 :: rest, position + length ≤ p.1 := by
          intro p hpm
          rcases List.mem_cons.mp hpm with rfl | hpm
          · exact hge
          · have := hgt p hpm; omega
        · have hy := roundHz_ok (f := clamp01 (fl64 (chirp64 b.1 p0.1 (fl64 (b.2 + base)) (fl64 (p0.2 + base))
            (position + length) + base))) (by linarith [clamp01_nonneg (fl64 (chirp64 b.1 p0.1 (fl64 (b.2 + base))
              (fl64 (p0.2 + base)) (position + length) + base))]) (clamp01_le_one _)
          simp only [hy] at h
          obtain ⟨rfl, rfl⟩ := Prod.mk.inj (Except.ok.inj h)
          refine ⟨⟨xs, hk, fun z => ?_⟩, fun _ => rfl, fun _ _ => rfl, ?_, ?_, ?_⟩
          · constructor
            · exact Or.inl
            · rintro (hz | ⟨p, hpm, e1, e2, e3⟩)
              · exact hz
              · have := hall p hpm; omega
          · intro p hpm z e1 e2 e3
            have := hall p hpm; omega
          · intro hlt
            have := hlt p0 List.mem_cons_self; omega
          · intro q p hn h1 h2
            rcases neighbours_cons hn with ⟨rfl, l', hl⟩ | hn
            · have hl : p0 = p ∧ rest = l' := List.cons.inj hl
              rw [← hl.1]
              rfl
            · have := hall q (neighbours_mem hn).1; omega
    · rename_i hlt
      push Not at hlt
      split at h
      · rename_i hpos
        have hg := roundHz_ok (f := base) (by linarith [hb.1]) hb.2
        have hv := roundHz_ok (f := clamp01 (fl64 (p0.2 + base))) (by linarith [clamp01_nonneg (fl64 (p0.2 + base))])
          (clamp01_le_one _)
        obtain ⟨l1, l2, x1, o1, o2, p1, p2, p3⟩ := addThreeF (hz base) (hz (clamp01 (fl64 (p0.2 + base))))
          (p0.1 - position) before.isNone rest.isEmpty hg hk
        have h : frequencyLoop position length base (some p0) rest l2 last = .ok (kfs', last') := by
          rw [← h, o1]
          show _ = (roundHz (clamp01 (fl64 (p0.2 + base)))).bind _
          rw [hv]
          show _ = (addBaseFrequency rest.isEmpty base (p0.1 - position)
            (addFrequencyKf (some (hz (clamp01 (fl64 (p0.2 + base))))) (p0.1 - position) l1)).bind _
          rw [o2]
          rfl
        have done := ih (some p0) hrest (fun p hpm => hp p (List.mem_cons_of_mem _ hpm)) _ x1 p1 h
        have hamp : ∀ y, ampAt kfs' y = ampAt kfs y := by
          intro y
          rw [done.amp, ampAt, p3]
          split
          · rename_i hy; rw [hy]; rfl
          · rfl
        refine ⟨?_, hamp, ?_, ?_, ?_, ?_⟩
        · obtain ⟨xs', q1, q2⟩ := done.times
          refine ⟨xs', q1, fun y => ?_⟩
          rw [q2, p2]
          constructor
          · rintro ((rfl | hy) | ⟨p, hpm, e⟩)
            · exact Or.inr ⟨p0, List.mem_cons_self, by omega, by omega, by omega⟩
            · exact Or.inl hy
            · exact Or.inr ⟨p, List.mem_cons_of_mem _ hpm, e⟩
          · rintro (hy | ⟨p, hpm, e1, e2, e3⟩)
            · exact Or.inl (Or.inr hy)
            · rcases List.mem_cons.mp hpm with rfl | hpm
              · exact Or.inl (Or.inl (by omega))
              · exact Or.inr ⟨p, hpm, e1, e2, e3⟩
        · intro y hy
          rw [done.keep y (fun p hpm => hy p (List.mem_cons_of_mem _ hpm)), p3, if_neg]
          intro hyx
          exact hy p0 List.mem_cons_self (by omega) ⟨by omega, by omega⟩
        · intro p hpm y e1 e2 e3
          rcases List.mem_cons.mp hpm with rfl | hpm
          · have hyx : y = p.1 - position := by omega
            rw [freqAt, done.keep y (fun q hq e => by have := hgt q hq; omega), p3, if_pos hyx]
            cases rest with
            | nil => simp
            | cons r rest =>
              have hne : ¬ ((p :: r :: rest).getLast? = some p) := by
                rw [List.getLast?_cons_cons]
                intro hh
                have := hgt p (List.mem_of_getLast? hh)
                omega
              rw [if_neg hne]
              rfl
          · rw [done.point p hpm y e1 e2 e3]
            cases rest with
            | nil => cases hpm
            | cons r rest => rw [List.getLast?_cons_cons]
        · intro hlt
          exact done.lastKeep (fun p hpm => hlt p (List.mem_cons_of_mem _ hpm))
        · intro q p hn h1 h2
          refine done.lastNew q p ?_ h1 h2
          cases before with
          | none => exact hn
          | some b =>
            rcases neighbours_cons hn with ⟨rfl, l', hl⟩ | hn
            · have hl : p0 = p ∧ rest = l' := List.cons.inj hl
              rw [← hl.1] at h2
              omega
            · exact hn
      · rename_i hpos
        have hpos : p0.1 = position := by have := hp p0 List.mem_cons_self; omega
        have done := ih (some p0) hrest (fun p hpm => hp p (List.mem_cons_of_mem _ hpm)) kfs xs hk h
        refine ⟨?_, done.amp, ?_, ?_, ?_, ?_⟩
        · obtain ⟨xs', q1, q2⟩ := done.times
          refine ⟨xs', q1, fun y => ?_⟩
          rw [q2]
          constructor
          · rintro (hy | ⟨p, hpm, e⟩)
            · exact Or.inl hy
            · exact Or.inr ⟨p, List.mem_cons_of_mem _ hpm, e⟩
          · rintro (hy | ⟨p, hpm, e1, e2, e3⟩)
            · exact Or.inl hy
            · rcases List.mem_cons.mp hpm with rfl | hpm
              · omega
              · exact Or.inr ⟨p, hpm, e1, e2, e3⟩
        · intro y hy
          exact done.keep y (fun p hpm => hy p (List.mem_cons_of_mem _ hpm))
        · intro p hpm y e1 e2 e3
          rcases List.mem_cons.mp hpm with rfl | hpm
          · omega
          · rw [done.point p hpm y e1 e2 e3]
            cases rest with
            | nil => cases hpm
            | cons r rest => rw [List.getLast?_cons_cons]
        · intro hlt
          exact done.lastKeep (fun p hpm => hlt p (List.mem_cons_of_mem _ hpm))
        · intro q p hn h1 h2
          refine done.lastNew q p ?_ h1 h2
          cases before with
          | none => exact hn
          | some b =>
            rcases neighbours_cons hn with ⟨rfl, l', hl⟩ | hn
            · have hl : p0 = p ∧ rest = l' := List.cons.inj hl
              rw [← hl.1] at h2
              omega
            · exact hn

/-- Keyframes, and the frequency of the last one, under a sharpness curve, from the keyframes `kfs0`; exact. -/
structure Frequencies (points : List Point) (position length : Int) (base : ℚ) (f : Int) (kfs0 kfs : List Keyframe)
    (last : Int) : Prop where
  times : ∀ xs0, At kfs0 xs0 → ∃ xs, At kfs xs ∧ ∀ y, y ∈ xs ↔ y ∈ xs0 ∨ ∃ p ∈ points, p.1 = position + y ∧ 0 < y ∧ y < length
  amp : ∀ y, ampAt kfs y = ampAt kfs0 y
  other : ∀ y, y ≠ 0 → (∀ p ∈ points, p.1 = position + y → ¬ (0 < y ∧ y < length)) → freqAt kfs y = freqAt kfs0 y
  start : ∃ g, freqAt kfs 0 = some g ∧
    ((∀ p ∈ points, position < p.1) → g = f) ∧ ((∀ p ∈ points, p.1 ≤ position) → g = f) ∧
    (∀ q p, Ivs.Neighbours points q p → q.1 = position → g = hz (clamp01 (fl64 (q.2 + base)))) ∧
    (∀ q p, Ivs.Neighbours points q p → q.1 < position → position < p.1 →
      g = hz (clamp01 (chirp64 q.1 p.1 (fl64 (q.2 + base)) (fl64 (p.2 + base)) position)))
  point : ∀ p ∈ points, ∀ y, p.1 = position + y → 0 < y → y < length →
    freqAt kfs y = some (if points.getLast? = some p then hz base else hz (clamp01 (fl64 (p.2 + base))))
  lastKeep : (∀ p ∈ points, p.1 < position + length) → last = f
  lastNew : ∀ q p, Ivs.Neighbours points q p → q.1 < position + length → position + length ≤ p.1 →
    last = hz (clamp01 (fl64 (chirp64 q.1 p.1 (fl64 (q.2 + base)) (fl64 (p.2 + base)) (position + length) + base)))
  lastReached : points ≠ [] → ∃ p ∈ points, p.1 < position + length

theorem assembleF {points pre rest : List Point} {position length : Int} (hl : 1 ≤ length) {base : ℚ} {f g : Int}
    {kfs0 kfs1 kfs : List Keyframe} {xs0 : List Int} {last : Int} (he : points = pre ++ rest) (hpre : ∀ q ∈ pre, q.1 ≤ position)
    (h0 : At kfs0 xs0) (hm : 0 ∈ xs0) (hk1 : ∀ y, kfAt kfs1 y = if y = 0 then some ⟨some 0, ampAt kfs0 0, some g⟩
      else kfAt kfs0 y)
    (D : FrequencyDone position length base pre.getLast? rest kfs1 xs0 f kfs last)
    (hreach : pre = [] → ∃ p ∈ points, p.1 < position + length)
    (h1 : (∀ p ∈ points, position < p.1) → g = f) (h2 : (∀ p ∈ points, p.1 ≤ position) → g = f)
    (h3 : ∀ q p, Ivs.Neighbours points q p → q.1 = position → g = hz (clamp01 (fl64 (q.2 + base))))
    (h4 : ∀ q p, Ivs.Neighbours points q p → q.1 < position → position < p.1 →
      g = hz (clamp01 (chirp64 q.1 p.1 (fl64 (q.2 + base)) (fl64 (p.2 + base)) position))) :
    Frequencies points position length base f kfs0 kfs last := by
  subst he
  refine ⟨?_, ?_, ?_, ⟨g, ?_, h1, h2, h3, h4⟩, ?_, ?_, ?_, ?_⟩
  · intro xs0' h0'
    have : xs0' = xs0 := List.map_injective_iff.mpr (Option.some_injective _) (h0'.1.symm.trans h0.1)
    subst this
    obtain ⟨xs, q1, q2⟩ := D.times
    refine ⟨xs, q1, fun y => ?_⟩
    rw [q2]
    constructor
    · rintro (hy | ⟨p, hp, e⟩)
      · exact Or.inl hy
      · exact Or.inr ⟨p, List.mem_append_right _ hp, e⟩
    · rintro (hy | ⟨p, hp, e1, e2, e3⟩)
      · exact Or.inl hy
      · rcases List.mem_append.mp hp with hp | hp
        · have := hpre p hp; omega
        · exact Or.inr ⟨p, hp, e1, e2, e3⟩
  · intro y
    rw [D.amp, ampAt, hk1]
    split
    · rename_i hy; rw [hy]; rfl
    · rfl
  · intro y hy hpt
    rw [freqAt, D.keep y (fun p hp => hpt p (List.mem_append_right _ hp)), hk1, if_neg hy]
    rfl
  · rw [freqAt, D.keep 0 (fun p _ _ => by omega), hk1, if_pos rfl]
    rfl
  · intro p hp y e1 e2 e3
    rcases List.mem_append.mp hp with hp | hp
    · have := hpre p hp; omega
    · rw [D.point p hp y e1 e2 e3]
      have : (pre ++ rest).getLast? = rest.getLast? := by
        rw [List.getLast?_append]
        cases hr : rest.getLast? with
        | none => rw [List.getLast?_eq_none_iff] at hr; subst hr; cases hp
        | some z => rfl
      rw [this]
  · intro hlt
    exact D.lastKeep (fun p hp => hlt p (List.mem_append_right _ hp))
  · intro q p hn e1 e2
    refine D.lastNew q p (neighbours_append hn ?_) e1 e2
    intro hp
    have := hpre p hp; omega
  · intro _
    cases pre with
    | nil => exact hreach rfl
    | cons q pre => exact ⟨q, by simp, by have := hpre q (by simp); omega⟩

theorem setFirst_spec {kfs : List Keyframe} {ys : List Int} (h : At kfs (0 :: ys)) (g : Int) :
    At (setFirstFrequency g kfs) (0 :: ys) ∧ ∀ y, kfAt (setFirstFrequency g kfs) y
      = if y = 0 then some ⟨some 0, ampAt kfs 0, some g⟩ else kfAt kfs y := by
  cases kfs with
  | nil => exact absurd h.1 (by simp)
  | cons k l =>
    obtain ⟨y, zs, e1, e2, e3, e4⟩ := at_cons h
    obtain ⟨rfl, rfl⟩ := List.cons.inj e1
    refine ⟨at_insert (x := 0) e2 e3 e4, fun y => ?_⟩
    rw [setFirstFrequency, kfAt_cons]
    by_cases hy : y = 0
    · subst hy
      rw [if_pos e2, if_pos rfl, ampAt, kfAt_cons, if_pos e2]
      cases k
      simp only at e2
      subst e2
      rfl
    · have hne : ¬ (k.relativePosition = some y) := by rw [e2]; simpa using fun e => hy e.symm
      rw [if_neg hne, if_neg hy, kfAt_cons, if_neg hne]

theorem modulateFrequency_spec (points : List Point) (hr : Rising points) (position length : Int) (hl : 1 ≤ length)
    (base : ℚ) (hb : 0 ≤ base ∧ base ≤ 1) (f : Int) (kfs0 kfs : List Keyframe) (ys : List Int)
    (h0 : At kfs0 (0 :: ys)) (hf : freqAt kfs0 0 = some f) (last : Int)
    (h : modulateFrequency points position length base kfs0 f = .ok (kfs, last)) :
    Frequencies points position length base f kfs0 kfs last := by
  cases hpt : points with
  | nil =>
    rw [hpt] at h
    obtain ⟨rfl, rfl⟩ := Prod.mk.inj (Except.ok.inj h)
    refine ⟨fun xs0 h0 => ⟨xs0, h0, by simp⟩, fun y => rfl, fun _ _ _ => rfl,
      ⟨_, hf, fun _ => rfl, fun _ => rfl, ?_, ?_⟩, by simp, fun _ => rfl, ?_, fun h => absurd rfl h⟩
    · rintro q p ⟨a, b, hab⟩; simp at hab
    · rintro q p ⟨a, b, hab⟩; simp at hab
    · rintro q p ⟨a, b, hab⟩; simp at hab
  | cons z zs =>
  rw [← hpt]
  have hne : points.isEmpty = false := by rw [hpt]; rfl
  unfold modulateFrequency at h
  rw [hne] at h
  simp only [Bool.false_eq_true, if_false] at h
  rcases split_points points position with ⟨h1, h2⟩ | ⟨pre, p, rest, h1, h2, h3, h4, h5⟩
  · rw [h1] at h; cases h
  rw [h2, h3] at h
  simp only at h
  have hr' : Rising (pre ++ p :: rest) := h1 ▸ hr
  obtain ⟨hs1, hs2⟩ := rising_split hr'
  have hsub : ∀ b : Option Point, b = (pre ++ [p]).getLast? → Rising (b.toList ++ rest) := by
    rintro b rfl
    rw [List.getLast?_append]
    exact (List.pairwise_append.mp hr').2.1
  split at h
  · -- a point at the start
    rename_i hc
    obtain ⟨hc1, hc2⟩ := hc
    have hrest : rest ≠ [] := by intro hh; rw [hh] at hc2; cases hc2
    have hv := roundHz_ok (f := clamp01 (fl64 (p.2 + base))) (by linarith [clamp01_nonneg (fl64 (p.2 + base))])
      (clamp01_le_one _)
    simp only [hv] at h
    obtain ⟨s1, s2⟩ := setFirst_spec h0 (hz (clamp01 (fl64 (p.2 + base))))
    have D := frequencyLoop_spec position length base hb (some p) rest (hsub _ (by simp))
      (fun q hq => by have := hs2 q hq; omega) _ (0 :: ys) s1 f kfs last h
    refine assembleF (pre := pre ++ [p]) (rest := rest) hl (by rw [h1]; simp) ?_ h0 (by simp) s2 (by simpa using D)
      (by simp) ?_ ?_ ?_ ?_
    · intro q hq
      rcases List.mem_append.mp hq with hq | hq
      · exact (h4 q hq).le
      · rw [List.mem_singleton.mp hq]; omega
    · intro hall
      have := hall p (by rw [h1]; simp); omega
    · intro hall
      obtain ⟨r, rs, hrs⟩ := List.exists_cons_of_ne_nil hrest
      have := hall r (by rw [h1, hrs]; simp)
      have := hs2 r (by rw [hrs]; simp)
      omega
    · intro q r hn hq
      rw [rising_unique hr (neighbours_mem hn).1 (by rw [h1]; simp : p ∈ points) (by omega)]
    · intro q r hn hq hrr
      exfalso
      obtain ⟨a, b, hab⟩ := hn
      have hr2 : Rising (a ++ q :: r :: b) := hab ▸ hr
      obtain ⟨u1, u2⟩ := rising_split hr2
      have hpm : p ∈ a ++ q :: r :: b := by rw [← hab, h1]; simp
      rcases List.mem_append.mp hpm with hm | hm
      · have := u1 p hm; omega
      · rcases List.mem_cons.mp hm with rfl | hm
        · omega
        · rcases List.mem_cons.mp hm with rfl | hm
          · omega
          · have : r.1 < p.1 := (List.pairwise_cons.mp (List.pairwise_cons.mp (List.pairwise_append.mp hr2).2.1).2).1 p hm
            omega
  · rename_i hc
    have hsub2 : Rising (pre.getLast?.toList ++ p :: rest) := by
      rcases List.eq_nil_or_concat pre with rfl | ⟨pre', q, rfl⟩
      · exact hr'
      · simp only [List.concat_eq_append, List.getLast?_append, List.getLast?_singleton, Option.some_or]
        refine hr'.sublist ?_
        simp
    have hkeep : ∀ y, kfAt kfs0 y = if y = 0 then some ⟨some 0, ampAt kfs0 0, some f⟩ else kfAt kfs0 y := by
      intro y
      split
      · rename_i hy
        subst hy
        obtain ⟨k, -, e1, e2⟩ := kfAt_some h0 (x := 0) (by simp)
        rw [freqAt, e1] at hf
        rw [ampAt, e1]
        cases k
        simp only [Option.bind_some] at hf e2 ⊢
        rw [hf, e2]
      · rfl
    have hge : ∀ q ∈ p :: rest, position ≤ q.1 := by
      intro q hq
      rcases List.mem_cons.mp hq with rfl | hq
      · exact h5
      · have := hs2 q hq; omega
    have hnb : ∀ q r, Ivs.Neighbours points q r → q.1 ≠ position := by
      intro q r hn hq
      have hqp : q = p := by
        have hm := (neighbours_mem hn).1
        rw [h1] at hm
        rcases List.mem_append.mp hm with hm | hm
        · have := h4 q hm; omega
        · rcases List.mem_cons.mp hm with rfl | hm
          · rfl
          · have := hs2 q hm; omega
      subst hqp
      have hrest : rest = [] := by
        cases rest with
        | nil => rfl
        | cons r rs => exact absurd ⟨hq, rfl⟩ hc
      subst hrest
      rw [h1] at hn
      exact last_not_neighbour hr' hn
    rcases List.eq_nil_or_concat pre with rfl | ⟨pre', q, rfl⟩
    · simp only [List.getLast?_nil] at h
      have D := frequencyLoop_spec position length base hb none (p :: rest) hsub2 hge _ (0 :: ys) h0 f kfs last h
      refine assembleF (pre := []) hl (by rw [h1]) (by simp) h0 (by simp) hkeep D ?_ (fun _ => rfl) (fun _ => rfl)
        (fun q r hn hq => absurd hq (hnb q r hn)) ?_
      · intro _
        refine ⟨p, by rw [h1]; simp, ?_⟩
        by_contra hcon
        unfold frequencyLoop at h
        rw [if_pos (by omega)] at h
        cases h
      · intro q r hn hq hrr
        have hm := (neighbours_mem hn).1
        rw [h1] at hm
        have := hge q hm
        omega
    · simp only [List.concat_eq_append] at h h1 h4 hsub2 hr' hs1
      simp only [List.getLast?_append, List.getLast?_singleton, Option.some_or] at h hsub2
      have hpre : ∀ r ∈ pre' ++ [q], r.1 ≤ position := fun r hrm => (h4 r hrm).le
      have hqp : Ivs.Neighbours points q p := ⟨pre', rest, by rw [h1]; simp⟩
      have hq0 : q.1 < position := h4 q (by simp)
      split at h
      · rename_i hlt
        · have hv := roundHz_ok (f := clamp01 (chirp64 q.1 p.1 (fl64 (q.2 + base)) (fl64 (p.2 + base)) position))
            (by linarith [clamp01_nonneg (chirp64 q.1 p.1 (fl64 (q.2 + base)) (fl64 (p.2 + base)) position)])
            (clamp01_le_one _)
          simp only [hv] at h
          obtain ⟨s1, s2⟩ := setFirst_spec h0
            (hz (clamp01 (chirp64 q.1 p.1 (fl64 (q.2 + base)) (fl64 (p.2 + base)) position)))
          have D := frequencyLoop_spec position length base hb (some q) (p :: rest) hsub2 hge _ (0 :: ys) s1 f
            kfs last h
          refine assembleF (pre := pre' ++ [q]) hl h1 hpre h0 (by simp) s2 (by simpa using D) (by simp) ?_ ?_
            (fun q r hn hq => absurd hq (hnb q r hn)) ?_
          · intro hall
            have := hall q (by rw [h1]; simp); omega
          · intro hall
            have := hall p (by rw [h1]; simp); omega
          · intro q' r hn hq' hr'
            obtain ⟨rfl, rfl⟩ := neighbours_unique hr hqp hn hq0.le hlt hq'.le hr'
            rfl
      · rename_i hlt
        have hpe : p.1 = position := by omega
        have hrest : rest = [] := by
          cases rest with
          | nil => rfl
          | cons r rs => exact absurd ⟨hpe, rfl⟩ hc
        have D := frequencyLoop_spec position length base hb (some q) (p :: rest) hsub2 hge _ (0 :: ys) h0 f
          kfs last h
        refine assembleF (pre := pre' ++ [q]) hl h1 hpre h0 (by simp) hkeep (by simpa using D) (by simp) (fun _ => rfl) (fun _ => rfl)
            (fun q r hn hq => absurd hq (hnb q r hn)) ?_
        intro q' r hn hq' hr2
        have hm := (neighbours_mem hn).2
        subst hrest
        rw [h1] at hm
        rcases List.mem_append.mp hm with hm | hm
        · have := h4 r hm; omega
        · rw [List.mem_singleton.mp hm] at hr2; omega

end Haptics.Ahap
