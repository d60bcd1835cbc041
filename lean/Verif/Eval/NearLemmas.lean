import Verif.Eval.SpecNear
import Verif.Eval.PropsRender
import Verif.Eval.PropsRoundedCurve
import Mathlib.Analysis.SpecialFunctions.Trigonometric.Bounds

/-! Rendering of effects that are nearly the same. -/

namespace Haptics

/-! ### Relations -/

theorem Near.refl {ε : ℝ} (h : 0 ≤ ε) (x : Option ℝ) : Near ε x x := by
  cases x with
  | none => trivial
  | some v => simpa [Near] using h

theorem Near.mono {ε ε' : ℝ} {x y : Option ℝ} (h : Near ε x y) (hh : ε ≤ ε') : Near ε' x y := by
  cases x <;> cases y
  · trivial
  · exact h
  · exact h
  · exact le_trans (show _ ≤ ε from h) hh

theorem Near.add {ε ε' : ℝ} {x y u v : Option ℝ} (h : Near ε x y) (h' : Near ε' u v) : Near (ε + ε') (fadd x u) (fadd y v) := by
  cases x with
  | none => cases y with
    | none => trivial
    | some y => exact absurd h id
  | some x => cases y with
    | none => exact absurd h id
    | some y =>
      cases u with
      | none => cases v with
        | none => trivial
        | some v => exact absurd h' id
      | some u => cases v with
        | none => exact absurd h' id
        | some v =>
          have h : |x - y| ≤ ε := h
          have h' : |u - v| ≤ ε' := h'
          show |x + u - (y + v)| ≤ ε + ε'
          rw [show x + u - (y + v) = (x - y) + (u - v) by ring]
          exact (abs_add_le _ _).trans (add_le_add h h')

theorem Near.clamp {ε : ℝ} {x y : Option ℝ} (h : Near ε x y) : Near ε (clamp1 x) (clamp1 y) := by
  cases x with
  | none => cases y with
    | none => trivial
    | some y => exact absurd h id
  | some x => cases y with
    | none => exact absurd h id
    | some y =>
      have h : |x - y| ≤ ε := h
      show |(if x < -1 then (-1 : ℝ) else if x > 1 then 1 else x) - (if y < -1 then (-1 : ℝ) else if y > 1 then 1 else y)| ≤ ε
      obtain ⟨h1, h2⟩ := abs_le.mp h
      have h0 : 0 ≤ ε := (abs_nonneg _).trans h
      rw [abs_le]
      split_ifs <;> constructor <;> linarith

theorem Alike.imp {α β : Type} {R S : α → β → Prop} {r : Except Err α} {r' : Except Err β} (h : Alike R r r')
    (hRS : ∀ a b, R a b → S a b) : Alike S r r' := by
  cases r <;> cases r'
  · exact h
  · exact h
  · exact h
  · exact hRS _ _ h

theorem Alike.ok_left {α β : Type} {R : α → β → Prop} {a : α} {r' : Except Err β} (h : Alike R (.ok a) r') :
    ∃ b, r' = .ok b ∧ R a b := by
  cases r' with
  | error x => exact absurd h id
  | ok b => exact ⟨b, rfl, h⟩

theorem alike_mapE {α α' β β' : Type} {P : α → α' → Prop} {R : β → β' → Prop} {f : α → Except Err β} {f' : α' → Except Err β'}
    {l : List α} {l' : List α'} (hl : List.Forall₂ P l l') (h : ∀ a a', P a a' → Alike R (f a) (f' a')) :
    Alike (List.Forall₂ R) (mapE f l) (mapE f' l') := by
  induction hl with
  | nil => exact .nil
  | cons hp _ ih =>
    rename_i a a' l l' _
    have ha := h _ _ hp
    unfold mapE
    cases hf : f a with
    | error x =>
      rw [hf] at ha
      cases hf' : f' a' with
      | error y => rw [hf'] at ha; exact ha
      | ok y => rw [hf'] at ha; exact absurd ha id
    | ok b =>
      rw [hf] at ha
      obtain ⟨b', hb, hr⟩ := ha.ok_left
      rw [hb]
      simp only
      cases hm : mapE f l with
      | error x =>
        rw [hm] at ih
        cases hm' : mapE f' l' with
        | error y => rw [hm'] at ih; exact ih
        | ok y => rw [hm'] at ih; exact absurd ih id
      | ok r =>
        rw [hm] at ih
        obtain ⟨r', hr', hrr⟩ := ih.ok_left
        rw [hr']
        exact .cons hr hrr

theorem forall₂_takeWhile {α β : Type} {R : α → β → Prop} {p : α → Bool} {q : β → Bool} {l : List α} {l' : List β}
    (h : List.Forall₂ R l l') (hpq : ∀ a b, R a b → p a = q b) :
    List.Forall₂ R (l.takeWhile p) (l'.takeWhile q) ∧ List.Forall₂ R (l.dropWhile p) (l'.dropWhile q) := by
  induction h with
  | nil => exact ⟨.nil, .nil⟩
  | cons hr ht ih =>
    rename_i a b l l'
    have e := hpq _ _ hr
    cases hb : q b with
    | true => rw [hb] at e; simp only [List.takeWhile_cons, List.dropWhile_cons, e, hb, if_true]; exact ⟨.cons hr ih.1, ih.2⟩
    | false =>
      rw [hb] at e
      simp only [List.takeWhile_cons, List.dropWhile_cons, e, hb, Bool.false_eq_true, if_false]
      exact ⟨.nil, .cons hr ht⟩

theorem forall₂_find? {α β : Type} {R : α → β → Prop} {p : α → Bool} {q : β → Bool} {l : List α} {l' : List β}
    (h : List.Forall₂ R l l') (hpq : ∀ a b, R a b → p a = q b) : Option.Rel R (l.find? p) (l'.find? q) := by
  induction h with
  | nil => exact .none
  | cons hr ht ih =>
    rename_i a b l l'
    have e := hpq _ _ hr
    rw [List.find?_cons, List.find?_cons, e]
    cases q b with
    | true => exact .some hr
    | false => exact ih

/-! ### Keyframes -/

variable {δ η : ℚ} {bt : Nat}

theorem positions_eq {l l' : List Keyframe} (h : List.Forall₂ (Keyframe.NearTo δ bt) l l') :
    l'.filterMap Keyframe.relativePosition = l.filterMap Keyframe.relativePosition ∧ l'.isEmpty = l.isEmpty := by
  constructor
  · induction h with
    | nil => rfl
    | cons hr _ ih => rw [List.filterMap_cons, List.filterMap_cons, hr.position, ih]
  · cases h <;> rfl

theorem timeLength_eq {e e' : Effect} (h : e.NearTo δ η bt e') (d : ℚ) : e'.timeLength bt d = e.timeLength bt d := by
  unfold Effect.timeLength
  rw [(positions_eq h.keyframes).1, (positions_eq h.keyframes).2]

theorem between_near {a b a' b' x y d : ℝ} (hx : 0 ≤ x) (hy : 0 ≤ y) (hs : 0 < x + y) (ha : |a - a'| ≤ d) (hb : |b - b'| ≤ d) :
    |(a * x + b * y) / (x + y) - (a' * x + b' * y) / (x + y)| ≤ d := by
  rw [← sub_div, abs_div, abs_of_pos hs, div_le_iff₀ hs]
  obtain ⟨a1, a2⟩ := abs_le.mp ha
  obtain ⟨b1, b2⟩ := abs_le.mp hb
  rw [abs_le]
  constructor <;> nlinarith

theorem linearInterpolation_near {a b : Int × ℝ} {a' b' : Int × ℝ} (h1 : a'.1 = a.1) (h2 : b'.1 = b.1) {d : ℝ}
    (ha : |a.2 - a'.2| ≤ d) (hb : |b.2 - b'.2| ≤ d) (x : ℝ) :
    Near d (linearInterpolation a b x) (linearInterpolation a' b' x) := by
  have hd : 0 ≤ d := (abs_nonneg _).trans ha
  unfold linearInterpolation
  rw [h1, h2]
  by_cases c1 : x < a.1
  · rw [if_pos c1, if_pos c1]; exact ha
  rw [if_neg c1, if_neg c1]
  by_cases c2 : x > b.1
  · rw [if_pos c2, if_pos c2]; exact hb
  rw [if_neg c2, if_neg c2]
  push Not at c1 c2
  by_cases c3 : a.1 ≥ b.1
  · rw [if_pos c3, if_pos c3]
    have e : (a.1 : ℝ) = b.1 := le_antisymm (c1.trans c2) (by exact_mod_cast c3)
    unfold fdiv
    rw [if_pos (by linarith), if_pos (by linarith)]
    trivial
  · rw [if_neg c3, if_neg c3]
    have hlt : (a.1 : ℝ) < b.1 := by exact_mod_cast not_le.mp c3
    unfold fdiv
    rw [if_neg (by linarith), if_neg (by linarith)]
    have := between_near (x := b.1 - x) (y := x - a.1) (by linarith) (by linarith) (by linarith) ha hb
    rw [show (b.1 : ℝ) - x + (x - a.1) = b.1 - a.1 by ring] at this
    exact this

theorem getD_near {a a' : Option ℚ} (h : Option.Rel (fun a a' : ℚ => |a - a'| ≤ δ ∧ |a| ≤ 1 ∧ |a'| ≤ 1) a a') (hδ : 0 ≤ δ) :
    |((a.getD 0 : ℚ) : ℝ) - ((a'.getD 0 : ℚ) : ℝ)| ≤ (δ : ℝ) := by
  cases h with
  | none => simpa using (by exact_mod_cast hδ : (0 : ℝ) ≤ δ)
  | some h => exact_mod_cast h.1

theorem isSome_eq {a a' : Option ℚ} (h : Option.Rel (fun a a' : ℚ => |a - a'| ≤ δ ∧ |a| ≤ 1 ∧ |a'| ≤ 1) a a') :
    a.isSome = a'.isSome := by
  cases h <;> rfl

theorem amplitude_near {l l' : List Keyframe} (h : List.Forall₂ (Keyframe.NearTo δ bt) l l') (hδ : 0 ≤ δ) (rel : ℝ) :
    Near δ (amplitudeModulationAt l rel) (amplitudeModulationAt l' rel) := by
  unfold amplitudeModulationAt
  simp only
  have hstop : ∀ k k' : Keyframe, k.NearTo δ bt k' →
      (!(match k.relativePosition, k.amplitudeModulation with
        | some p, some _ => decide ((p : ℝ) ≥ rel)
        | _, _ => false)) =
      (!(match k'.relativePosition, k'.amplitudeModulation with
        | some p, some _ => decide ((p : ℝ) ≥ rel)
        | _, _ => false)) := by
    intro k k' hk
    rw [hk.position]
    have := hk.amplitude
    cases ha : k.amplitudeModulation <;> cases ha' : k'.amplitudeModulation <;> rw [ha, ha'] at this
    · cases this
    · cases this
    · cases k.relativePosition <;> rfl
  obtain ⟨h1, h2⟩ := forall₂_takeWhile h hstop
  have hf : ∀ k k' : Keyframe, k.NearTo δ bt k' → k.amplitudeModulation.isSome = k'.amplitudeModulation.isSome :=
    fun k k' hk => isSome_eq hk.amplitude
  have h3 := forall₂_find? (List.rel_reverse h1) hf
  have h4 := forall₂_find? (List.rel_reverse h) hf
  revert h2 h3 h4
  generalize List.find? _ (List.reverse (List.takeWhile _ l)) = f1
  generalize List.find? _ (List.reverse (List.takeWhile _ l')) = f2
  generalize List.find? _ l.reverse = g1
  generalize List.find? _ l'.reverse = g2
  generalize List.dropWhile _ l = d1
  generalize List.dropWhile _ l' = d2
  intro h2 h3 h4
  cases h2 with
  | nil =>
    cases h4 with
    | none => exact Near.refl (by exact_mod_cast hδ) _
    | some hk => exact getD_near hk.amplitude hδ
  | cons hk _ =>
    cases h3 with
    | none => exact getD_near hk.amplitude hδ
    | some hb =>
      exact linearInterpolation_near (by rw [hb.position]) (by rw [hk.position]) (getD_near hb.amplitude hδ)
        (getD_near hk.amplitude hδ) rel

end Haptics
