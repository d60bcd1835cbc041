import Verif.Encoder.SpecEnvelope
import Verif.Types.PropsOps
import Mathlib.Tactic.Linarith
import Mathlib.Tactic.FieldSimp
import Mathlib.Tactic.Ring

/-! C73: from a basis effect and its launch to keyframes. -/

namespace Haptics.Ivs
open Haptics

theorem neighbours_cons {α : Type} (x y : α) (l : List α) (p q : α) :
    Neighbours (x :: y :: l) p q ↔ (p = x ∧ q = y) ∨ Neighbours (y :: l) p q := by
  constructor
  · rintro ⟨pre, post, h⟩
    cases pre with
    | nil => simp at h; exact Or.inl ⟨h.1.symm, h.2.1.symm⟩
    | cons z pre =>
      simp at h
      exact Or.inr ⟨pre, post, h.2⟩
  · rintro (⟨rfl, rfl⟩ | ⟨pre, post, h⟩)
    · exact ⟨[], l, rfl⟩
    · exact ⟨x :: pre, post, by rw [h]; rfl⟩

theorem neighbours_one {α : Type} (x p q : α) : ¬ Neighbours [x] p q := by
  rintro ⟨pre, post, h⟩
  have := congrArg List.length h
  simp at this
  omega

section segments
variable (a f d : Int) (AL M FL : ℚ)

theorem seg_attack (ha : 0 < a) (h : a ≤ d - f) (t : ℚ) (_ : (0 : Int) ≤ t) (h2 : t ≤ a) :
    envelopeAt a f d AL M FL t = lineAt (0, AL) (a, M) t := by
  have ha' : (0 : ℚ) < a := by exact_mod_cast ha
  have h' : (a : ℚ) ≤ d - f := by exact_mod_cast h
  unfold envelopeAt lineAt
  simp only [Int.cast_zero, sub_zero]
  split
  · rfl
  · have : t = a := le_antisymm h2 (not_lt.mp ‹_›)
    subst this
    rw [if_neg (not_lt.mpr h')]
    field_simp
    ring

theorem seg_hold (p q : Int) (ha : a ≤ p) (hq : q ≤ d - f) (t : ℚ) (h1 : (p : ℚ) ≤ t) (h2 : t ≤ q) :
    envelopeAt a f d AL M FL t = lineAt (p, M) (q, M) t := by
  have ha' : (a : ℚ) ≤ p := by exact_mod_cast ha
  have h' : (q : ℚ) ≤ d - f := by exact_mod_cast hq
  unfold envelopeAt lineAt
  rw [if_neg (not_lt.mpr (ha'.trans h1)), if_neg (not_lt.mpr (h2.trans h'))]
  simp

theorem seg_fade (hf : 0 < f) (h : a ≤ d - f) (t : ℚ) (h1 : ((d - f : Int) : ℚ) ≤ t) (_ : t ≤ d) :
    envelopeAt a f d AL M FL t = lineAt (d - f, M) (d, FL) t := by
  have hf' : (0 : ℚ) < f := by exact_mod_cast hf
  have h' : (a : ℚ) ≤ d - f := by exact_mod_cast h
  push_cast at h1
  unfold envelopeAt lineAt
  rw [if_neg (not_lt.mpr (h'.trans h1))]
  push_cast
  split
  · rw [sub_sub_cancel]
  · have : t = d - f := le_antisymm (not_lt.mp ‹_›) h1
    subst this
    simp

end segments

/-- The keyframes before attack and fade. -/
def plain (b : Basis) (l : Launch) (signal : Nat) (freq duration : Int) : Effect :=
  { position := l.time.getD (-1), phase := some 0, baseSignal := some signal,
    keyframes := [⟨some 0, some (amplitudeOf (getMagnitude b l)), some freq⟩,
      ⟨some duration, some (amplitudeOf (getMagnitude b l)), some freq⟩] }

theorem convert_shape (b : Basis) (l : Launch) (ts : Nat) (e : Effect) (h : convertToEffect b l ts = .ok (some e)) :
    ∃ signal freq d, toTicks (getDuration b l) ts = .ok d ∧
      envelope b ts (amplitudeOf (getMagnitude b l)) d (plain b l signal freq d) = .ok e := by
  unfold convertToEffect at h
  dsimp only at h
  split at h
  · cases h
  · cases h
  · rename_i signal freq _
    cases hd : toTicks (getDuration b l) ts with
    | error x => rw [hd] at h; cases h
    | ok d =>
      rw [hd] at h
      refine ⟨signal, freq, d, rfl, ?_⟩
      change (envelope b ts _ d (plain b l signal freq d)).bind _ = _ at h
      cases he : envelope b ts (amplitudeOf (getMagnitude b l)) d (plain b l signal freq d) with
      | error x => rw [he] at h; cases h
      | ok e' =>
        rw [he] at h
        injection h with h
        injection h with h
        rw [h]

theorem fade_none (b : Basis) (ts : Nat) (m : ℚ) (d at' : Int) (e : Effect) (h : b.fadeTime.getD (-1) = -1) :
    fade b ts m d at' e = .ok e := by
  unfold fade; dsimp only; rw [if_pos h]

theorem fade_some (b : Basis) (ts : Nat) (m : ℚ) (d at' f : Int) (e : Effect) (h : b.fadeTime.getD (-1) ≠ -1)
    (hf : toTicks (b.fadeTime.getD (-1)) ts = .ok f) (hr : max at' 0 ≤ d - f) :
    fade b ts m d at' e = .ok ((if d - f > max at' 0 then e.addAmplitudeAt (some m) (d - f) else e).addAmplitudeAt
      (some (amplitudeOf (b.fadeLevel.getD 0))) d) := by
  unfold fade; dsimp only; rw [if_neg h, hf]
  show Except.bind (Except.ok f) _ = _
  simp only [Except.bind]
  rw [if_neg (not_lt.mpr hr)]
  split <;> rfl

theorem envelope_none (b : Basis) (ts : Nat) (m : ℚ) (d : Int) (e : Effect) (h : b.attackTime.getD (-1) = -1) :
    envelope b ts m d e = fade b ts m d (-1) e := by
  unfold envelope; dsimp only; rw [if_pos h, h]

theorem envelope_some (b : Basis) (ts : Nat) (m : ℚ) (d a : Int) (e : Effect) (h : b.attackTime.getD (-1) ≠ -1)
    (ha : toTicks (b.attackTime.getD (-1)) ts = .ok a) (hr : a < d) :
    envelope b ts m d e = fade b ts m d a
      ((e.addAmplitudeAt (some (amplitudeOf (b.attackLevel.getD 0))) 0).addAmplitudeAt (some m) a) := by
  unfold envelope; dsimp only; rw [if_neg h, ha]
  show Except.bind (Except.ok a) _ = _
  simp only [Except.bind]
  rw [if_neg (by omega)]

theorem curve2 (d : Int) (y z : ℚ) (f : ℚ → ℚ) (hd : 0 < d)
    (h : ∀ t : ℚ, ((0 : Int) : ℚ) ≤ t → t ≤ d → f t = lineAt (0, y) (d, z) t) : IsCurve [(0, y), (d, z)] d f := by
  refine ⟨⟨y, _, rfl⟩, ⟨z, [(0, y)], rfl⟩, by simp [hd], ?_⟩
  intro p q hn t
  rw [neighbours_cons] at hn
  rcases hn with ⟨rfl, rfl⟩ | hn
  · exact h t
  · exact absurd hn (neighbours_one _ _ _)

theorem curve_cons (x p d : Int) (y z : ℚ) (l : List (Int × ℚ)) (f : ℚ → ℚ) (hx : x < p)
    (hl : ∃ y l', (p, z) :: l = l' ++ [(d, y)])
    (hi : ((p, z) :: l).Pairwise (fun p q => p.1 < q.1))
    (hn : ∀ a b, Neighbours ((p, z) :: l) a b → ∀ t : ℚ, a.1 ≤ t → t ≤ b.1 → f t = lineAt a b t)
    (h : ∀ t : ℚ, (x : ℚ) ≤ t → t ≤ p → f t = lineAt (x, y) (p, z) t) :
    (∃ y' l', (x, y) :: (p, z) :: l = l' ++ [(d, y')]) ∧
    ((x, y) :: (p, z) :: l).Pairwise (fun p q => p.1 < q.1) ∧
    ∀ a b, Neighbours ((x, y) :: (p, z) :: l) a b → ∀ t : ℚ, a.1 ≤ t → t ≤ b.1 → f t = lineAt a b t := by
  refine ⟨?_, ?_, ?_⟩
  · obtain ⟨y', l', e⟩ := hl
    exact ⟨y', (x, y) :: l', by rw [e]; rfl⟩
  · refine List.pairwise_cons.mpr ⟨fun q hq => ?_, hi⟩
    rcases List.mem_cons.mp hq with rfl | hq
    · exact hx
    · exact hx.trans ((List.pairwise_cons.mp hi).1 q hq)
  · intro a b hab t
    rw [neighbours_cons] at hab
    rcases hab with ⟨rfl, rfl⟩ | hab
    · exact h t
    · exact hn a b hab t

theorem curve3 (p d : Int) (y z w : ℚ) (f : ℚ → ℚ) (h1 : 0 < p) (h2 : p < d)
    (s1 : ∀ t : ℚ, ((0 : Int) : ℚ) ≤ t → t ≤ p → f t = lineAt (0, y) (p, z) t)
    (s2 : ∀ t : ℚ, (p : ℚ) ≤ t → t ≤ d → f t = lineAt (p, z) (d, w) t) :
    IsCurve [(0, y), (p, z), (d, w)] d f := by
  obtain ⟨a1, a2, a3⟩ := curve_cons p d d z w [] f h2 ⟨w, [], rfl⟩ (by simp)
    (fun a b h => absurd h (neighbours_one _ _ _)) s2
  obtain ⟨b1, b2, b3⟩ := curve_cons 0 p d y z _ f h1 a1 a2 a3 s1
  exact ⟨⟨y, _, rfl⟩, b1, b2, b3⟩

theorem curve4 (p q d : Int) (y z w v : ℚ) (f : ℚ → ℚ) (h1 : 0 < p) (h2 : p < q) (h3 : q < d)
    (s1 : ∀ t : ℚ, ((0 : Int) : ℚ) ≤ t → t ≤ p → f t = lineAt (0, y) (p, z) t)
    (s2 : ∀ t : ℚ, (p : ℚ) ≤ t → t ≤ q → f t = lineAt (p, z) (q, w) t)
    (s3 : ∀ t : ℚ, (q : ℚ) ≤ t → t ≤ d → f t = lineAt (q, w) (d, v) t) :
    IsCurve [(0, y), (p, z), (q, w), (d, v)] d f := by
  obtain ⟨a1, a2, a3⟩ := curve_cons q d d w v [] f h3 ⟨v, [], rfl⟩ (by simp)
    (fun a b h => absurd h (neighbours_one _ _ _)) s3
  obtain ⟨b1, b2, b3⟩ := curve_cons p q d z w _ f h2 a1 a2 a3 s2
  obtain ⟨c1, c2, c3⟩ := curve_cons 0 p d y z _ f h1 b1 b2 b3 s1
  exact ⟨⟨y, _, rfl⟩, c1, c2, c3⟩

/-- **C73.** Attack and fade that fit into an effect: its keyframes are a curve from 0 to the duration that rises
from the attack level to the magnitude, stays there and falls to the fade level.  An attack or a fade that is not
given counts as one of length 0; a fade that is given has to last at least one tick (`c73_zero_fade_negation`). -/
theorem c73_envelope (b : Basis) (l : Launch) (ts : Nat) (e : Effect) (d a f : Int)
    (h : convertToEffect b l ts = .ok (some e)) (hd : toTicks (getDuration b l) ts = .ok d)
    (ha : b.attackTime.getD (-1) = -1 ∧ a = 0 ∨
      b.attackTime.getD (-1) ≠ -1 ∧ toTicks (b.attackTime.getD (-1)) ts = .ok a)
    (hf : b.fadeTime.getD (-1) = -1 ∧ f = 0 ∨
      b.fadeTime.getD (-1) ≠ -1 ∧ toTicks (b.fadeTime.getD (-1)) ts = .ok f ∧ 0 < f)
    (h0 : 0 ≤ a) (had : a < d) (haf : a ≤ d - f) :
    ∃ pts : List (Int × ℚ), points e = pts.map (fun p => (some p.1, some p.2)) ∧
      IsCurve pts d (envelopeAt a f d (amplitudeOf (b.attackLevel.getD 0)) (amplitudeOf (getMagnitude b l))
        (amplitudeOf (b.fadeLevel.getD 0))) := by
  obtain ⟨signal, freq, d', hd', he⟩ := convert_shape b l ts e h
  rw [hd] at hd'
  injection hd' with hd'
  subst hd'
  generalize hM : amplitudeOf (getMagnitude b l) = M at *
  generalize hA : amplitudeOf (b.attackLevel.getD 0) = AL
  generalize hF : amplitudeOf (b.fadeLevel.getD 0) = FL
  rcases ha with ⟨ha, rfl⟩ | ⟨ha, hat⟩
  · rw [envelope_none _ _ _ _ _ ha] at he
    rcases hf with ⟨hf, rfl⟩ | ⟨hf, hft, hf0⟩
    · rw [fade_none _ _ _ _ _ _ hf] at he
      injection he with he
      subst he
      refine ⟨[(0, M), (d, M)], by simp [points, plain, hM], curve2 _ _ _ _ had fun t => ?_⟩
      exact seg_hold 0 0 d AL M FL 0 d (by omega) (by omega) t
    · rw [fade_some _ _ _ _ _ _ _ hf hft (by omega)] at he
      injection he with he
      rcases Int.lt_or_eq_of_le haf with hlt | heq
      · rw [if_pos (by omega), hF] at he
        subst he
        refine ⟨[(0, M), (d - f, M), (d, FL)], ?_, curve3 _ _ _ _ _ _ hlt (by omega)
          (fun t => seg_hold 0 f d AL M FL 0 (d - f) (by omega) (by omega) t)
          (fun t => seg_fade 0 f d AL M FL hf0 (by omega) t)⟩
        have e1 : ¬ (0 ≥ d - f) := by omega
        have e2 : ¬ (0 ≥ d) := by omega
        have e3 : d ≥ d - f := by omega
        have e4 : d ≠ d - f := by omega
        have e5 : ¬ (d - f ≥ d) := by omega
        simp [points, plain, hM, Effect.addAmplitudeAt, addAmplitudeKf, Keyframe.notBefore, e1, e2, e3, e4, e5]
      · rw [if_neg (by omega), hF] at he
        subst he
        have : d - f = 0 := by omega
        refine ⟨[(0, M), (d, FL)], ?_, curve2 _ _ _ _ had fun t ht1 ht2 => ?_⟩
        · have e2 : ¬ (0 ≥ d) := by omega
          simp [points, plain, hM, Effect.addAmplitudeAt, addAmplitudeKf, Keyframe.notBefore, e2]
        · have := seg_fade 0 f d AL M FL hf0 (by omega) t (by rw [‹d - f = 0›]; exact ht1) ht2
          rwa [‹d - f = 0›] at this
  · rw [envelope_some _ _ _ _ _ _ ha hat had, hA] at he
    have e0 : ¬ (0 ≥ d) := by omega
    have e1 : d ≥ a := by omega
    have e2 : d ≠ a := by omega
    have e3 : ¬ (a ≥ d) := by omega
    rcases Int.lt_or_eq_of_le h0 with hpos | rfl
    · have e4 : ¬ (0 ≥ a) := by omega
      rcases hf with ⟨hf, rfl⟩ | ⟨hf, hft, hf0⟩
      · rw [fade_none _ _ _ _ _ _ hf] at he
        injection he with he
        subst he
        refine ⟨[(0, AL), (a, M), (d, M)], ?_, curve3 _ _ _ _ _ _ hpos had
          (fun t => seg_attack a 0 d AL M FL hpos (by omega) t)
          (fun t => seg_hold a 0 d AL M FL a d (by omega) (by omega) t)⟩
        simp [points, plain, hM, Effect.addAmplitudeAt, addAmplitudeKf, Keyframe.notBefore, e0, e1, e2, e3, e4]
      · rw [fade_some _ _ _ _ _ _ _ hf hft (by omega)] at he
        injection he with he
        rcases Int.lt_or_eq_of_le haf with hlt | heq
        · rw [if_pos (by omega), hF] at he
          subst he
          refine ⟨[(0, AL), (a, M), (d - f, M), (d, FL)], ?_, curve4 _ _ _ _ _ _ _ _ hpos hlt (by omega)
            (fun t => seg_attack a f d AL M FL hpos (by omega) t)
            (fun t => seg_hold a f d AL M FL a (d - f) (by omega) (by omega) t)
            (fun t => seg_fade a f d AL M FL hf0 (by omega) t)⟩
          have e5 : ¬ (0 ≥ d - f) := by omega
          have e6 : ¬ (a ≥ d - f) := by omega
          have e7 : d ≥ d - f := by omega
          have e8 : d ≠ d - f := by omega
          have e9 : ¬ (d - f ≥ d) := by omega
          simp [points, plain, hM, Effect.addAmplitudeAt, addAmplitudeKf, Keyframe.notBefore, e0, e1, e2, e3, e4, e5,
            e6, e7, e8, e9]
        · rw [if_neg (by omega), hF] at he
          subst he
          refine ⟨[(0, AL), (a, M), (d, FL)], ?_, curve3 _ _ _ _ _ _ hpos had
            (fun t => seg_attack a f d AL M FL hpos (by omega) t) fun t ht1 ht2 => ?_⟩
          · simp [points, plain, hM, Effect.addAmplitudeAt, addAmplitudeKf, Keyframe.notBefore, e0, e1, e2, e3, e4]
          · have := seg_fade a f d AL M FL hf0 (by omega) t (by rw [← heq]; exact ht1) ht2
            rwa [← heq] at this
    · rcases hf with ⟨hf, rfl⟩ | ⟨hf, hft, hf0⟩
      · rw [fade_none _ _ _ _ _ _ hf] at he
        injection he with he
        subst he
        refine ⟨[(0, M), (d, M)], ?_, curve2 _ _ _ _ had fun t =>
          seg_hold 0 0 d AL M FL 0 d (by omega) (by omega) t⟩
        simp [points, plain, hM, Effect.addAmplitudeAt, addAmplitudeKf, Keyframe.notBefore]
      · rw [fade_some _ _ _ _ _ _ _ hf hft (by omega)] at he
        injection he with he
        rcases Int.lt_or_eq_of_le haf with hlt | heq
        · rw [if_pos (by omega), hF] at he
          subst he
          refine ⟨[(0, M), (d - f, M), (d, FL)], ?_, curve3 _ _ _ _ _ _ hlt (by omega)
            (fun t => seg_hold 0 f d AL M FL 0 (d - f) (by omega) (by omega) t)
            (fun t => seg_fade 0 f d AL M FL hf0 (by omega) t)⟩
          have e5 : ¬ (0 ≥ d - f) := by omega
          have e7 : d ≥ d - f := by omega
          have e8 : d ≠ d - f := by omega
          have e9 : ¬ (d - f ≥ d) := by omega
          simp [points, plain, hM, Effect.addAmplitudeAt, addAmplitudeKf, Keyframe.notBefore, e0, e5, e7, e8, e9]
        · rw [if_neg (by omega), hF] at he
          subst he
          refine ⟨[(0, M), (d, FL)], ?_, curve2 _ _ _ _ had fun t ht1 ht2 => ?_⟩
          · simp [points, plain, hM, Effect.addAmplitudeAt, addAmplitudeKf, Keyframe.notBefore, e0]
          · have := seg_fade 0 f d AL M FL hf0 (by omega) t (by rw [← heq]; exact ht1) ht2
            rwa [← heq] at this

/-- Keyframes from 0 to `d`, both included, in the order of time. -/
structure Within (d : Int) (l : List Keyframe) : Prop where
  ordered : KfOrdered l
  head : ∃ k r, l = k :: r ∧ k.relativePosition = some 0
  last : ∃ k r, l = r ++ [k] ∧ k.relativePosition = some d
  between : ∀ k ∈ l, ∃ p, k.relativePosition = some p ∧ 0 ≤ p ∧ p ≤ d

theorem within_add {d : Int} {e : Effect} (h : Within d e.keyframes) (a : Option ℚ) (p : Int) (ov : Bool)
    (h0 : 0 ≤ p) (hd : p ≤ d) (hov : ov = true ∨ p < d) : Within d (e.addAmplitudeAt a p ov).keyframes := by
  obtain ⟨ho, hm, -, hs⟩ := c27_addAmplitudeAt e a p ov
  refine ⟨ho h.ordered, ?_, ?_, ?_⟩
  · obtain ⟨k, r, hk, hp⟩ := h.head
    show ∃ k r, addAmplitudeKf a p ov e.keyframes = k :: r ∧ _
    rw [hk]
    simp only [addAmplitudeKf]
    split
    · split
      · split
        · exact ⟨_, _, rfl, hp⟩
        · exact ⟨_, _, rfl, hp⟩
      · rename_i hn hne
        have : (0 : Int) ≥ p := by simpa [Keyframe.notBefore, hp] using hn
        exact absurd (by rw [hp]; congr 1; omega) hne
    · exact ⟨_, _, rfl, hp⟩
  · obtain ⟨k, r, hk, hp⟩ := h.last
    show ∃ k r, addAmplitudeKf a p ov e.keyframes = r ++ [k] ∧ _
    rw [hk]
    clear hk hs hm ho h
    induction r with
    | nil =>
      simp only [List.nil_append, addAmplitudeKf]
      have hn : k.notBefore p = true := by simpa [Keyframe.notBefore, hp] using hd
      rw [if_pos hn]
      split
      · rename_i heq
        have : d = p := by rw [hp] at heq; injection heq
        rcases hov with rfl | hlt
        · exact ⟨_, [], rfl, hp⟩
        · omega
      · exact ⟨k, [_], rfl, hp⟩
    | cons x r ih =>
      obtain ⟨k', r', e1, e2⟩ := ih
      simp only [List.cons_append, addAmplitudeKf]
      split
      · split
        · split
          · exact ⟨k, _ :: r, rfl, hp⟩
          · exact ⟨k, _ :: _ :: r, rfl, hp⟩
        · exact ⟨k, _ :: _ :: r, rfl, hp⟩
      · exact ⟨k', x :: r', by rw [e1]; rfl, e2⟩
  · intro k hk
    rcases hs with ⟨pre, k', post, e1, e2, e3⟩ | ⟨pre, post, e1, -, e3⟩
    · rw [e3] at hk
      have hk' := h.between k' (by rw [e1]; simp)
      have hb := h.between
      rw [e1] at hb
      split at hk
      · rcases List.mem_append.mp hk with hk | hk
        · exact hb k (by simp [hk])
        · rcases List.mem_cons.mp hk with rfl | hk
          · exact hk'
          · exact hb k (by simp [hk])
      · rcases List.mem_append.mp hk with hk | hk
        · exact hb k (by simp [hk])
        · rcases List.mem_cons.mp hk with rfl | hk
          · exact hk'
          · rcases List.mem_cons.mp hk with rfl | hk
            · exact ⟨p, rfl, h0, hd⟩
            · exact hb k (by simp [hk])
    · rw [e3] at hk
      have hb := h.between
      rw [e1] at hb
      rcases List.mem_append.mp hk with hk | hk
      · exact hb k (by simp [hk])
      · rcases List.mem_cons.mp hk with rfl | hk
        · exact ⟨p, rfl, h0, hd⟩
        · exact hb k (by simp [hk])

theorem fade_within (b : Basis) (ts : Nat) (m : ℚ) (d at' : Int) (e r : Effect) (hw : Within d e.keyframes)
    (hat : max at' 0 < d) (hf : ∀ f, b.fadeTime.getD (-1) ≠ -1 → toTicks (b.fadeTime.getD (-1)) ts = .ok f → 0 ≤ f)
    (h : fade b ts m d at' e = .ok r) : Within d r.keyframes ∧ r.position = e.position := by
  by_cases hn : b.fadeTime.getD (-1) = -1
  · rw [fade_none _ _ _ _ _ _ hn] at h
    injection h with h
    exact h ▸ ⟨hw, rfl⟩
  · unfold fade at h
    dsimp only at h
    rw [if_neg hn] at h
    cases ht : toTicks (b.fadeTime.getD (-1)) ts with
    | error x => rw [ht] at h; cases h
    | ok f =>
      have hf0 := hf f hn ht
      rw [ht] at h
      change Except.bind (Except.ok f) _ = _ at h
      simp only [Except.bind] at h
      split at h
      · cases hi : interpolated (d - f, m) (d, amplitudeOf (b.fadeLevel.getD 0)) (max at' 0) with
        | error x => rw [hi] at h; cases h
        | ok y =>
          rw [hi] at h
          injection h with h
          subst h
          exact ⟨within_add (within_add hw _ _ _ (by omega) (by omega) (Or.inr hat)) _ _ _ (by omega) (by omega)
            (Or.inl rfl), rfl⟩
      · split at h
        · injection h with h
          subst h
          exact ⟨within_add (within_add hw _ _ _ (by omega) (by omega) (Or.inl rfl)) _ _ _ (by omega) (by omega)
            (Or.inl rfl), rfl⟩
        · injection h with h
          subst h
          exact ⟨within_add hw _ _ _ (by omega) (by omega) (Or.inl rfl), rfl⟩

/-- **C73.** Whatever attack and fade are, the effect starts when it is launched and its keyframes are in the order
of time, from 0 to the duration.  The duration is at least one tick, no time is negative. -/
theorem c73_keyframes (b : Basis) (l : Launch) (ts : Nat) (e : Effect) (d : Int)
    (h : convertToEffect b l ts = .ok (some e)) (hd : toTicks (getDuration b l) ts = .ok d) (hd0 : 0 < d)
    (ha : ∀ a, b.attackTime.getD (-1) ≠ -1 → toTicks (b.attackTime.getD (-1)) ts = .ok a → 0 ≤ a)
    (hf : ∀ f, b.fadeTime.getD (-1) ≠ -1 → toTicks (b.fadeTime.getD (-1)) ts = .ok f → 0 ≤ f) :
    e.position = l.time.getD (-1) ∧ Within d e.keyframes := by
  obtain ⟨signal, freq, d', hd', he⟩ := convert_shape b l ts e h
  rw [hd] at hd'
  injection hd' with hd'
  subst hd'
  have hw : Within d (plain b l signal freq d).keyframes := by
    refine ⟨?_, ⟨_, _, rfl, rfl⟩, ⟨_, [_], rfl, rfl⟩, ?_⟩
    · simp [KfOrdered, plain]; omega
    · intro k hk
      simp only [plain, List.mem_cons, List.not_mem_nil, or_false] at hk
      rcases hk with rfl | rfl
      · exact ⟨0, rfl, by omega, by omega⟩
      · exact ⟨d, rfl, by omega, by omega⟩
  by_cases hn : b.attackTime.getD (-1) = -1
  · rw [envelope_none _ _ _ _ _ hn] at he
    obtain ⟨h1, h2⟩ := fade_within _ _ _ _ _ _ _ hw (by omega) hf he
    exact ⟨h2, h1⟩
  · cases ht : toTicks (b.attackTime.getD (-1)) ts with
    | error x =>
      unfold envelope at he
      dsimp only at he
      rw [if_neg hn, ht] at he
      cases he
    | ok a =>
      have ha0 := ha a hn ht
      rcases lt_or_ge a d with hlt | hge
      · rw [envelope_some _ _ _ _ _ _ hn ht hlt] at he
        obtain ⟨h1, h2⟩ := fade_within _ _ _ _ _ _ _ (within_add (within_add hw _ _ _ (by omega) (by omega)
          (Or.inl rfl)) _ _ _ (by omega) (by omega) (Or.inl rfl)) (by omega) hf he
        exact ⟨h2, h1⟩
      · unfold envelope at he
        dsimp only at he
        rw [if_neg hn, ht] at he
        change Except.bind (Except.ok a) _ = _ at he
        simp only [Except.bind] at he
        rw [if_pos hge] at he
        cases hi : interpolated (0, amplitudeOf (b.attackLevel.getD 0)) (a, amplitudeOf (getMagnitude b l)) d with
        | error x => rw [hi] at he; cases he
        | ok y =>
          rw [hi] at he
          injection he with he
          subst he
          exact ⟨rfl, within_add (within_add hw _ _ _ (by omega) (by omega) (Or.inl rfl)) _ _ _ (by omega) (by omega)
            (Or.inl rfl)⟩

/-- A rumble of 200 ms with an attack of 50 ms and a fade of 100 ms. -/
def rumble : Basis :=
  { type := "magsweep", duration := some 200, magnitude := some 10000, attackTime := some 50, attackLevel := some 0
    fadeTime := some 100, fadeLevel := some 5000 }

def effectOf (b : Basis) : Option (List (Option Int × Option ℚ)) :=
  (convertToEffect b { time := some 7 } 1000).toOption.bind (·.map points)

example : effectOf rumble = some [(some 0, some 0), (some 50, some 1), (some 100, some 1), (some 200, some (1 / 2))] ∧
    toTicks 200 1000 = .ok 200 ∧ toTicks 50 1000 = .ok 50 ∧ toTicks 100 1000 = .ok 100 := by decide +kernel

/-- **C73, what does not hold.** With a fade of 0 ms the effect should stay at its magnitude to the end, but it
falls all the time: the keyframe that would keep it up is overwritten. -/
theorem c73_zero_fade_negation : ∃ b : Basis, b.fadeTime = some 0 ∧
    effectOf b = some [(some 0, some 1), (some 200, some 0)] ∧
    envelopeAt 0 0 200 0 1 0 100 = 1 ∧ lineAt (0, 1) (200, 0) 100 = 1 / 2 :=
  ⟨{ type := "magsweep", duration := some 200, magnitude := some 10000, fadeTime := some 0, fadeLevel := some 0 },
    rfl, by decide +kernel, by decide +kernel, by decide +kernel⟩

/-- **C73, what does not hold.** Where the fade begins before the attack is over there are two keyframes at the end
of the attack: the amplitude rises to the magnitude and jumps down to the fade. -/
theorem c73_overlap_negation : ∃ b : Basis,
    effectOf b = some [(some 0, some 0), (some 150, some 1), (some 150, some (1 / 2)), (some 200, some 0)] :=
  ⟨{ type := "magsweep", duration := some 200, magnitude := some 10000, attackTime := some 150, fadeTime := some 100 },
    by decide +kernel⟩

/-- **C73, what does not hold.** An attack as long as the effect cancels the fade: the fade level is not reached. -/
theorem c73_long_attack_negation : ∃ b : Basis, b.fadeTime = some 100 ∧ b.fadeLevel = some 0 ∧
    effectOf b = some [(some 0, some 0), (some 200, some 1)] :=
  ⟨{ type := "magsweep", duration := some 200, magnitude := some 10000, attackTime := some 200, fadeTime := some 100,
     fadeLevel := some 0 }, rfl, rfl, by decide +kernel⟩

/-- **C73, what does not hold.** An effect without a duration ends one tick before it begins. -/
theorem c73_missing_negation : ∃ b : Basis, b.duration = none ∧ effectOf b = some [(some 0, some 1), (some (-1), some 1)] :=
  ⟨{ type := "magsweep", magnitude := some 10000 }, rfl, by decide +kernel⟩

/-- **C73.** The duration and the magnitude of an effect are those of the launch event if it gives them, and those
of the effect otherwise. -/
theorem c73_values (b : Basis) (l : Launch) :
    (∀ d, l.durationOverride = some d → getDuration b l = d) ∧
    (∀ d, l.durationOverride = none → b.duration = some d → getDuration b l = d) ∧
    (∀ m, l.magnitudeOverride = some m → getMagnitude b l = m) ∧
    (∀ m, l.magnitudeOverride = none → b.magnitude = some m → getMagnitude b l = m) := by
  refine ⟨fun d h => ?_, fun d h h' => ?_, fun m h => ?_, fun m h h' => ?_⟩ <;>
    simp [getDuration, getMagnitude, *]

example : getDuration { type := "magsweep", duration := some 200 } { durationOverride := some 80 } = 80 := by decide

end Haptics.Ivs
