import Verif.Encoder.PropsPcm
import Verif.Encoder.AhapLemmas

/-! C41: the keyframes of a curve band. -/

namespace Haptics.Pcm
open Haptics Haptics.Ahap

/-! ### Ticks -/

/-- The tick of an index, when it is an `int`. -/
def tickOf (timescale : Nat) (rate : ℚ) (i : Int) : Int := truncQ (roundAway (fl64 (fl64 (timescale * i) / rate)))

theorem roundAway_mono {x y : ℚ} (h : x ≤ y) : roundAway x ≤ roundAway y := by
  unfold roundAway
  split <;> split
  · exact_mod_cast Int.floor_mono (by linarith)
  · linarith
  · rename_i h1 h2
    have a : ⌈x - 1 / 2⌉ ≤ 0 := Int.ceil_le.mpr (by push_cast; linarith)
    have b : 0 ≤ ⌊y + 1 / 2⌋ := Int.floor_nonneg.mpr (by linarith)
    exact_mod_cast a.trans b
  · exact_mod_cast Int.ceil_mono (by linarith)

theorem tickOf_mono (ts : Nat) {rate : ℚ} (hr : 0 < rate) {i j : Int} (h : i ≤ j) : tickOf ts rate i ≤ tickOf ts rate j := by
  have h1 : (ts * i : ℚ) ≤ ts * j := mul_le_mul_of_nonneg_left (by exact_mod_cast h) (by positivity)
  have h2 := fl64_mono (div_le_div_of_nonneg_right (fl64_mono h1) hr.le)
  have h3 := roundAway_mono h2
  have e1 := truncQ_round (fl64 (fl64 (ts * i) / rate))
  have e2 := truncQ_round (fl64 (fl64 (ts * j) / rate))
  have : (tickOf ts rate i : ℚ) ≤ tickOf ts rate j := by
    unfold tickOf
    rw [e1, e2]
    exact h3
  exact_mod_cast this

theorem tickOf_nonneg (ts : Nat) {rate : ℚ} (hr : 0 < rate) {i : Int} (h : 0 ≤ i) : 0 ≤ tickOf ts rate i := by
  have := tickOf_mono ts hr h
  have e : tickOf ts rate 0 = 0 := by
    unfold tickOf
    simp only [Int.cast_zero, mul_zero, fl64_zero, zero_div]
    decide +kernel
  omega

/-- The tick is the nearest one to the time of the sample, within a thousandth, for products below 2^53 and ticks up to
2^29. -/
theorem tick_ok (ts : Nat) {rate : ℚ} (hr : 0 < rate) {i : Int} (hi : 0 ≤ i) (h1 : ts * i < 2 ^ 53)
    (h2 : ts * i / rate ≤ (2 : ℚ) ^ 29) : tick ts rate i = .ok (tickOf ts rate i) ∧
      |(tickOf ts rate i : ℚ) - ts * i / rate| ≤ 1 / 2 + 1 / 1000 := by
  have e : fl64 (ts * i) = ts * i := by
    have h0 : (0 : Int) ≤ ts * i := Int.mul_nonneg (Int.natCast_nonneg ts) hi
    have := fl64_int (ts * i) (by rw [abs_of_nonneg h0]; exact h1)
    push_cast at this
    exact this
  have hq : (0 : ℚ) ≤ ts * i / rate := by
    have : (0 : ℚ) ≤ i := by exact_mod_cast hi
    positivity
  obtain ⟨c1, c2⟩ := Ivs.fl64_close _ hq
  have c0 : 0 ≤ fl64 (ts * i / rate) := flo_nonneg _ _ hq
  obtain ⟨r1, r2, r3⟩ := roundAway_bounds c0
  unfold tick tickOf
  rw [if_neg hr.ne', e]
  generalize (ts * i / rate : ℚ) = q at *
  have b1 : q - 1 / 1000 ≤ fl64 q := by linarith
  have b2 : fl64 q ≤ q + 1 / 1000 := by linarith
  refine ⟨castInt_ok (by linarith) (by linarith), ?_⟩
  rw [truncQ_round, abs_le]
  constructor <;> linarith

/-! ### Keyframes -/

/-- Of neighbouring points with the same tick, the last one. -/
def survivors (f : Int → Int) : List Point → List Point
  | [] => []
  | [p] => [p]
  | p :: q :: t => if f p.1 = f q.1 then survivors f (q :: t) else p :: survivors f (q :: t)

theorem loop_survivors (ts : Nat) (rate : ℚ) (f : Int → Int) (t : List Point) (p : Point) (ks : List Keyframe)
    (hf : ∀ q ∈ t, tick ts rate q.1 = .ok (f q.1)) (hm : (p :: t).Pairwise (fun a b => f a.1 ≤ f b.1)) :
    keyframesLoop ts rate t (f p.1) (ks ++ [curveKeyframe (f p.1) p.2]) =
      .ok (ks ++ (survivors f (p :: t)).map (fun q => curveKeyframe (f q.1) q.2)) := by
  induction t generalizing p ks with
  | nil => rfl
  | cons q t ih =>
    obtain ⟨h1, h2⟩ := List.pairwise_cons.mp hm
    have hq := h1 q List.mem_cons_self
    rw [keyframesLoop, hf q List.mem_cons_self]
    show keyframesLoop ts rate t (f q.1) (addPoint (f q.1) (f p.1) q.2 _) = _
    rw [survivors]
    by_cases e : f p.1 = f q.1
    · rw [if_pos e, addPoint, if_neg (by omega), if_pos e.symm, if_neg (by simp), List.dropLast_concat]
      exact ih q ks (fun x hx => hf x (List.mem_cons_of_mem _ hx)) h2
    · rw [if_neg e, addPoint, if_pos (by omega), List.map_cons]
      rw [ih q (ks ++ [curveKeyframe (f p.1) p.2]) (fun x hx => hf x (List.mem_cons_of_mem _ hx)) h2]
      rw [List.append_assoc]
      rfl

theorem keyframes_survivors (ts : Nat) (rate : ℚ) (f : Int → Int) (l : List Point)
    (hf : ∀ q ∈ l, tick ts rate q.1 = .ok (f q.1)) (h0 : ∀ q ∈ l, 0 ≤ f q.1)
    (hm : l.Pairwise (fun a b => f a.1 ≤ f b.1)) :
    keyframesLoop ts rate l (-1) [] = .ok ((survivors f l).map (fun q => curveKeyframe (f q.1) q.2)) := by
  cases l with
  | nil => rfl
  | cons p t =>
    have hp := h0 p List.mem_cons_self
    rw [keyframesLoop, hf p List.mem_cons_self]
    show keyframesLoop ts rate t (f p.1) (addPoint (f p.1) (-1) p.2 []) = _
    rw [addPoint, if_pos (by omega)]
    have := loop_survivors ts rate f t p [] (fun x hx => hf x (List.mem_cons_of_mem _ hx)) hm
    simpa using this

theorem survivors_mem (f : Int → Int) (l : List Point) (hm : l.Pairwise (fun a b => f a.1 ≤ f b.1)) (p : Point) :
    p ∈ survivors f l ↔ ∃ l1 l2, l = l1 ++ p :: l2 ∧ ∀ q ∈ l2, f p.1 < f q.1 := by
  induction l with
  | nil => simp [survivors]
  | cons a t ih =>
    cases t with
    | nil =>
      rw [survivors, List.mem_singleton]
      constructor
      · rintro rfl
        exact ⟨[], [], rfl, by simp⟩
      · rintro ⟨l1, l2, h, _⟩
        cases l1 with
        | nil => exact (List.cons.inj h).1.symm
        | cons x l1 => simp at h
    | cons b t =>
      obtain ⟨h1, h2⟩ := List.pairwise_cons.mp hm
      have ih := ih h2
      rw [survivors]
      have hb := h1 b List.mem_cons_self
      have key : (∃ l1 l2, a :: b :: t = l1 ++ p :: l2 ∧ ∀ q ∈ l2, f p.1 < f q.1) ↔
          (p = a ∧ f a.1 < f b.1) ∨ ∃ l1 l2, b :: t = l1 ++ p :: l2 ∧ ∀ q ∈ l2, f p.1 < f q.1 := by
        constructor
        · rintro ⟨l1, l2, h, hl⟩
          cases l1 with
          | nil =>
            obtain ⟨e1, e2⟩ := List.cons.inj h
            subst e1; subst e2
            exact Or.inl ⟨rfl, hl b List.mem_cons_self⟩
          | cons x l1 => exact Or.inr ⟨l1, l2, (List.cons.inj h).2, hl⟩
        · rintro (⟨rfl, h⟩ | ⟨l1, l2, h, hl⟩)
          · refine ⟨[], b :: t, rfl, fun q hq => ?_⟩
            rcases List.mem_cons.mp hq with rfl | hq
            · exact h
            · have := (List.pairwise_cons.mp h2).1 q hq
              omega
          · exact ⟨a :: l1, l2, by rw [h]; rfl, hl⟩
      rw [key, ← ih]
      split
      · rename_i e
        constructor
        · exact Or.inr
        · rintro (⟨_, h⟩ | h)
          · omega
          · exact h
      · rename_i e
        rw [List.mem_cons]
        constructor
        · rintro (h | h)
          · exact Or.inl ⟨h, by omega⟩
          · exact Or.inr h
        · rintro (⟨h, _⟩ | h)
          · exact Or.inl h
          · exact Or.inr h

theorem survivors_increasing (f : Int → Int) (l : List Point) (hm : l.Pairwise (fun a b => f a.1 ≤ f b.1)) :
    (survivors f l).Pairwise (fun a b => f a.1 < f b.1) := by
  induction l with
  | nil => exact List.Pairwise.nil
  | cons a t ih =>
    cases t with
    | nil => exact List.pairwise_singleton _ _
    | cons b t =>
      obtain ⟨h1, h2⟩ := List.pairwise_cons.mp hm
      rw [survivors]
      split
      · exact ih h2
      · rename_i e
        refine List.pairwise_cons.mpr ⟨fun q hq => ?_, ih h2⟩
        obtain ⟨l1, l2, h, _⟩ := (survivors_mem f _ h2 q).mp hq
        have hq : q ∈ b :: t := by rw [h]; simp
        have hb := h1 b List.mem_cons_self
        rcases List.mem_cons.mp hq with rfl | hq
        · omega
        · have := (List.pairwise_cons.mp h2).1 q hq
          omega

/-- **C41.** The band of points with increasing indices: its keyframes are at strictly increasing positions, and there is
one for each point that is not followed by another one at the same tick, with the value of the point as `float`.  The band
extends from 0 to the limit. -/
theorem c41_keyframes (ts : Nat) (rate limit : ℚ) (hr : 0 < rate) (h1 : 0 < limit) (h2 : limit ≤ 2 ^ 30)
    (l : List Point) (h0 : ∀ p ∈ l, 0 ≤ p.1 ∧ ts * p.1 < 2 ^ 53 ∧ ts * p.1 / rate ≤ (2 : ℚ) ^ 29)
    (hl : l.Pairwise (fun p q => p.1 ≤ q.1)) : ∃ b e, convertToCurveBand l rate limit ts = .ok (some b) ∧
      (b.bandType = BandType.Curve ∧ b.curveType = some 1 ∧ b.blockLength = some 0 ∧ b.lowerFrequencyLimit = 0 ∧
        b.upperFrequencyLimit = ⌊limit⌋) ∧
      b.effects = [e] ∧ (e.position = 0 ∧ e.effectType = EffectType.Basis ∧ e.phase = some 0 ∧ e.baseSignal = some 0) ∧
      e.keyframes.Pairwise (fun k m => ∃ x y, k.relativePosition = some x ∧ m.relativePosition = some y ∧ x < y) ∧
      ∀ k, k ∈ e.keyframes ↔ ∃ l1 p l2, l = l1 ++ p :: l2 ∧ (∀ q ∈ l2, tick ts rate q.1 ≠ tick ts rate p.1) ∧
        ∃ t, tick ts rate p.1 = .ok t ∧ k = ⟨some t, some (fl32 p.2), none⟩ := by
  have hf : ∀ q ∈ l, tick ts rate q.1 = .ok (tickOf ts rate q.1) := fun q hq =>
    (tick_ok ts hr (h0 q hq).1 (h0 q hq).2.1 (h0 q hq).2.2).1
  have hm : l.Pairwise (fun a b => tickOf ts rate a.1 ≤ tickOf ts rate b.1) :=
    hl.imp fun h => tickOf_mono ts hr h
  have hk := keyframes_survivors ts rate _ l hf (fun q hq => tickOf_nonneg ts hr (h0 q hq).1) hm
  refine ⟨curveBand (truncQ limit)
      ((survivors (tickOf ts rate) l).map (fun q => curveKeyframe (tickOf ts rate q.1) q.2)), _, ?_,
    ⟨rfl, rfl, rfl, rfl, if_pos h1.le⟩, rfl, ⟨rfl, rfl, rfl, rfl⟩, ?_, ?_⟩
  · unfold convertToCurveBand
    rw [if_neg (not_le.mpr h1), castInt_ok (by linarith) h2, hk]
    rfl
  · show ((survivors (tickOf ts rate) l).map _).Pairwise _
    rw [List.pairwise_map]
    exact (survivors_increasing _ l hm).imp fun h => ⟨_, _, rfl, rfl, h⟩
  · intro k
    show k ∈ (survivors (tickOf ts rate) l).map _ ↔ _
    rw [List.mem_map]
    constructor
    · rintro ⟨p, hp, rfl⟩
      obtain ⟨l1, l2, e, h⟩ := (survivors_mem _ l hm p).mp hp
      have hpl : p ∈ l := by rw [e]; simp
      refine ⟨l1, p, l2, e, fun q hq => ?_, _, hf p hpl, rfl⟩
      rw [hf p hpl, hf q (by rw [e]; simp [hq])]
      intro he
      have := h q hq
      have := Except.ok.inj he
      omega
    · rintro ⟨l1, p, l2, e, h, t, ht, rfl⟩
      have hpl : p ∈ l := by rw [e]; simp
      rw [hf p hpl] at ht
      have ht := Except.ok.inj ht
      subst ht
      refine ⟨p, (survivors_mem _ l hm p).mpr ⟨l1, l2, e, fun q hq => ?_⟩, rfl⟩
      have hq' := h q hq
      rw [hf p hpl, hf q (by rw [e]; simp [hq])] at hq'
      have hle : tickOf ts rate p.1 ≤ tickOf ts rate q.1 := by
        rw [e] at hm
        exact (List.pairwise_cons.mp (List.pairwise_append.mp hm).2.1).1 q hq
      rcases lt_or_eq_of_le hle with h | h
      · exact h
      · exact absurd (by rw [h]) hq'

/-- **C41.** The keyframes are at the ticks nearest to the times of their samples, within a thousandth of a tick. -/
theorem c41_ticks (ts : Nat) (rate : ℚ) (hr : 0 < rate) (i : Int) (hi : 0 ≤ i) (h1 : ts * i < 2 ^ 53)
    (h2 : ts * i / rate ≤ (2 : ℚ) ^ 29) : ∃ t, tick ts rate i = .ok t ∧ |(t : ℚ) - ts * (i / rate)| ≤ 1 / 2 + 1 / 1000 := by
  obtain ⟨a, b⟩ := tick_ok ts hr hi h1 h2
  refine ⟨_, a, ?_⟩
  rwa [mul_div_assoc] at b

example : convertToCurveBand [(0, 0), (1, 1/2), (2, 1/2), (3, 1/4), (4, 3/4)] 8000 4000 1000 =
    .ok (some (curveBand 4000 [⟨some 0, some (1/4), none⟩, ⟨some 1, some (3/4), none⟩])) := by
  have : keyframesLoop 1000 8000 [(0, 0), (1, 1/2), (2, 1/2), (3, 1/4), (4, 3/4)] (-1) [] =
    .ok [⟨some 0, some (1/4), none⟩, ⟨some 1, some (3/4), none⟩] := by decide +kernel
  unfold convertToCurveBand
  rw [if_neg (by norm_num), this, show castInt 4000 = .ok 4000 by decide +kernel]
  rfl

/-- **C41, what does not hold.** At a coarse time scale, the values of samples are lost to later ones at the same tick:
here the first sample, at tick 0, is not that of the curve. -/
theorem c41_first_negation : keyframesLoop 1000 8000 (localExtrema [1, 0] true) (-1) [] =
    .ok [⟨some 0, some 0, none⟩] := by decide +kernel

end Haptics.Pcm
