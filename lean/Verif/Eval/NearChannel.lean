import Verif.Eval.NearSound
import Verif.Eval.NearBezier

/-! Rendering of bands and channels whose effects are nearly the same. -/

namespace Haptics

variable {δ η : ℚ} {bt : Nat}

theorem getD_none_of_le {s : List (Option ℝ)} {j : ℕ} (h : s.length ≤ j) : s.getD j none = none := by
  rw [List.getD_eq_getElem?_getD, List.getElem?_eq_none h]; rfl

theorem Signals.at {ε : ℕ → ℝ} {s s' : List (Option ℝ)} (h : Signals ε s s') (j : ℕ) :
    Near (ε j) (s.getD j none) (s'.getD j none) := by
  by_cases hj : j < s.length
  · exact h.2 j hj
  · rw [getD_none_of_le (not_lt.mp hj), getD_none_of_le (by rw [h.1]; exact not_lt.mp hj)]; trivial

theorem Signals.mono {ε ε' : ℕ → ℝ} {s s' : List (Option ℝ)} (h : Signals ε s s') (hh : ∀ j, ε j ≤ ε' j) : Signals ε' s s' :=
  ⟨h.1, fun j hj => (h.2 j hj).mono (hh j)⟩

theorem Signals.refl {ε : ℕ → ℝ} (h : ∀ j, 0 ≤ ε j) (s : List (Option ℝ)) : Signals ε s s :=
  ⟨rfl, fun j _ => Near.refl (h j) _⟩

theorem Signals.of_forall₂ {c : ℝ} {s s' : List (Option ℝ)} (h : List.Forall₂ (Near c) s s') : Signals (fun _ => c) s s' := by
  refine ⟨h.length_eq.symm, fun j hj => ?_⟩
  have h2 := (List.forall₂_iff_get.mp h).2 j hj (by rw [← h.length_eq]; exact hj)
  rw [List.getD_eq_getElem?_getD, List.getD_eq_getElem?_getD, List.getElem?_eq_getElem hj,
    List.getElem?_eq_getElem (by rw [← h.length_eq]; exact hj)]
  exact h2

theorem alike_mapE_range {ε : ℕ → ℝ} {f f' : ℕ → Except Err (Option ℝ)} (n : ℕ) (h : ∀ j, Alike (Near (ε j)) (f j) (f' j)) :
    Alike (Signals ε) (mapE f (List.range n)) (mapE f' (List.range n)) := by
  have key : ∀ k, Alike (fun s s' => Signals (fun j => ε (j + k)) s s') (mapE f (List.range' k n)) (mapE f' (List.range' k n)) := by
    induction n with
    | zero => intro k; exact ⟨rfl, fun j hj => by cases hj⟩
    | succ n ih =>
      intro k
      have hk := h k
      have ih := ih (k + 1)
      rw [List.range'_succ]
      unfold mapE
      cases hf : f k with
      | error x =>
        rw [hf] at hk
        cases hf' : f' k with
        | error y => rw [hf'] at hk; exact hk
        | ok y => rw [hf'] at hk; exact absurd hk id
      | ok b =>
        rw [hf] at hk
        obtain ⟨b', hb, hr⟩ := hk.ok_left
        rw [hb]
        simp only
        cases hm : mapE f (List.range' (k + 1) n) with
        | error x =>
          rw [hm] at ih
          cases hm' : mapE f' (List.range' (k + 1) n) with
          | error y => rw [hm'] at ih; exact ih
          | ok y => rw [hm'] at ih; exact absurd ih id
        | ok r =>
          rw [hm] at ih
          obtain ⟨r', hr', hrr⟩ := ih.ok_left
          rw [hr']
          refine ⟨by simp [hrr.1], fun j hj => ?_⟩
          cases j with
          | zero => simpa using hr
          | succ j =>
            have := hrr.at j
            simpa [add_assoc, add_comm 1 k] using this
  have := key 0
  rw [List.range_eq_range']
  simpa using this

/-! ### Transient and vectorial bands -/

theorem voices_nonneg (e : Effect) (bt ts : Nat) (t : ℝ) {x : ℝ} (hx : 0 ≤ x) : 0 ≤ x * (e.voices bt ts t : ℝ) := by positivity

theorem evaluationSwitch_near (samples samples' : Effect → List ℝ) {b b' : Band} (hb : b.NearTo δ η b') (hc : b.bandType ≠ BandType.Curve)
    {e e' : Effect} (h : e.NearTo δ η b.bandType e') (hδ : 0 ≤ δ) (hη : 0 ≤ η) (position : ℝ) (low high : Int) (ts : Nat) :
    Alike (Near (((δ + η : ℚ) : ℝ) * e.voices b.bandType ts position)) (b.evaluationSwitch samples position e low high ts)
      (b'.evaluationSwitch samples' position e' low high ts) := by
  have hδη : (δ : ℝ) ≤ ((δ + η : ℚ) : ℝ) := by
    push_cast
    have : (0 : ℝ) ≤ η := by exact_mod_cast hη
    linarith
  have hE : (0 : ℝ) ≤ ((δ + η : ℚ) : ℝ) := by exact_mod_cast add_nonneg hδ hη
  unfold Band.evaluationSwitch
  rw [hb.bandType, if_neg hc, if_neg hc]
  rcases hb.keyframeBand with ht | ht | ht
  · rw [ht] at h ⊢
    simp only [show ¬ BandType.Transient = BandType.VectorialWave by decide, show ¬ BandType.Transient = BandType.WaveletWave by decide,
      if_false, if_true, h.position, timeLength_eq h]
    have zero : Alike (Near (((δ + η : ℚ) : ℝ) * e.voices BandType.Transient ts position)) (.ok (some 0)) (.ok (some 0)) :=
      Near.refl (voices_nonneg e _ ts position hE) (some 0)
    split_ifs
    · cases e.timeLength BandType.Transient (transientDuration ts) with
      | error x => exact rfl
      | ok len =>
        simp only
        split_ifs
        · exact (evaluateTransient_near h hδ position ts).imp fun u v huv => huv.mono (by gcongr)
        · exact zero
    · exact zero
  · exact absurd ht hc
  · rw [ht] at h ⊢
    rw [if_pos rfl, if_pos rfl]
    exact evaluateVectorial_near h hδ hη position low high ts

theorem sumEffects_near (samples samples' : Effect → List ℝ) {b b' : Band} (hb : b.NearTo δ η b') (hc : b.bandType ≠ BandType.Curve)
    (hδ : 0 ≤ δ) (hη : 0 ≤ η) (position : ℝ) (ts : Nat) {l l' : List Effect} (h : List.Forall₂ (Effect.NearTo δ η b.bandType) l l') :
    ∀ (acc acc' : Option ℝ) (c : ℝ), Near c acc acc' →
      Alike (Near (c + ((δ + η : ℚ) : ℝ) * ((l.map (fun e => e.voices b.bandType ts position)).sum : ℕ)))
        (sumEffects samples b position ts acc l) (sumEffects samples' b' position ts acc' l') := by
  have hE : (0 : ℝ) ≤ ((δ + η : ℚ) : ℝ) := by exact_mod_cast add_nonneg hδ hη
  induction h with
  | nil => intro acc acc' c ha; exact ha.mono (by simp)
  | cons he _ ih =>
    rename_i e e' l l' _
    intro acc acc' c ha
    have hv := voices_nonneg e b.bandType ts position hE
    unfold sumEffects
    rw [he.position, hb.low, hb.high]
    split_ifs
    · have hs := evaluationSwitch_near samples samples' hb hc he hδ hη position b.lowerFrequencyLimit b.upperFrequencyLimit ts
      cases hr : b.evaluationSwitch samples position e b.lowerFrequencyLimit b.upperFrequencyLimit ts with
      | error x =>
        rw [hr] at hs
        cases hr' : b'.evaluationSwitch samples' position e' b.lowerFrequencyLimit b.upperFrequencyLimit ts with
        | error y => rw [hr'] at hs; exact hs
        | ok y => rw [hr'] at hs; exact absurd hs id
      | ok v =>
        rw [hr] at hs
        obtain ⟨v', hv', hn⟩ := hs.ok_left
        rw [hv']
        refine (ih _ _ _ (ha.add hn)).imp fun u w huw => huw.mono (le_of_eq ?_)
        rw [List.map_cons, List.sum_cons]
        push_cast
        ring
    · refine (ih _ _ _ ha).imp fun u w huw => huw.mono ?_
      rw [List.map_cons, List.sum_cons]
      push_cast at hv ⊢
      linarith

theorem near_getLast? {α β : Type} {R : α → β → Prop} {l : List α} {l' : List β} (h : List.Forall₂ R l l') :
    Option.Rel R l.getLast? l'.getLast? := by
  rw [List.getLast?_eq_head?_reverse, List.getLast?_eq_head?_reverse]
  have := List.rel_reverse h
  revert this
  generalize l.reverse = m
  generalize l'.reverse = m'
  intro this
  cases this with
  | nil => exact .none
  | cons hr _ => exact .some hr

theorem evaluationSample_near (samples samples' : Effect → List ℝ) {b b' : Band} (hb : b.NearTo δ η b') (hc : b.bandType ≠ BandType.Curve)
    (hδ : 0 ≤ δ) (hη : 0 ≤ η) (fs pad : Int) (ts : Nat) (j : ℕ) :
    Alike (Near (((δ + η : ℚ) : ℝ) * b.voices fs pad ts j)) (b.evaluationSample samples fs pad ts j)
      (b'.evaluationSample samples' fs pad ts j) := by
  unfold Band.evaluationSample
  have hl := near_getLast? hb.effects
  revert hl
  cases b.effects.getLast? with
  | none => cases b'.effects.getLast? with
    | none => intro _; exact rfl
    | some _ => intro h; cases h
  | some e => cases b'.effects.getLast? with
    | none => intro h; cases h
    | some e' =>
      intro h
      have he := Option.rel_some_some.mp h
      simp only
      rw [hb.bandType, timeLength_eq he]
      cases e.timeLength b.bandType (transientDuration ts) with
      | error x => exact rfl
      | ok len =>
        simp only
        have := sumEffects_near samples samples' hb hc hδ hη (ts * ((j : ℝ) / fs - pad * 0.001)) ts (List.rel_reverse hb.effects)
          (some 0) (some 0) 0 (Near.refl le_rfl _)
        refine this.imp fun u w huw => huw.mono (le_of_eq ?_)
        unfold Band.voices
        rw [if_neg hc, List.map_reverse, List.sum_reverse, zero_add]

/-! ### Curves -/

theorem curvePoint_near {k k' : Keyframe} (h : k.NearTo δ bt k') (fs : Int) (ts : Nat) :
    Alike (PointNear δ) (curvePoint fs ts k) (curvePoint fs ts k') := by
  unfold curvePoint
  rw [h.position]
  cases k.relativePosition with
  | none => exact rfl
  | some p =>
    simp only
    split_ifs
    · exact rfl
    · have := h.amplitude
      cases hx : k.amplitudeModulation <;> cases hx' : k'.amplitudeModulation <;> rw [hx, hx'] at this
      · exact rfl
      · cases this
      · cases this
      · rename_i a a'
        have ha : |(a : ℝ) - (a' : ℝ)| ≤ (δ : ℝ) := by exact_mod_cast (Option.rel_some_some.mp this).1
        exact ⟨rfl, ha⟩

theorem curvePoints_near {l l' : List Keyframe} (h : List.Forall₂ (Keyframe.NearTo δ bt) l l') (fs : Int) (ts : Nat) :
    Alike (List.Forall₂ (PointNear δ)) (curvePoints fs ts l) (curvePoints fs ts l') := by
  unfold curvePoints
  have hm := alike_mapE h (fun k k' hk => curvePoint_near hk fs ts)
  cases hr : mapE (curvePoint fs ts) l with
  | error x =>
    rw [hr] at hm
    cases hr' : mapE (curvePoint fs ts) l' with
    | error y => rw [hr'] at hm; exact hm
    | ok y => rw [hr'] at hm; exact absurd hm id
  | ok r =>
    rw [hr] at hm
    obtain ⟨r', hr', hrr⟩ := hm.ok_left
    rw [hr']
    cases hrr with
    | nil => exact rfl
    | cons hp ht =>
      refine .cons ⟨rfl, hp.2⟩ ?_
      rw [List.forall₂_map_left_iff, List.forall₂_map_right_iff]
      exact ht.imp fun q q' hq => ⟨by show q'.1 - _ = q.1 - _; rw [hq.1, hp.1], hq.2⟩

/-- A way to interpolate between two points whose value changes by no more than the heights of the points. -/
def Gentle (δ : ℚ) (seg : ℝ → ℝ → ℝ → ℝ → ℝ → Option ℝ) : Prop :=
  ∀ t0 f0 f0' t1 f1 f1' t : ℝ, t0 ≤ t → t ≤ t1 → |f0 - f0'| ≤ δ → |f1 - f1'| ≤ δ → Near δ (seg t0 f0 t1 f1 t) (seg t0 f0' t1 f1' t)

theorem weighted_near {a a' b b' w d : ℝ} (h0 : 0 ≤ w) (h1 : w ≤ 1) (ha : |a - a'| ≤ d) (hb : |b - b'| ≤ d) :
    |a + (b - a) * w - (a' + (b' - a') * w)| ≤ d := by
  have := between_near (a := a) (b := b) (a' := a') (b' := b') (x := 1 - w) (y := w) (d := d) (by linarith) h0 (by linarith) ha hb
  rw [show 1 - w + w = 1 by ring, div_one, div_one] at this
  rw [show a + (b - a) * w - (a' + (b' - a') * w) = a * (1 - w) + b * w - (a' * (1 - w) + b' * w) by ring]
  exact this

theorem linear_gentle : Gentle δ linearSegment := by
  intro t0 f0 f0' t1 f1 f1' t h0 h1 ha hb
  rcases eq_or_lt_of_le (h0.trans h1) with he | hlt
  · subst he
    unfold linearSegment fdiv
    rw [if_pos (sub_self _), if_pos (sub_self _)]
    trivial
  · rw [Rounded.linearSegment_fraction _ _ _ hlt, Rounded.linearSegment_fraction _ _ _ hlt]
    have hd : 0 < t1 - t0 := by linarith
    exact weighted_near (div_nonneg (by linarith) hd.le) ((div_le_one hd).mpr (by linarith)) ha hb

theorem cubic_gentle : Gentle δ cubicSegment := by
  intro t0 f0 f0' t1 f1 f1' t h0 h1 ha hb
  rcases eq_or_lt_of_le (h0.trans h1) with he | hlt
  · subst he
    unfold cubicSegment fdiv
    rw [if_pos (by ring), if_pos (by ring)]
    trivial
  · rw [Rounded.cubicSegment_fraction _ _ _ hlt, Rounded.cubicSegment_fraction _ _ _ hlt]
    have hd : 0 < t1 - t0 := by linarith
    have w0 : 0 ≤ (t - t0) / (t1 - t0) := div_nonneg (by linarith) hd.le
    have w1 : (t - t0) / (t1 - t0) ≤ 1 := (div_le_one hd).mpr (by linarith)
    revert w0 w1
    generalize (t - t0) / (t1 - t0) = w
    intro w0 w1
    refine weighted_near (by nlinarith [sq_nonneg w]) ?_ ha hb
    nlinarith [mul_nonneg (sq_nonneg (1 - w)) (show 0 ≤ 1 + 2 * w by linarith)]

theorem interpolation2_near {seg : ℝ → ℝ → ℝ → ℝ → ℝ → Option ℝ} (hs : Gentle δ seg) (last : Int) {l l' : List (Int × ℝ)}
    (h : List.Forall₂ (PointNear δ) l l') : ∀ t : ℕ, (∀ p ∈ l.head?, p.1 ≤ t) →
      Alike (List.Forall₂ (Near δ)) (interpolation2 seg last t l) (interpolation2 seg last t l') := by
  induction h with
  | nil =>
    intro t _
    unfold interpolation2
    split_ifs
    · exact rfl
    · exact .nil
  | cons hp ht ih =>
    rename_i p0 p0' l l'
    intro t h0
    have h0 : p0.1 ≤ t := h0 p0 rfl
    cases ht with
    | nil =>
      unfold interpolation2
      split_ifs
      · exact rfl
      · exact .nil
    | cons hq ht =>
      rename_i p1 p1' l l'
      unfold interpolation2
      rw [hq.1]
      split_ifs
      · have ih := ih (t + (p1.1 + 1 - t).toNat) (by
          intro p hp
          obtain rfl := Option.some.inj hp
          push_cast
          omega)
        simp only
        cases hr : interpolation2 seg last (t + (p1.1 + 1 - t).toNat) (p1 :: l) with
        | error x =>
          rw [hr] at ih
          cases hr' : interpolation2 seg last (t + (p1.1 + 1 - t).toNat) (p1' :: l') with
          | error y => rw [hr'] at ih; exact ih
          | ok y => rw [hr'] at ih; exact absurd ih id
        | ok r =>
          rw [hr] at ih
          obtain ⟨r', hr', hrr⟩ := ih.ok_left
          rw [hr']
          refine List.rel_append ?_ hrr
          unfold segmentSamples
          rw [List.forall₂_map_left_iff, List.forall₂_map_right_iff, List.forall₂_same]
          intro i hi
          have hi := List.mem_range.mp hi
          rw [hp.1, hq.1]
          refine hs _ _ _ _ _ _ _ ?_ ?_ hp.2 hq.2
          · have : p0.1 ≤ ((t + i : ℕ) : Int) := by push_cast; omega
            exact_mod_cast this
          · have : ((t + i : ℕ) : Int) ≤ p1.1 := by push_cast; omega
            exact_mod_cast this
      · exact .nil

theorem last_eq {l l' : List (Int × ℝ)} (h : List.Forall₂ (PointNear δ) l l') : (l'.getLastD (0, 0)).1 = (l.getLastD (0, 0)).1 := by
  rw [List.getLastD_eq_getLast?, List.getLastD_eq_getLast?]
  have := near_getLast? h
  cases hl : l.getLast? <;> cases hl' : l'.getLast? <;> rw [hl, hl'] at this
  · cases this
  · cases this
  · exact (Option.rel_some_some.mp this).1

/-- Interpolations that change by no more than the heights of the points: all but those of Akima and B-spline curves, if the
points of Bézier curves are in order. -/
def TameCurve (other other' : Nat → List (Int × ℝ) → Except Err (List (Option ℝ))) (curveType : Nat) (l : List (Int × ℝ)) : Prop :=
  3 ≤ curveType ∧ curveType ≤ 5 →
    curveType = 4 ∧ other 4 = Splines.bezier ∧ other' 4 = Splines.bezier ∧ (l.map Prod.fst).Pairwise (· ≤ ·)

theorem interpolateCurve_near (other other' : Nat → List (Int × ℝ) → Except Err (List (Option ℝ))) (curveType : Nat)
    {l l' : List (Int × ℝ)} (hc : TameCurve other other' curveType l) (h : List.Forall₂ (PointNear δ) l l') (h0 : ∀ p ∈ l.head?, p.1 ≤ 0) :
    Alike (List.Forall₂ (Near δ)) (interpolateCurve other curveType l) (interpolateCurve other' curveType l') := by
  unfold interpolateCurve
  simp only [last_eq h]
  split_ifs with h1 h2
  · exact interpolation2_near linear_gentle _ h 0 h0
  · obtain ⟨h4, h5, h6, h7⟩ := hc h2
    rw [h4, h5, h6]
    exact bezier_near h h7
  · exact interpolation2_near cubic_gentle _ h 0 h0

theorem addCurve_near {ε : ℕ → ℝ} {amp amp' curve curve' : List (Option ℝ)} {c : ℝ} (hc : 0 ≤ c) (ha : Signals ε amp amp')
    (h : List.Forall₂ (Near c) curve curve') (last position : Int) :
    Alike (Signals (fun j => ε j + c)) (addCurve amp curve last position) (addCurve amp' curve' last position) := by
  unfold addCurve
  simp only
  rw [ha.1, h.length_eq]
  split_ifs
  · exact rfl
  · refine ⟨by simp, fun j hj => ?_⟩
    have hj : j < amp.length := by simpa using hj
    have hA : Near (ε j) (amp.getD j (some 0)) (amp'.getD j (some 0)) := by
      have := ha.at j
      rw [List.getD_eq_getElem?_getD, List.getD_eq_getElem?_getD, List.getElem?_eq_getElem hj,
        List.getElem?_eq_getElem (by rw [ha.1]; exact hj)] at this ⊢
      exact this
    have hC : ∀ i, Near c (curve.getD i (some 0)) (curve'.getD i (some 0)) := by
      intro i
      by_cases hi : i < curve.length
      · have := (Signals.of_forall₂ h).2 i hi
        rw [List.getD_eq_getElem?_getD, List.getD_eq_getElem?_getD, List.getElem?_eq_getElem hi,
          List.getElem?_eq_getElem (by rw [← h.length_eq]; exact hi)] at this ⊢
        exact this
      · rw [List.getD_eq_getElem?_getD, List.getD_eq_getElem?_getD, List.getElem?_eq_none (not_lt.mp hi),
          List.getElem?_eq_none (by rw [← h.length_eq]; exact not_lt.mp hi)]
        exact Near.refl hc _
    rw [List.getD_eq_getElem?_getD (l := List.map _ _), List.getD_eq_getElem?_getD (l := List.map _ _)]
    simp only [List.getElem?_map, List.getElem?_range hj, Option.map_some, Option.getD_some]
    split_ifs
    · exact hA.add (hC _)
    · exact hA.mono (by linarith)

theorem addCurveEffect_near (other other' : Nat → List (Int × ℝ) → Except Err (List (Option ℝ))) (curveType : Nat)
    (hδ : 0 ≤ δ) (fs pad : Int) (ts : Nat) {ε : ℕ → ℝ} {amp amp' : List (Option ℝ)}
    (ha : Signals ε amp amp') {e e' : Effect} (h : e.NearTo δ η bt e')
    (hc : ∀ l, curvePoints fs ts e.keyframes = .ok l → TameCurve other other' curveType l) :
    Alike (Signals (fun j => ε j + δ)) (addCurveEffect other curveType fs pad ts amp e)
      (addCurveEffect other' curveType fs pad ts amp' e') := by
  have hδ' : (0 : ℝ) ≤ δ := by exact_mod_cast hδ
  unfold addCurveEffect
  have hp := curvePoints_near h.keyframes fs ts
  have hhead : ∀ l, curvePoints fs ts e.keyframes = .ok l → ∀ p ∈ l.head?, p.1 ≤ 0 := by
    intro l hl
    unfold curvePoints at hl
    split at hl
    · cases hl
    · cases hl
    · rw [← Except.ok.inj hl]; intro p hp; obtain rfl := Option.some.inj hp; exact le_rfl
  cases hr : curvePoints fs ts e.keyframes with
  | error x =>
    rw [hr] at hp
    cases hr' : curvePoints fs ts e'.keyframes with
    | error y => rw [hr'] at hp; exact hp
    | ok y => rw [hr'] at hp; exact absurd hp id
  | ok l =>
    rw [hr] at hp
    obtain ⟨l', hr', hll⟩ := hp.ok_left
    rw [hr']
    simp only
    rw [last_eq hll, ← hll.length_eq, h.position]
    by_cases h2 : l.length = 2
    · rw [if_pos h2, if_pos h2]
      have hi := interpolation2_near linear_gentle (l.getLastD (0, 0)).1 hll 0 (hhead l hr)
      cases hs : interpolation2 linearSegment (l.getLastD (0, 0)).1 0 l with
      | error x =>
        rw [hs] at hi
        cases hs' : interpolation2 linearSegment (l.getLastD (0, 0)).1 0 l' with
        | error y => rw [hs'] at hi; exact hi
        | ok y => rw [hs'] at hi; exact absurd hi id
      | ok r =>
        rw [hs] at hi
        obtain ⟨r', hs', _⟩ := hi.ok_left
        rw [hs']
        exact ha.mono fun j => by linarith
    · rw [if_neg h2, if_neg h2]
      have hi := interpolateCurve_near other other' curveType (hc l hr) hll (hhead l hr)
      cases hs : interpolateCurve other curveType l with
      | error x =>
        rw [hs] at hi
        cases hs' : interpolateCurve other' curveType l' with
        | error y => rw [hs'] at hi; exact hi
        | ok y => rw [hs'] at hi; exact absurd hi id
      | ok r =>
        rw [hs] at hi
        obtain ⟨r', hs', hrr⟩ := hi.ok_left
        rw [hs']
        exact addCurve_near hδ' ha hrr _ _

theorem curves_near (other other' : Nat → List (Int × ℝ) → Except Err (List (Option ℝ))) (curveType : Nat)
    (hδ : 0 ≤ δ) (fs pad : Int) (ts : Nat) {l l' : List Effect}
    (h : List.Forall₂ (Effect.NearTo δ η bt) l l')
    (hc : ∀ e ∈ l, ∀ pts, curvePoints fs ts e.keyframes = .ok pts → TameCurve other other' curveType pts) : ∀ (ε : ℕ → ℝ) (amp amp' : List (Option ℝ)), Signals ε amp amp' →
    Alike (Signals (fun j => ε j + δ * l.length)) (foldE (addCurveEffect other curveType fs pad ts) amp l)
      (foldE (addCurveEffect other' curveType fs pad ts) amp' l') := by
  induction h with
  | nil => intro ε amp amp' ha; exact ha.mono fun j => by simp
  | cons he _ ih =>
    rename_i e e' l l' _
    intro ε amp amp' ha
    unfold foldE
    have hi := addCurveEffect_near other other' curveType hδ fs pad ts ha he (hc e List.mem_cons_self)
    cases hs : addCurveEffect other curveType fs pad ts amp e with
    | error x =>
      rw [hs] at hi
      cases hs' : addCurveEffect other' curveType fs pad ts amp' e' with
      | error y => rw [hs'] at hi; exact hi
      | ok y => rw [hs'] at hi; exact absurd hi id
    | ok r =>
      rw [hs] at hi
      obtain ⟨r', hs', hrr⟩ := hi.ok_left
      rw [hs']
      refine (ih (fun x hx => hc x (List.mem_cons_of_mem _ hx)) _ r r' hrr).imp fun u v huv => huv.mono fun j => le_of_eq ?_
      rw [List.length_cons]
      push_cast
      ring

/-! ### Bands and channels -/

/-- The interpolations of the curves of a band change by no more than the heights of their points. -/
def Band.Tame (other other' : Nat → List (Int × ℝ) → Except Err (List (Option ℝ))) (fs : Int) (ts : Nat) (b : Band) : Prop :=
  b.bandType = BandType.Curve → ∀ e ∈ b.effects, ∀ pts, curvePoints fs ts e.keyframes = .ok pts →
    TameCurve other other' b.curveTypeOrDefault pts

theorem evaluationBand_near (samples samples' : Effect → List ℝ) (other other' : Nat → List (Int × ℝ) → Except Err (List (Option ℝ)))
    {b b' : Band} (hb : b.NearTo δ η b') (hδ : 0 ≤ δ) (hη : 0 ≤ η) (n : Nat) (fs pad : Int) (ts : Nat)
    (ht : b.Tame other other' fs ts) :
    Alike (Signals (fun j => ((δ + η : ℚ) : ℝ) * b.voices fs pad ts j)) (b.evaluationBand samples other n fs pad ts)
      (b'.evaluationBand samples' other' n fs pad ts) := by
  unfold Band.evaluationBand
  rw [hb.bandType]
  by_cases hc : b.bandType = BandType.Curve
  · rw [if_pos hc, if_pos hc]
    rw [hb.curveType hc]
    refine (curves_near other other' _ hδ fs pad ts hb.effects (ht hc) (fun _ => 0) _ _ (Signals.refl (fun _ => le_rfl) _)).imp
      fun u v huv => huv.mono fun j => ?_
    unfold Band.voices
    rw [if_pos hc, zero_add]
    have : (δ : ℝ) ≤ ((δ + η : ℚ) : ℝ) := by
      push_cast
      have : (0 : ℝ) ≤ η := by exact_mod_cast hη
      linarith
    gcongr
  · rw [if_neg hc, if_neg hc]
    exact alike_mapE_range n fun j => evaluationSample_near samples samples' hb hc hδ hη fs pad ts j

theorem mix_getD (s t : List (Option ℝ)) (j : ℕ) : (mixBand s t).getD j none = clamp1 (fadd (s.getD j none) (t.getD j none)) := by
  unfold mixBand
  simp only [List.getD_eq_getElem?_getD, List.getElem?_zipWith]
  cases s[j]? with
  | none => rfl
  | some x => cases t[j]? with
    | none => cases x <;> rfl
    | some y => rfl

theorem mixBand_near {ε ε' : ℕ → ℝ} {s s' t t' : List (Option ℝ)} (h : Signals ε s s') (h' : Signals ε' t t') :
    Signals (fun j => ε j + ε' j) (mixBand s t) (mixBand s' t') := by
  refine ⟨by unfold mixBand; rw [List.length_zipWith, List.length_zipWith, h.1, h'.1], fun j _ => ?_⟩
  rw [mix_getD, mix_getD]
  exact ((h.at j).add (h'.at j)).clamp

end Haptics
