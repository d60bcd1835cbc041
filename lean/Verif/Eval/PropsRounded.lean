import Verif.Eval.DoubleLemmas
import Verif.Eval.PropsRender

/-! C32 and C33 in the arithmetic of `double`. -/

namespace Haptics.Rounded
open Haptics

/-! ### Without rounding -/

section exact
local notation "X" => Arith.exact

theorem fdiv_exact (a b : ℝ) : fdiv X a b = Haptics.fdiv a b := rfl
theorem fadd_exact (a b : Option ℝ) : fadd X a b = Haptics.fadd a b := rfl
theorem linearInterpolation_exact : linearInterpolation X = Haptics.linearInterpolation := rfl
theorem chirpInterpolation_exact : chirpInterpolation X = Haptics.chirpInterpolation := rfl
theorem linearSegment_exact : linearSegment X = Haptics.linearSegment := rfl
theorem cubicSegment_exact : cubicSegment X = Haptics.cubicSegment := rfl
theorem evaluateKeyframes_exact (e : Effect) : evaluateKeyframes X e = e.evaluateKeyframes := rfl
theorem amplitudeModulationAt_exact : amplitudeModulationAt X = Haptics.amplitudeModulationAt := rfl

theorem computeBaseSignal_exact (e : Effect) (t f p : ℝ) : computeBaseSignal X e t f p = some (e.computeBaseSignal t f p) := by
  unfold computeBaseSignal Effect.computeBaseSignal
  by_cases h : f = 0
  · simp only [h, ne_eq, not_true_eq_false, if_false, Option.map_some]
    rfl
  · simp only [ne_eq, h, not_false_eq_true, if_true]
    have : fdiv X p (Arith.rd X (Arith.rd X (2 * Arith.pi X) * f)) = some (p / (2 * Real.pi * f)) :=
      Haptics.fdiv_of_ne (show 2 * Real.pi * f ≠ 0 by simp [Real.pi_ne_zero, h])
    rw [this]
    rfl

theorem frequencyLoop_exact (rel : ℝ) : ∀ (l : List Keyframe) (prev : Option Keyframe) (phi : ℝ),
    frequencyLoop X rel prev phi l = Haptics.frequencyLoop rel prev phi l
  | [], _, _ => rfl
  | k :: l, prev, phi => by
    unfold frequencyLoop Haptics.frequencyLoop
    simp only [frequencyLoop_exact rel l]
    rfl

theorem timeLength_exact (e : Effect) (bt : Nat) (d : ℚ) : timeLength X e bt (d : ℝ) = (e.timeLength bt d).map (fun q => (q : ℝ)) := by
  unfold timeLength Effect.timeLength
  split
  · simp [Except.map]
  · split
    · cases (e.keyframes.filterMap Keyframe.relativePosition).getLast? with
      | none => rfl
      | some p =>
        simp only [Except.map]
        congr 1
        split
        · show (p : ℝ) + d = _
          push_cast; rfl
        · push_cast; rfl
    · simp [Except.map]

theorem evaluateVectorial_exact (e : Effect) (position : ℝ) (low high : Int) (ts : Nat) :
    evaluateVectorial X e position low high ts = e.evaluateVectorial position low high ts := by
  unfold evaluateVectorial Effect.evaluateVectorial
  have h := timeLength_exact e BandType.VectorialWave 0
  rw [show ((0 : ℚ) : ℝ) = 0 by norm_num] at h
  rw [h]
  cases e.timeLength BandType.VectorialWave 0 with
  | error x => rfl
  | ok len =>
    simp only [Except.map, frequencyLoop_exact, computeBaseSignal_exact]
    rfl

theorem transientLoop_exact (rel d : ℝ) : ∀ (l : List Keyframe) (res : ℝ),
    transientLoop X rel d res l = Haptics.transientLoop rel d res l
  | [], _ => rfl
  | k :: l, res => by
    unfold transientLoop Haptics.transientLoop
    simp only [transientLoop_exact rel d l]
    rfl

theorem evaluateTransient_exact (e : Effect) (position d : ℝ) :
    evaluateTransient X e position d = e.evaluateTransient position d := by
  unfold evaluateTransient Effect.evaluateTransient
  simp only [transientLoop_exact]
  rfl

theorem transientDuration_exact (ts : Nat) : transientDuration X ts = (Haptics.transientDuration ts : ℚ) := by
  unfold transientDuration Haptics.transientDuration TRANSIENT_DURATION_MS
  by_cases h : ts = 0
  · rw [if_pos h, h]; simp
  · rw [if_neg h]
    have : (ts : ℝ) ≠ 0 := by exact_mod_cast h
    show (22 : ℝ) / (1000 / ts) = _
    push_cast
    field_simp

theorem evaluationSwitch_exact (samples : Effect → List ℝ) (b : Band) (position : ℝ) (e : Effect) (low high : Int) (ts : Nat) :
    evaluationSwitch X samples b position e low high ts = b.evaluationSwitch samples position e low high ts := by
  unfold evaluationSwitch Band.evaluationSwitch
  simp only [evaluateVectorial_exact, transientDuration_exact, timeLength_exact, evaluateTransient_exact]
  cases e.timeLength BandType.Transient (Haptics.transientDuration ts) <;> rfl

theorem bandEvaluate_exact (samples : Effect → List ℝ) (b : Band) (position : ℝ) (low high : Int) (ts : Nat) :
    bandEvaluate X samples b position low high ts = b.evaluate samples position low high ts := by
  unfold bandEvaluate Band.evaluate
  cases b.effects.getLast? with
  | none => rfl
  | some last =>
    have h := timeLength_exact last b.bandType 22
    rw [show ((22 : ℚ) : ℝ) = 22 by norm_num] at h
    simp only [h, evaluationSwitch_exact, TRANSIENT_DURATION_MS]
    cases last.timeLength b.bandType 22 <;> rfl

theorem sumBands_exact (samples : Effect → List ℝ) (position : ℝ) (ts : Nat) : ∀ (l : List Band) (acc : Option ℝ),
    sumBands X samples position ts acc l = Haptics.sumBands samples position ts acc l
  | [], _ => rfl
  | b :: l, acc => by
    unfold sumBands Haptics.sumBands
    simp only [bandEvaluate_exact, sumBands_exact samples position ts l]
    rfl

/-- Without rounding, `evaluate` is the function of `Eval/Model.lean`. -/
theorem evaluate_exact (samples : Effect → List ℝ) (c : Channel) (position : ℝ) (ts : Nat) :
    evaluate X samples c position ts = c.evaluate samples position ts := by
  unfold evaluate Channel.evaluate
  rw [sumBands_exact]
  rfl

theorem addCurveEffect_exact (other : Nat → List (Int × ℝ) → Except Err (List (Option ℝ))) :
    addCurveEffect X other = Haptics.addCurveEffect other := rfl

theorem sumEffects_exact (samples : Effect → List ℝ) (b : Band) (position : ℝ) (ts : Nat) : ∀ (l : List Effect) (acc : Option ℝ),
    sumEffects X samples b position ts acc l = Haptics.sumEffects samples b position ts acc l
  | [], _ => rfl
  | e :: l, acc => by
    unfold sumEffects Haptics.sumEffects
    simp only [evaluationSwitch_exact, sumEffects_exact samples b position ts l]
    rfl

theorem evaluationSample_exact (samples : Effect → List ℝ) (b : Band) (fs pad : Int) (ts ti : Nat) :
    evaluationSample X samples b fs pad ts ti = b.evaluationSample samples fs pad ts ti := by
  unfold evaluationSample Band.evaluationSample
  cases b.effects.getLast? with
  | none => rfl
  | some last =>
    simp only [transientDuration_exact, timeLength_exact, sumEffects_exact]
    cases last.timeLength b.bandType (Haptics.transientDuration ts) <;> rfl

theorem mixBands_exact (samples : Effect → List ℝ) (other : Nat → List (Int × ℝ) → Except Err (List (Option ℝ)))
    (n : Nat) (fs pad : Int) (ts : Nat) : ∀ (l : List Band) (amp : List (Option ℝ)),
    mixBands X samples other n fs pad ts amp l = Haptics.mixBands samples other n fs pad ts amp l
  | [], _ => rfl
  | b :: l, amp => by
    unfold mixBands Haptics.mixBands
    have : evaluationBand X samples other b n fs pad ts = b.evaluationBand samples other n fs pad ts := by
      unfold evaluationBand Band.evaluationBand
      rw [show evaluationSample X samples b fs pad ts = b.evaluationSample samples fs pad ts from
        funext (evaluationSample_exact samples b fs pad ts), addCurveEffect_exact]
    simp only [this, mixBands_exact samples other n fs pad ts l]
    rfl

/-- Without rounding, `evaluateChannel` is the function of `Eval/Model.lean`. -/
theorem evaluateChannel_exact (samples : Effect → List ℝ) (other : Nat → List (Int × ℝ) → Except Err (List (Option ℝ)))
    (c : Channel) (n : Nat) (fs pad : Int) (ts : Nat) :
    evaluateChannel X samples other c n fs pad ts = c.evaluateChannel samples other n fs pad ts :=
  mixBands_exact samples other n fs pad ts c.bands _

end exact

/-! ### With any rounding -/

theorem rd_zero {A : Arith} (hA : A.Sound) : A.rd 0 = 0 := by simpa using hA.int 0 (by norm_num)

theorem rd_ne {A : Arith} (hA : A.Sound) {x : ℝ} (h : x ≠ 0) : A.rd x ≠ 0 := by
  intro h0
  have h1 := hA.err x
  rw [h0, zero_sub, abs_neg] at h1
  have h2 := abs_pos.2 h
  have : |x| / 2 ^ 53 < |x| := div_lt_self h2 (by norm_num)
  linarith

theorem rd_nonneg {A : Arith} (hA : A.Sound) {x : ℝ} (h : 0 ≤ x) : 0 ≤ A.rd x := by
  rw [← rd_zero hA]
  exact hA.mono h

theorem pow3_ne {A : Arith} (hA : A.Sound) {x : ℝ} (h : x ≠ 0) : A.pow3 x ≠ 0 := by
  intro h0
  have h1 := hA.pow3 x
  rw [h0, zero_sub, abs_neg] at h1
  have h2 := abs_pos.2 (pow_ne_zero 3 h)
  have : |x ^ 3| / 2 ^ 50 < |x ^ 3| := div_lt_self h2 (by norm_num)
  linarith

theorem fdiv_ne (A : Arith) {a b : ℝ} (h : b ≠ 0) : fdiv A a b = some (A.rd (a / b)) := by simp [fdiv, h]

theorem linearInterpolation_number {A : Arith} (hA : A.Sound) (a b : Int × ℝ) (x : ℝ) (h : a.1 < b.1) :
    ∃ r, linearInterpolation A a b x = some r := by
  have h' : (a.1 : ℝ) < b.1 := by exact_mod_cast h
  unfold linearInterpolation
  split
  · exact ⟨_, rfl⟩
  · split
    · exact ⟨_, rfl⟩
    · rw [if_neg (show ¬ a.1 ≥ b.1 by omega), fdiv_ne A (rd_ne hA (by linarith))]
      exact ⟨_, rfl⟩

theorem linearSegment_number {A : Arith} (hA : A.Sound) {t0 t1 : ℝ} (f0 f1 t : ℝ) (h : t0 ≠ t1) :
    ∃ r, linearSegment A t0 f0 t1 f1 t = some r := by
  unfold linearSegment
  rw [fdiv_ne A (rd_ne hA (sub_ne_zero.2 h.symm))]
  exact ⟨_, rfl⟩

theorem cubicSegment_number {A : Arith} (hA : A.Sound) {t0 t1 : ℝ} (f0 f1 t : ℝ) (h : t0 ≠ t1) :
    ∃ r, cubicSegment A t0 f0 t1 f1 t = some r := by
  unfold cubicSegment
  dsimp only
  rw [fdiv_ne A (pow3_ne hA (rd_ne hA (sub_ne_zero.2 h.symm)))]
  exact ⟨_, rfl⟩

/-- Different times stay different in seconds. -/
theorem times_lt {A : Arith} (hA : A.Sound) {p q : ℤ} (hp : |p| ≤ 2 ^ 31) (hq : |q| ≤ 2 ^ 31) (h : p < q) (ts : Nat)
    (ht : ts ≠ 0) : A.rd ((p : ℝ) / ts) < A.rd ((q : ℝ) / ts) := by
  have hts : (0 : ℝ) < ts := by exact_mod_cast Nat.pos_of_ne_zero ht
  have e1 := (abs_le.1 (hA.err ((p : ℝ) / ts))).2
  have e2 := (abs_le.1 (hA.err ((q : ℝ) / ts))).1
  have a1 : |(p : ℝ) / ts| ≤ 2 ^ 31 / ts := by
    rw [abs_div, abs_of_pos hts]
    refine div_le_div_of_nonneg_right ?_ hts.le
    exact_mod_cast hp
  have a2 : |(q : ℝ) / ts| ≤ 2 ^ 31 / ts := by
    rw [abs_div, abs_of_pos hts]
    refine div_le_div_of_nonneg_right ?_ hts.le
    exact_mod_cast hq
  have b : (p : ℝ) / ts + 1 / ts ≤ q / ts := by
    rw [← add_div]
    refine div_le_div_of_nonneg_right ?_ hts.le
    exact_mod_cast h
  have c : (2 : ℝ) ^ 31 / ts = 2 ^ 31 * (1 / ts) := by ring
  have d : (0 : ℝ) < 1 / ts := by positivity
  rw [c] at a1 a2
  generalize (1 : ℝ) / ts = u at *
  linarith

theorem mem_points {e : Effect} {p : ℝ × ℝ} (hp : p ∈ e.keyframes.filterMap Keyframe.point) :
    ∃ k ∈ e.keyframes, ∃ z : ℤ, k.relativePosition = some z ∧ p.1 = z := by
  rw [List.mem_filterMap] at hp
  obtain ⟨k, hk, hkp⟩ := hp
  unfold Keyframe.point at hkp
  split at hkp
  · rename_i q a hq ha
    cases hkp
    exact ⟨k, hk, q, hq, rfl⟩
  · cases hkp

theorem evaluateKeyframes_number {A : Arith} (hA : A.Sound) (e : Effect) (position : ℝ) (ct ts : Nat) (ht : ts ≠ 0)
    (hp : ∀ k ∈ e.keyframes, ∀ p, k.relativePosition = some p → |p| ≤ 2 ^ 31) :
    ∃ r, evaluateKeyframes A e position ct ts = some r := by
  unfold evaluateKeyframes
  dsimp only
  split
  · exact ⟨0, rfl⟩
  · rename_i after rest hdrop
    obtain ⟨ha, hna⟩ := dropWhile_head _ _ _ _ hdrop
    split
    · exact ⟨_, rfl⟩
    · rename_i before hbef
      obtain ⟨hb, hpb⟩ := takeWhile_last _ _ _ hbef
      rw [decide_eq_true_iff] at hpb
      rw [decide_eq_false_iff_not, not_not] at hna
      obtain ⟨k1, hk1, z1, e1, w1⟩ := mem_points ha
      obtain ⟨k0, hk0, z0, e0, w0⟩ := mem_points hb
      rw [w1] at hna ⊢
      rw [w0] at hpb ⊢
      have hz : z0 < z1 := by
        have : (z0 : ℝ) < z1 := by linarith
        exact_mod_cast this
      rw [if_neg ht]
      have hne := (times_lt hA (hp k0 hk0 z0 e0) (hp k1 hk1 z1 e1) hz ts ht).ne
      split
      · exact cubicSegment_number hA _ _ _ hne
      · split
        · exact linearSegment_number hA _ _ _ hne
        · exact ⟨0, rfl⟩

theorem amplitudeModulationAt_number {A : Arith} (hA : A.Sound) (keyframes : List Keyframe) (rel : ℝ)
    (hp : ∀ k ∈ keyframes, k.relativePosition.isSome) : ∃ r, amplitudeModulationAt A keyframes rel = some r := by
  unfold amplitudeModulationAt
  dsimp only
  split
  · rename_i after rest hdrop
    obtain ⟨ha, hna⟩ := dropWhile_head _ _ _ _ hdrop
    split
    · exact ⟨_, rfl⟩
    · rename_i b hb
      have hbm := List.mem_of_find?_eq_some hb
      have hbs := List.find?_some hb
      rw [List.mem_reverse] at hbm
      have hbmem := (List.takeWhile_sublist _).mem hbm
      have hbp := List.all_eq_true.mp List.all_takeWhile b hbm
      obtain ⟨q, hq⟩ := Option.isSome_iff_exists.mp (hp b hbmem)
      obtain ⟨c, hc⟩ := Option.isSome_iff_exists.mp hbs
      simp only [hq, hc, ge_iff_le, Bool.not_eq_eq_eq_not, Bool.not_true, decide_eq_false_iff_not,
        not_le] at hbp
      rcases hap : after.relativePosition with _ | p
      · simp [hap] at hna
      · rcases haa : after.amplitudeModulation with _ | a
        · simp [hap, haa] at hna
        · simp only [hap, haa, ge_iff_le, Bool.not_eq_eq_eq_not, Bool.not_false,
            decide_eq_true_eq] at hna
          simp only [hq, hc, Option.getD_some]
          refine linearInterpolation_number hA _ _ _ ?_
          have : (q : ℝ) < p := by linarith
          exact_mod_cast this
  · split
    · exact ⟨_, rfl⟩
    · exact ⟨1, rfl⟩

theorem computeBaseSignal_number {A : Arith} (hA : A.Sound) (e : Effect) (t f p : ℝ) :
    ∃ r, computeBaseSignal A e t f p = some r := by
  unfold computeBaseSignal
  by_cases h : f = 0
  · simp only [h, ne_eq, not_true_eq_false, if_false, Option.map_some]
    exact ⟨_, rfl⟩
  · simp only [ne_eq, h, not_false_eq_true, if_true]
    rw [fdiv_ne A (rd_ne hA (mul_ne_zero (rd_ne hA (mul_ne_zero two_ne_zero (by have := hA.pi; linarith))) h))]
    exact ⟨_, rfl⟩

theorem timeLength_total (A : Arith) (e : Effect) (bt : Nat) (d : ℝ) (h : ∀ k ∈ e.keyframes, k.relativePosition.isSome) :
    ∃ x, timeLength A e bt d = .ok x := by
  unfold timeLength
  split
  · exact ⟨_, rfl⟩
  · rename_i hne
    split
    · split
      · rename_i hl
        rw [List.getLast?_eq_none_iff, List.filterMap_eq_nil_iff] at hl
        rcases hk : e.keyframes with _ | ⟨k, l⟩
        · simp [hk] at hne
        · have := h k (by rw [hk]; exact List.mem_cons_self)
          rw [hl k (by rw [hk]; exact List.mem_cons_self)] at this
          cases this
      · exact ⟨_, rfl⟩
    · exact ⟨_, rfl⟩

theorem evaluateVectorial_total {A : Arith} (hA : A.Sound) (e : Effect) (position : ℝ) (low high : Int) (ts : Nat)
    (ht : ts ≠ 0) (hl : low ≤ high) (h : ∀ k ∈ e.keyframes, k.relativePosition.isSome) :
    ∃ r, evaluateVectorial A e position low high ts = .ok (some r) := by
  have hts : (ts : ℝ) ≠ 0 := by exact_mod_cast ht
  obtain ⟨len, hlen⟩ := timeLength_total A e BandType.VectorialWave 0 h
  obtain ⟨r, hr⟩ := amplitudeModulationAt_number hA e.keyframes (A.rd (position - e.position)) h
  unfold evaluateVectorial
  rw [hlen]
  dsimp only
  split
  · exact ⟨_, rfl⟩
  · split
    · rename_i x hx
      exfalso
      split at hx
      · cases hx
      · rw [if_neg (by omega)] at hx; cases hx
      · split at hx <;> cases hx
    · rename_i frequency rel' _
      obtain ⟨s, hs⟩ := computeBaseSignal_number hA e (A.rd (rel' / ts)) frequency
        (frequencyLoop A (A.rd (position - e.position)) none (e.phaseOrDefault : ℝ) e.keyframes).1
      rw [hr, fdiv_ne A hts]
      simp only [Option.bind_eq_bind, Option.bind_some, hs]
      exact ⟨_, rfl⟩

theorem transientDuration_ne {A : Arith} (hA : A.Sound) (ts : Nat) (ht : ts ≠ 0) : transientDuration A ts ≠ 0 := by
  have hts : (ts : ℝ) ≠ 0 := by exact_mod_cast ht
  unfold transientDuration
  rw [if_neg ht]
  exact rd_ne hA (div_ne_zero (by norm_num) (rd_ne hA (div_ne_zero (by norm_num) hts)))

theorem transientLoop_total (A : Arith) (rel d : ℝ) (hd : d ≠ 0) : ∀ (l : List Keyframe) (res : ℝ),
    (∀ k ∈ l, k.relativePosition.isSome → k.amplitudeModulation.isSome) →
    ∃ r, transientLoop A rel d res l = .ok (some r)
  | [], res, _ => ⟨res, rfl⟩
  | k :: l, res, h => by
    unfold transientLoop
    split
    · rename_i hk
      have hp : k.relativePosition.isSome := by
        unfold transientActive at hk
        split at hk
        · cases hk
        · rename_i h; simp [h]
      obtain ⟨a, ha⟩ := Option.isSome_iff_exists.mp (h k List.mem_cons_self hp)
      simp only [ha, fdiv_ne A hd]
      exact transientLoop_total A rel d hd l _ (fun x hx => h x (List.mem_cons_of_mem _ hx))
    · exact ⟨_, rfl⟩

/-- **C33 in the arithmetic of `double`** (whatever the rounding): evaluation of a transient ends, with a number. -/
theorem c33_double_partial (A : Arith) (e : Effect) (position d : ℝ) (hd : d ≠ 0) (h : PositionsLoud e) :
    ∃ r, evaluateTransient A e position d = .ok (some r) :=
  transientLoop_total A _ d hd _ 0 (fun k hk => h k (List.mem_reverse.mp ((List.dropWhile_sublist _).mem hk)))

theorem evaluationSwitch_total {A : Arith} (hA : A.Sound) (samples : Effect → List ℝ) (b : Band) (position : ℝ) (e : Effect)
    (ts : Nat) (ht : ts ≠ 0) (h0 : 0 ≤ b.upperFrequencyLimit) (low high : Int) (hl : low ≤ high)
    (hp : ∀ k ∈ e.keyframes, k.relativePosition.isSome)
    (hr : ∀ k ∈ e.keyframes, ∀ p, k.relativePosition = some p → |p| ≤ 2 ^ 31)
    (ha : b.bandType = BandType.Transient → ∀ k ∈ e.keyframes, k.amplitudeModulation.isSome)
    (hpos : (e.position : ℝ) ≤ position) :
    ∃ r, evaluationSwitch A samples b position e low high ts = .ok (some r) := by
  have hts : (0 : ℝ) < ts := by exact_mod_cast Nat.pos_of_ne_zero ht
  unfold evaluationSwitch
  split
  · obtain ⟨r, hr⟩ := evaluateKeyframes_number hA e position b.curveTypeOrDefault ts ht hr
    exact ⟨r, by rw [hr]⟩
  · split
    · exact evaluateVectorial_total hA e position low high ts ht hl hp
    · split
      · unfold evaluateWavelet
        rw [fdiv_ne A hts.ne']
        dsimp only
        split
        · exact ⟨_, rfl⟩
        · rw [if_neg]
          · exact ⟨_, rfl⟩
          · rw [not_lt]
            apply Int.floor_nonneg.mpr
            have : (0 : ℝ) ≤ b.upperFrequencyLimit := by exact_mod_cast h0
            exact rd_nonneg hA (div_nonneg (rd_nonneg hA (mul_nonneg (rd_nonneg hA (by linarith)) this)) hts.le)
      · split
        · rename_i htr
          obtain ⟨len, hlen⟩ := timeLength_total A e BandType.Transient (transientDuration A ts) hp
          rw [hlen]
          dsimp only
          split
          · exact c33_double_partial A e position _ (transientDuration_ne hA ts ht) (fun k hk _ => ha htr k hk)
          · exact ⟨_, rfl⟩
        · exact ⟨_, rfl⟩

theorem bandEvaluate_total {A : Arith} (hA : A.Sound) (samples : Effect → List ℝ) (c : Channel) (position : ℝ) (ts : Nat)
    (hc : Playable ts c) (hr : c.Positions) (b : Band) (hb : b ∈ c.bands) :
    ∃ r, bandEvaluate A samples b position b.lowerFrequencyLimit b.upperFrequencyLimit ts = .ok (some r) := by
  unfold bandEvaluate
  split
  · exact ⟨_, rfl⟩
  · rename_i last hlast
    have hm : last ∈ b.effects := List.mem_of_getLast? hlast
    obtain ⟨len, hlen⟩ := timeLength_total A last b.bandType 22 (hc.placed b hb last hm)
    rw [hlen]
    dsimp only
    split
    · rename_i hx
      split at hx <;> cases hx
    · exact ⟨_, rfl⟩
    · split
      · exact ⟨_, rfl⟩
      · rename_i e he
        have hem : e ∈ b.effects := List.mem_reverse.mp (List.mem_of_find?_eq_some he)
        have hep := List.find?_some he
        rw [decide_eq_true_iff] at hep
        exact evaluationSwitch_total hA samples b position e ts hc.scale (hc.limits b hb).1 _ _
          (hc.limits b hb).2 (hc.placed b hb e hem) (hr b hb e hem) (fun ht => hc.loud b hb ht e hem) hep

theorem sumBands_total {A : Arith} (hA : A.Sound) (samples : Effect → List ℝ) (c : Channel) (position : ℝ) (ts : Nat)
    (hc : Playable ts c) (hr : c.Positions) (l : List Band) (hl : ∀ b ∈ l, b ∈ c.bands) (acc : ℝ) :
    ∃ r, sumBands A samples position ts (some acc) l = .ok (some r) := by
  induction l generalizing acc with
  | nil => exact ⟨acc, rfl⟩
  | cons b l ih =>
    obtain ⟨r, hr'⟩ := bandEvaluate_total hA samples c position ts hc hr b (hl b List.mem_cons_self)
    unfold sumBands
    rw [hr']
    exact ih (fun x hx => hl x (List.mem_cons_of_mem _ hx)) _

/-- **C32 in the arithmetic of `double`**: whatever the rounding, a playable channel is rendered, at every time, as a number of
[-1, 1]: no undefined behaviour, no NaN, no endless loop, no overshoot. -/
theorem c32_double {A : Arith} (hA : A.Sound) (samples : Effect → List ℝ) (c : Channel) (position : ℝ) (ts : Nat)
    (hc : Playable ts c) (hr : c.Positions) : ∃ v, evaluate A samples c position ts = .ok v ∧ Sample v := by
  obtain ⟨r, hr⟩ := sumBands_total hA samples c position ts hc hr c.bands (fun _ h => h) 0
  unfold evaluate
  rw [hr]
  exact ⟨_, rfl, clamp1_sample r⟩

/-- A channel with a vectorial, a transient and a curve band, in binary64. -/
example (samples : Effect → List ℝ) (position : ℝ) : ∃ v, evaluate Arith.double samples demoChannel position 1000 = .ok v ∧ Sample v :=
  c32_double double_sound samples demoChannel position 1000
    ⟨by decide, by simp [demoChannel], by simp [demoChannel, buzz, click, rampEffect],
      by simp [demoChannel, buzz, click, rampEffect]⟩
    (by
      intro b hb e he k hk p hp
      simp only [demoChannel, List.mem_cons, List.not_mem_nil, or_false] at hb
      rcases hb with rfl | rfl | rfl <;>
        simp only [List.mem_cons, List.not_mem_nil, or_false] at he <;> subst he <;>
        simp only [buzz, click, rampEffect, List.mem_cons, List.not_mem_nil, or_false] at hk
      · rcases hk with rfl | rfl <;> cases hp <;> norm_num
      · subst hk; cases hp; norm_num
      · rcases hk with rfl | rfl <;> cases hp <;> norm_num)

/-! ### `EvaluateChannel` -/

theorem sumEffects_total {A : Arith} (hA : A.Sound) (samples : Effect → List ℝ) (b : Band) (position : ℝ) (ts : Nat)
    (ht : ts ≠ 0) (h0 : 0 ≤ b.upperFrequencyLimit) (hl : b.lowerFrequencyLimit ≤ b.upperFrequencyLimit) (l : List Effect)
    (hp : ∀ e ∈ l, ∀ k ∈ e.keyframes, k.relativePosition.isSome)
    (hr : ∀ e ∈ l, ∀ k ∈ e.keyframes, ∀ p, k.relativePosition = some p → |p| ≤ 2 ^ 31)
    (ha : b.bandType = BandType.Transient → ∀ e ∈ l, ∀ k ∈ e.keyframes, k.amplitudeModulation.isSome)
    (acc : ℝ) : ∃ r, sumEffects A samples b position ts (some acc) l = .ok (some r) := by
  induction l generalizing acc with
  | nil => exact ⟨acc, rfl⟩
  | cons e l ih =>
    have ih' := ih (fun x hx => hp x (List.mem_cons_of_mem _ hx)) (fun x hx => hr x (List.mem_cons_of_mem _ hx))
      (fun t x hx => ha t x (List.mem_cons_of_mem _ hx))
    unfold sumEffects
    split
    · rename_i hpos
      obtain ⟨r, hr⟩ := evaluationSwitch_total hA samples b position e ts ht h0 _ _ hl
        (hp e List.mem_cons_self) (hr e List.mem_cons_self) (fun t => ha t e List.mem_cons_self) hpos
      rw [hr]
      exact ih' _
    · exact ih' acc

theorem evaluationBand_total {A : Arith} (hA : A.Sound) (samples : Effect → List ℝ)
    (other : Nat → List (Int × ℝ) → Except Err (List (Option ℝ))) (c : Channel) (n : Nat) (fs pad : Int)
    (ts : Nat) (hc : Playable ts c) (hr : c.Positions) (b : Band) (hb : b ∈ c.bands)
    (hcv : b.bandType ≠ BandType.Curve) (hne : b.effects ≠ []) :
    ∃ r, evaluationBand A samples other b n fs pad ts = .ok r ∧ r.length = n ∧ ∀ x ∈ r, x ≠ none := by
  have key : ∀ ti, ∃ y, evaluationSample A samples b fs pad ts ti = .ok (some y) := by
    intro ti
    unfold evaluationSample
    split
    · rename_i h
      exact absurd (List.getLast?_eq_none_iff.mp h) hne
    · rename_i last hlast
      obtain ⟨len, hlen⟩ := timeLength_total A last b.bandType (transientDuration A ts)
        (hc.placed b hb last (List.mem_of_getLast? hlast))
      rw [hlen]
      exact sumEffects_total hA samples b _ ts hc.scale (hc.limits b hb).1 (hc.limits b hb).2 _
        (fun e he => hc.placed b hb e (List.mem_reverse.mp he))
        (fun e he => hr b hb e (List.mem_reverse.mp he))
        (fun t e he => hc.loud b hb t e (List.mem_reverse.mp he)) 0
  unfold evaluationBand
  rw [if_neg hcv]
  obtain ⟨r, hr⟩ := mapE_total (evaluationSample A samples b fs pad ts) (List.range n)
    (fun a _ => ⟨_, (key a).choose_spec⟩)
  refine ⟨r, hr, by rw [mapE_length _ _ _ hr, List.length_range], ?_⟩
  intro x hx
  obtain ⟨a, -, ha⟩ := mapE_mem _ _ _ hr x hx
  obtain ⟨y, hy⟩ := key a
  rw [hy] at ha
  cases ha
  simp

theorem mixBands_total {A : Arith} (hA : A.Sound) (samples : Effect → List ℝ)
    (other : Nat → List (Int × ℝ) → Except Err (List (Option ℝ))) (c : Channel) (n : Nat) (fs pad : Int)
    (ts : Nat) (hc : Playable ts c) (hr : c.Positions)
    (hb : ∀ b ∈ c.bands, b.bandType ≠ BandType.Curve ∧ b.effects ≠ []) (l : List Band)
    (hl : ∀ b ∈ l, b ∈ c.bands) (amp : List (Option ℝ)) (hn : amp.length = n) (ha : ∀ x ∈ amp, Sample x) :
    ∃ r, mixBands A samples other n fs pad ts amp l = .ok r ∧ r.length = n ∧ ∀ x ∈ r, Sample x := by
  induction l generalizing amp with
  | nil => exact ⟨amp, rfl, hn, ha⟩
  | cons b l ih =>
    obtain ⟨v, hv, hvl, hvn⟩ := evaluationBand_total hA samples other c n fs pad ts hc hr b
      (hl b List.mem_cons_self) (hb b (hl b List.mem_cons_self)).1 (hb b (hl b List.mem_cons_self)).2
    unfold mixBands
    rw [hv]
    refine ih (fun x hx => hl x (List.mem_cons_of_mem _ hx)) _ ?_ ?_
    · simp [mixBand, hn, hvl]
    · intro x hx
      unfold mixBand at hx
      obtain ⟨p, hp, rfl⟩ := mem_zipWith _ _ _ _ hx
      obtain ⟨a, ha', -⟩ := ha p.1 (List.of_mem_zip hp).1
      obtain ⟨y, hy'⟩ := Option.ne_none_iff_exists'.mp (hvn p.2 (List.of_mem_zip hp).2)
      rw [ha', hy']
      exact clamp1_sample _

/-- **C32 for `EvaluateChannel` in the arithmetic of `double`**, for playable channels without curve bands or empty bands: all
samples are delivered and all are numbers of [-1, 1]. -/
theorem c32_channel_double {A : Arith} (hA : A.Sound) (samples : Effect → List ℝ)
    (other : Nat → List (Int × ℝ) → Except Err (List (Option ℝ))) (c : Channel) (n : Nat) (fs pad : Int)
    (ts : Nat) (hc : Playable ts c) (hr : c.Positions)
    (hb : ∀ b ∈ c.bands, b.bandType ≠ BandType.Curve ∧ b.effects ≠ []) :
    ∃ r, evaluateChannel A samples other c n fs pad ts = .ok r ∧ r.length = n ∧ ∀ x ∈ r, Sample x :=
  mixBands_total hA samples other c n fs pad ts hc hr hb c.bands (fun _ h => h) _ (by simp)
    (fun x hx => by rw [List.eq_of_mem_replicate hx]; exact ⟨0, rfl, by norm_num, by norm_num⟩)

end Haptics.Rounded
