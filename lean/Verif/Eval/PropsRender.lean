import Verif.Eval.Props

namespace Haptics

/-! ## C51: periodic signals -/

theorem square_values (x : ℝ) : cround (x - ⌊x⌋) = 0 ∨ cround (x - ⌊x⌋) = 1 := by
  have h0 := Int.floor_le x
  have h1 := Int.lt_floor_add_one x
  have h2 : (0 : ℝ) ≤ x - ⌊x⌋ := by linarith
  unfold cround
  rw [if_pos h2]
  have l0 : 0 ≤ ⌊x - ⌊x⌋ + 1 / 2⌋ := Int.floor_nonneg.mpr (by linarith)
  have l1 : ⌊x - ⌊x⌋ + 1 / 2⌋ < 2 := Int.floor_lt.mpr (by push_cast; linarith)
  rcases (show ⌊x - ⌊x⌋ + 1 / 2⌋ = 0 ∨ ⌊x - ⌊x⌋ + 1 / 2⌋ = 1 by omega) with h | h
  · left; rw [h]; simp
  · right; rw [h]; simp

/-- C51: every base signal stays within [-1, 1]. -/
theorem c51_range (e : Effect) (time frequency phase : ℝ) :
    |e.computeBaseSignal time frequency phase| ≤ 1 := by
  unfold Effect.computeBaseSignal
  dsimp only
  generalize (if frequency ≠ 0 then time + phase / (2 * Real.pi * frequency) else time) = t
  split
  · exact Real.abs_sin_le_one _
  · rcases square_values (t * frequency) with h | h <;> rw [h] <;> norm_num
  · have h := cround_dist (t * frequency - 1 / 4)
    have h' := abs_nonneg (cround (t * frequency - 1 / 4) - (t * frequency - 1 / 4))
    rw [abs_le]; constructor <;> linarith
  · have h1 := Int.floor_le (t * frequency + 1 / 2)
    have h2 := Int.lt_floor_add_one (t * frequency + 1 / 2)
    rw [abs_le]; constructor <;> linarith
  · have h1 := Int.floor_le (t * frequency + 1 / 2)
    have h2 := Int.lt_floor_add_one (t * frequency + 1 / 2)
    rw [abs_le]; constructor <;> linarith
  · simp

/-- C51: every base signal repeats after `1 / frequency`. -/
theorem c51_periodic (e : Effect) (time frequency phase : ℝ) (hf : frequency ≠ 0) :
    e.computeBaseSignal (time + 1 / frequency) frequency phase = e.computeBaseSignal time frequency phase := by
  unfold Effect.computeBaseSignal
  simp only [if_pos hf]
  generalize phase / (2 * Real.pi * frequency) = q
  have hx : (time + 1 / frequency + q) * frequency = (time + q) * frequency + 1 := by
    field_simp; ring
  have hs : 2 * Real.pi * (time + 1 / frequency + q) * frequency
      = 2 * Real.pi * (time + q) * frequency + 2 * Real.pi := by field_simp; ring
  rw [hs, hx]
  generalize (time + q) * frequency = x
  split
  · exact Real.sin_add_two_pi _
  · rw [Int.floor_add_one]; push_cast
    rw [show x + 1 - ((⌊x⌋ : ℝ) + 1) = x - ⌊x⌋ by ring]
  · have := cround_dist_add_int (x - 1 / 4) 1
    rw [show x - 1 / 4 + ((1 : ℤ) : ℝ) = x + 1 - 1 / 4 by push_cast; ring] at this
    rw [this]
  · rw [show x + 1 + 1 / 2 = x + 1 / 2 + 1 by ring, Int.floor_add_one]; push_cast; ring
  · rw [show x + 1 + 1 / 2 = x + 1 / 2 + 1 by ring, Int.floor_add_one]; push_cast; ring
  · rfl

/-- The four signals at the quarter periods (square, triangle, saw teeth): the shapes are the intended
ones. -/
example : ({ baseSignal := some 1 } : Effect).computeBaseSignal (1 / 4) 1 0 = 1 := by
  norm_num [Effect.computeBaseSignal, Effect.baseSignalOrDefault, cround]

theorem amplitudeModulationAt_bound (e : Effect) (rel B : ℝ) (hB1 : 1 ≤ B) (hB : AmplitudeBound e B)
    (hp : AmplitudesPlaced e) :
    ∃ r, amplitudeModulationAt e.keyframes rel = some r ∧ |r| ≤ B := by
  unfold amplitudeModulationAt
  dsimp only
  have amp : ∀ k ∈ e.keyframes, |((k.amplitudeModulation.getD 0 : ℚ) : ℝ)| ≤ B := by
    intro k hk
    rcases h : k.amplitudeModulation with _ | a
    · simp; linarith
    · simpa using hB k hk a h
  split
  · rename_i after rest hdrop
    obtain ⟨ha, hna⟩ := dropWhile_head _ _ _ _ hdrop
    split
    · exact ⟨_, rfl, amp _ ha⟩
    · rename_i b hb
      have hbm := List.mem_of_find?_eq_some hb
      have hbs := List.find?_some hb
      rw [List.mem_reverse] at hbm
      have hbmem := (List.takeWhile_sublist _).mem hbm
      have hbp := List.all_eq_true.mp List.all_takeWhile b hbm
      obtain ⟨q, hq⟩ := Option.isSome_iff_exists.mp (hp b hbmem hbs)
      obtain ⟨c, hc⟩ := Option.isSome_iff_exists.mp hbs
      simp only [hq, hc, ge_iff_le, Bool.not_eq_eq_eq_not, Bool.not_true, decide_eq_false_iff_not,
        not_le] at hbp
      rcases hap : after.relativePosition with _ | p
      · simp [hap] at hna
      · rcases haa : after.amplitudeModulation with _ | a
        · simp [hap, haa] at hna
        · simp only [hap, haa, ge_iff_le, Bool.not_eq_eq_eq_not, Bool.not_false,
            decide_eq_true_eq] at hna
          simp only [hq, hc, Option.getD_some]
          have hlt : q < p := by
            have : (q : ℝ) < p := by linarith
            exact_mod_cast this
          obtain ⟨r, hr, hbt⟩ := c45_between (q, (c : ℝ)) (p, (a : ℝ)) rel hlt hbp.le hna
          exact ⟨r, hr, abs_le_of_between hbt (hB b hbmem c hc) (hB after ha a haa)⟩
  · split
    · rename_i k hk
      exact ⟨_, rfl, amp k (List.mem_reverse.mp (List.mem_of_find?_eq_some hk))⟩
    · exact ⟨1, rfl, by simpa using hB1⟩

/-- C51: a vectorial effect is rendered as a number that never exceeds its largest amplitude (1 if it has
none), at every time and whatever its frequencies. -/
theorem c51_vectorial (e : Effect) (position : ℝ) (low high : Int) (timescale : Nat) (ht : timescale ≠ 0)
    (B : ℝ) (hB1 : 1 ≤ B) (hB : AmplitudeBound e B) (hp : AmplitudesPlaced e) (v : Option ℝ)
    (hv : e.evaluateVectorial position low high timescale = .ok v) : ∃ r, v = some r ∧ |r| ≤ B := by
  have hts : (timescale : ℝ) ≠ 0 := by exact_mod_cast ht
  unfold Effect.evaluateVectorial at hv
  split at hv
  · cases hv
  · split at hv
    · cases hv; exact ⟨0, rfl, by simp; linarith⟩
    · dsimp only at hv
      split at hv
      · cases hv
      · rename_i fr frequency rel' hfr
        obtain ⟨r, hr, hrB⟩ := amplitudeModulationAt_bound e (position - e.position) B hB1 hB hp
        rw [hr, fdiv_of_ne hts] at hv
        cases hv
        refine ⟨_, rfl, ?_⟩
        rw [abs_mul]
        have := c51_range e (rel' / timescale) frequency
          (frequencyLoop (position - e.position) none (e.phaseOrDefault : ℝ) e.keyframes).1
        calc |r| * _ ≤ B * 1 := mul_le_mul hrB this (abs_nonneg _) (by linarith)
          _ = B := mul_one B

/-- A 50 Hz square wave with amplitude 1/2, 100 ms long. -/
def buzz : Effect :=
  { baseSignal := some 1, keyframes := [⟨some 0, some (1 / 2), some 50⟩, ⟨some 100, some (1 / 2), some 50⟩] }

example : buzz.evaluateVectorial 3 0 1000 1000 = .ok (some (1 / 2)) := by
  have e1 : buzz.timeLength BandType.VectorialWave 0 = .ok 100 := by
    simp [buzz, Effect.timeLength]
  have e2 : amplitudeModulationAt buzz.keyframes 3 = some (1 / 2) := by
    norm_num [buzz, amplitudeModulationAt, linearInterpolation, fdiv]
  unfold Effect.evaluateVectorial
  rw [e1]
  norm_num [buzz, frequencyLoop, Effect.phaseOrDefault, chirpInterpolation, fdiv,
    Effect.computeBaseSignal, Effect.baseSignalOrDefault, cround] at e2 ⊢
  rw [e2]
  norm_num
  simp

/-! ## C33: transients -/

/-- The value the loop accumulates when it ends. -/
theorem transientLoop_ok (rel duration : ℝ) (hd : duration ≠ 0) (l : List Keyframe) (res : ℝ)
    (h : ∀ k ∈ l, k.relativePosition.isSome → k.amplitudeModulation.isSome) :
    transientLoop rel duration res l = .ok (some (res +
      ((l.takeWhile (transientActive rel duration)).map (fun k =>
        Real.sin (4 * Real.pi * (rel - (k.relativePosition.getD 0 : Int)) / duration)
          * ((k.amplitudeModulation.getD 0 : ℚ) : ℝ))).sum)) := by
  induction l generalizing res with
  | nil => simp [transientLoop]
  | cons k l ih =>
    unfold transientLoop
    by_cases hk : transientActive rel duration k = true
    · rw [if_pos hk, List.takeWhile_cons_of_pos hk]
      have hp : k.relativePosition.isSome := by
        unfold transientActive at hk
        split at hk
        · cases hk
        · rename_i h; simp [h]
      obtain ⟨a, ha⟩ := Option.isSome_iff_exists.mp (h k List.mem_cons_self hp)
      simp only [ha, fdiv_of_ne hd]
      rw [ih _ (fun x hx => h x (List.mem_cons_of_mem _ hx))]
      simp [ha, add_assoc]
    · rw [if_neg hk, List.takeWhile_cons_of_neg hk]
      simp

/-- C33, for effects in which every keyframe with a position has an amplitude (the full property asks for
all effects: see `c33_negation`): evaluation terminates, and gives the sum of the transients that sound at
that time, going back from the last one. -/
theorem c33_partial (e : Effect) (position duration : ℝ) (hd : duration ≠ 0) (h : PositionsLoud e) :
    e.evaluateTransient position duration = .ok (some
      (((e.keyframes.reverse.dropWhile
          (fun k => !transientActive (position - e.position) duration k)).takeWhile
          (transientActive (position - e.position) duration)).map (fun k =>
        Real.sin (4 * Real.pi * (position - e.position - (k.relativePosition.getD 0 : Int)) / duration)
          * ((k.amplitudeModulation.getD 0 : ℚ) : ℝ))).sum) := by
  unfold Effect.evaluateTransient
  dsimp only
  rw [transientLoop_ok _ _ hd _ _ (fun k hk => h k (List.mem_reverse.mp
    ((List.dropWhile_sublist _).mem hk)))]
  simp

theorem dropWhile_nil {α : Type} (p : α → Bool) (l : List α) (h : ∀ a ∈ l, p a = true) :
    l.dropWhile p = [] := by
  induction l with
  | nil => rfl
  | cons a l ih =>
    rw [List.dropWhile_cons_of_pos (h a List.mem_cons_self)]
    exact ih (fun x hx => h x (List.mem_cons_of_mem _ hx))

/-- C33: outside the transients nothing sounds. -/
theorem c33_silent (e : Effect) (position duration : ℝ)
    (h : ∀ k ∈ e.keyframes, ∀ p, k.relativePosition = some p →
      position < e.position + p ∨ (e.position : ℝ) + p + duration < position) :
    e.evaluateTransient position duration = .ok (some 0) := by
  unfold Effect.evaluateTransient
  dsimp only
  have hnil : e.keyframes.reverse.dropWhile
      (fun k => !transientActive (position - e.position) duration k) = [] := by
    apply dropWhile_nil
    intro k hk
    rw [List.mem_reverse] at hk
    unfold transientActive
    split
    · rfl
    · rename_i p hp
      rw [Bool.not_eq_true', decide_eq_false_iff_not]
      rintro ⟨h1, h2⟩
      rcases h k hk p hp with h' | h' <;> linarith
  rw [hnil]
  rfl

/-- A transient of amplitude 1 at 10 ms. -/
def click : Effect := { position := 0, keyframes := [⟨some 10, some 1, some 100⟩] }

example : PositionsLoud click := by simp [PositionsLoud, click]

/-- C33 is false of the code: a transient keyframe without amplitude makes evaluation run for ever at every
time at which it sounds. -/
theorem c33_negation (position duration : ℝ) (h0 : 10 ≤ position) (h1 : position ≤ 10 + duration) :
    ({ position := 0, keyframes := [⟨some 10, none, some 100⟩] } : Effect).evaluateTransient position duration
      = .error .diverge := by
  have hact : transientActive position duration ⟨some 10, none, some 100⟩ = true := by
    simp only [transientActive, Int.cast_ofNat, ge_iff_le, decide_eq_true_eq]
    exact ⟨h0, h1⟩
  unfold Effect.evaluateTransient
  simp only [Int.cast_zero, sub_zero, List.reverse_singleton]
  rw [List.dropWhile_cons_of_neg (by simp [hact])]
  simp [transientLoop, hact]

/-! ## C32: samples of a channel -/

theorem clamp1_sample (r : ℝ) : Sample (clamp1 (some r)) := by
  unfold clamp1 Sample
  simp only [Option.map_some, Option.some.injEq]
  refine ⟨_, rfl, ?_⟩
  split
  · norm_num
  · split
    · norm_num
    · constructor <;> linarith

/-- C32 for `Evaluate`, up to values that are not numbers (see `c32_negation`). -/
theorem c32_evaluate_partial (samples : Effect → List ℝ) (c : Channel) (position : ℝ) (timescale : Nat)
    (v : ℝ) (h : c.evaluate samples position timescale = .ok (some v)) : -1 ≤ v ∧ v ≤ 1 := by
  unfold Channel.evaluate at h
  split at h
  · cases h
  · rename_i x hx
    rcases x with _ | x
    · cases h
    · obtain ⟨r, hr, h1⟩ := clamp1_sample x
      rw [hr] at h
      cases h
      exact h1

theorem timeLength_total (e : Effect) (bt : Nat) (d : ℚ) (h : ∀ k ∈ e.keyframes, k.relativePosition.isSome) :
    ∃ x, e.timeLength bt d = .ok x := by
  unfold Effect.timeLength
  split
  · exact ⟨_, rfl⟩
  · rename_i hne
    split
    · split
      · rename_i hl
        rw [List.getLast?_eq_none_iff, List.filterMap_eq_nil_iff] at hl
        rcases hk : e.keyframes with _ | ⟨k, l⟩
        · simp [hk] at hne
        · have := h k (by rw [hk]; exact List.mem_cons_self)
          rw [hl k (by rw [hk]; exact List.mem_cons_self)] at this
          cases this
      · exact ⟨_, rfl⟩
    · exact ⟨_, rfl⟩

theorem evaluateVectorial_total (e : Effect) (position : ℝ) (low high : Int) (timescale : Nat)
    (ht : timescale ≠ 0) (hl : low ≤ high) (h : ∀ k ∈ e.keyframes, k.relativePosition.isSome) :
    ∃ r, e.evaluateVectorial position low high timescale = .ok (some r) := by
  have hts : (timescale : ℝ) ≠ 0 := by exact_mod_cast ht
  obtain ⟨len, hlen⟩ := timeLength_total e BandType.VectorialWave 0 h
  obtain ⟨B, hB⟩ : ∃ B : ℝ, AmplitudeBound e B := by
    have : ∀ l : List Keyframe, ∃ B : ℝ, ∀ k ∈ l, ∀ a, k.amplitudeModulation = some a → |(a : ℝ)| ≤ B := by
      intro l
      induction l with
      | nil => exact ⟨0, by simp⟩
      | cons k l ih =>
        obtain ⟨B, hB⟩ := ih
        refine ⟨max B |((k.amplitudeModulation.getD 0 : ℚ) : ℝ)|, ?_⟩
        intro x hx a ha
        rcases List.mem_cons.mp hx with rfl | hx
        · rw [ha]; exact le_max_right _ _
        · exact le_trans (hB x hx a ha) (le_max_left _ _)
    exact this e.keyframes
  obtain ⟨r, hr, -⟩ := amplitudeModulationAt_bound e (position - e.position) (max 1 B) (le_max_left _ _)
    (fun k hk a ha => le_trans (hB k hk a ha) (le_max_right _ _)) (fun k hk _ => h k hk)
  unfold Effect.evaluateVectorial
  rw [hlen]
  dsimp only
  split
  · exact ⟨_, rfl⟩
  · split
    · rename_i x hx
      exfalso
      split at hx
      · cases hx
      · rw [if_neg (by omega)] at hx; cases hx
      · split at hx <;> cases hx
    · rw [hr, fdiv_of_ne hts]
      exact ⟨_, rfl⟩

theorem evaluationSwitch_total (samples : Effect → List ℝ) (b : Band) (position : ℝ) (e : Effect)
    (timescale : Nat) (ht : timescale ≠ 0) (h0 : 0 ≤ b.upperFrequencyLimit) (low high : Int) (hl : low ≤ high)
    (hp : ∀ k ∈ e.keyframes, k.relativePosition.isSome)
    (ha : b.bandType = BandType.Transient → ∀ k ∈ e.keyframes, k.amplitudeModulation.isSome)
    (hpos : (e.position : ℝ) ≤ position) :
    ∃ r, b.evaluationSwitch samples position e low high timescale = .ok (some r) := by
  have hts : (0 : ℝ) < timescale := by exact_mod_cast Nat.pos_of_ne_zero ht
  unfold Band.evaluationSwitch
  split
  · obtain ⟨B, hB⟩ : ∃ B : ℝ, 0 ≤ B ∧ AmplitudeBound e B := by
      have : ∀ l : List Keyframe, ∃ B : ℝ, 0 ≤ B ∧ ∀ k ∈ l, ∀ a, k.amplitudeModulation = some a → |(a : ℝ)| ≤ B := by
        intro l
        induction l with
        | nil => exact ⟨0, le_refl _, by simp⟩
        | cons k l ih =>
          obtain ⟨B, hB0, hB⟩ := ih
          refine ⟨max B |((k.amplitudeModulation.getD 0 : ℚ) : ℝ)|, le_trans hB0 (le_max_left _ _), ?_⟩
          intro x hx a ha
          rcases List.mem_cons.mp hx with rfl | hx
          · rw [ha]; exact le_max_right _ _
          · exact le_trans (hB x hx a ha) (le_max_left _ _)
      exact this e.keyframes
    obtain ⟨r, hr, -⟩ := c50_bounded e position b.curveTypeOrDefault timescale ht B hB.1 hB.2
    exact ⟨r, by rw [hr]⟩
  · split
    · exact evaluateVectorial_total e position low high timescale ht hl hp
    · split
      · unfold evaluateWavelet
        rw [fdiv_of_ne hts.ne']
        dsimp only
        split
        · exact ⟨_, rfl⟩
        · rw [if_neg]
          · exact ⟨_, rfl⟩
          · rw [not_lt]
            apply Int.floor_nonneg.mpr
            have : (0 : ℝ) ≤ b.upperFrequencyLimit := by exact_mod_cast h0
            exact div_nonneg (mul_nonneg (by linarith) this) hts.le
      · split
        · rename_i htr
          obtain ⟨len, hlen⟩ := timeLength_total e BandType.Transient (transientDuration timescale) hp
          rw [hlen]
          dsimp only
          split
          · have hd : ((transientDuration timescale : ℚ) : ℝ) ≠ 0 := by
              have : transientDuration timescale ≠ 0 := by
                unfold transientDuration TRANSIENT_DURATION_MS
                have : (timescale : ℚ) ≠ 0 := by exact_mod_cast ht
                positivity
              exact_mod_cast this
            rw [c33_partial e position _ hd (fun k hk _ => ha htr k hk)]
            exact ⟨_, rfl⟩
          · exact ⟨_, rfl⟩
        · exact ⟨_, rfl⟩

theorem bandEvaluate_total (samples : Effect → List ℝ) (c : Channel) (position : ℝ) (timescale : Nat)
    (hc : Playable timescale c) (b : Band) (hb : b ∈ c.bands) :
    ∃ r, b.evaluate samples position b.lowerFrequencyLimit b.upperFrequencyLimit timescale = .ok (some r) := by
  unfold Band.evaluate
  split
  · exact ⟨_, rfl⟩
  · rename_i last hlast
    have hm : last ∈ b.effects := List.mem_of_getLast? hlast
    obtain ⟨len, hlen⟩ := timeLength_total last b.bandType TRANSIENT_DURATION_MS (hc.placed b hb last hm)
    rw [hlen]
    dsimp only
    split
    · rename_i hx
      split at hx <;> cases hx
    · exact ⟨_, rfl⟩
    · split
      · exact ⟨_, rfl⟩
      · rename_i e he
        have hem : e ∈ b.effects := List.mem_reverse.mp (List.mem_of_find?_eq_some he)
        have hep := List.find?_some he
        rw [decide_eq_true_iff] at hep
        exact evaluationSwitch_total samples b position e timescale hc.scale (hc.limits b hb).1 _ _
          (hc.limits b hb).2 (hc.placed b hb e hem) (fun ht => hc.loud b hb ht e hem) hep

theorem sumBands_total (samples : Effect → List ℝ) (c : Channel) (position : ℝ) (timescale : Nat)
    (hc : Playable timescale c) (l : List Band) (hl : ∀ b ∈ l, b ∈ c.bands) (acc : ℝ) :
    ∃ r, sumBands samples position timescale (some acc) l = .ok (some r) := by
  induction l generalizing acc with
  | nil => exact ⟨acc, rfl⟩
  | cons b l ih =>
    obtain ⟨r, hr⟩ := bandEvaluate_total samples c position timescale hc b (hl b List.mem_cons_self)
    unfold sumBands
    rw [hr]
    exact ih (fun x hx => hl x (List.mem_cons_of_mem _ hx)) (acc + r)

/-- C32: a playable channel is rendered, at every time, as a number of [-1, 1]: no undefined behaviour, no
NaN, no endless loop, no overshoot. -/
theorem c32_evaluate (samples : Effect → List ℝ) (c : Channel) (position : ℝ) (timescale : Nat)
    (hc : Playable timescale c) :
    ∃ v, c.evaluate samples position timescale = .ok v ∧ Sample v := by
  obtain ⟨r, hr⟩ := sumBands_total samples c position timescale hc c.bands (fun _ h => h) 0
  unfold Channel.evaluate
  rw [hr]
  exact ⟨_, rfl, clamp1_sample r⟩

/-- A channel with a vectorial, a transient and a curve band. -/
def demoChannel : Channel :=
  { bands := [
      { bandType := BandType.VectorialWave, upperFrequencyLimit := 1000, effects := [buzz] },
      { bandType := BandType.Transient, upperFrequencyLimit := 1000, effects := [click] },
      { bandType := BandType.Curve, upperFrequencyLimit := 1000, effects := [rampEffect] }] }

example : Playable 1000 demoChannel where
  scale := by decide
  limits := by simp [demoChannel]
  placed := by simp [demoChannel, buzz, click, rampEffect]
  loud := by simp [demoChannel, buzz, click, rampEffect]

/-- An amplitude without a position, then one at the start. -/
def unplaced : Effect := { keyframes := [⟨none, some 1, none⟩, ⟨some 0, some 1, none⟩, ⟨some 10, some 1, none⟩] }

/-- C32 is false of the code: a channel with a keyframe that has an amplitude but no position, which the
file formats allow, is rendered as NaN, which the clamp lets through. -/
theorem c32_negation (samples : Effect → List ℝ) :
    ({ bands := [{ bandType := BandType.VectorialWave, upperFrequencyLimit := 1000, effects := [unplaced] }] } :
      Channel).evaluate samples 0 1000 = .ok none := by
  have e1 : ∀ d, unplaced.timeLength BandType.VectorialWave d = .ok 10 := by
    intro d; simp [unplaced, Effect.timeLength]
  have e2 : amplitudeModulationAt unplaced.keyframes 0 = none := by
    norm_num [unplaced, amplitudeModulationAt, linearInterpolation, fdiv]
  have e3 : unplaced.evaluateVectorial 0 0 1000 1000 = .ok none := by
    unfold Effect.evaluateVectorial
    rw [e1]
    norm_num [unplaced, frequencyLoop] at e2 ⊢
    rw [e2]
    rfl
  have e4 : Band.evaluate samples
      { bandType := BandType.VectorialWave, upperFrequencyLimit := 1000, effects := [unplaced] } 0 0 1000 1000
      = .ok none := by
    unfold Band.evaluate
    simp only [List.getLast?_singleton, List.reverse_singleton, e1]
    norm_num [unplaced]
    exact e3
  unfold Channel.evaluate sumBands
  simp only [e4]
  rfl

/-! ### `EvaluateChannel` -/

theorem mem_zipWith {α β γ : Type} (f : α → β → γ) (a : List α) (b : List β) (x : γ)
    (h : x ∈ List.zipWith f a b) : ∃ p ∈ a.zip b, x = f p.1 p.2 := by
  induction a generalizing b with
  | nil => simp at h
  | cons a as ih =>
    cases b with
    | nil => simp at h
    | cons b bs =>
      rcases List.mem_cons.mp h with rfl | h
      · exact ⟨(a, b), by simp, rfl⟩
      · obtain ⟨p, hp, hx⟩ := ih bs h
        exact ⟨p, by simp [hp], hx⟩

theorem mixBand_length (x y : List (Option ℝ)) (h : x.length = y.length) : (mixBand x y).length = x.length := by
  simp [mixBand, h]

theorem mapE_length {α β : Type} (f : α → Except Err β) (l : List α) (r : List β) (h : mapE f l = .ok r) :
    r.length = l.length := by
  induction l generalizing r with
  | nil => cases h; rfl
  | cons a l ih =>
    unfold mapE at h
    split at h
    · cases h
    · split at h
      · cases h
      · rename_i b _ r' hr'
        cases h
        simp [ih r' hr']

theorem mapE_mem {α β : Type} (f : α → Except Err β) (l : List α) (r : List β) (h : mapE f l = .ok r)
    (b : β) (hb : b ∈ r) : ∃ a ∈ l, f a = .ok b := by
  induction l generalizing r with
  | nil => cases h; cases hb
  | cons a l ih =>
    unfold mapE at h
    split at h
    · cases h
    · rename_i b' hb'
      split at h
      · cases h
      · rename_i r' hr'
        cases h
        rcases List.mem_cons.mp hb with rfl | hb
        · exact ⟨a, List.mem_cons_self, hb'⟩
        · obtain ⟨a', ha', h'⟩ := ih r' hr' hb
          exact ⟨a', List.mem_cons_of_mem _ ha', h'⟩

theorem mapE_total {α β : Type} (f : α → Except Err β) (l : List α) (h : ∀ a ∈ l, ∃ b, f a = .ok b) :
    ∃ r, mapE f l = .ok r := by
  induction l with
  | nil => exact ⟨[], rfl⟩
  | cons a l ih =>
    obtain ⟨b, hb⟩ := h a List.mem_cons_self
    obtain ⟨r, hr⟩ := ih (fun x hx => h x (List.mem_cons_of_mem _ hx))
    exact ⟨b :: r, by simp [mapE, hb, hr]⟩

theorem addCurveEffect_length (other : Nat → List (Int × ℝ) → Except Err (List (Option ℝ))) (ct : Nat)
    (fs pad : Int) (ts : Nat) (amp r : List (Option ℝ)) (e : Effect)
    (h : addCurveEffect other ct fs pad ts amp e = .ok r) : r.length = amp.length := by
  unfold addCurveEffect at h
  split at h
  · cases h
  · dsimp only at h
    split at h
    · split at h
      · cases h
      · cases h; rfl
    · split at h
      · cases h
      · unfold addCurve at h
        dsimp only at h
        split at h
        · cases h
        · cases h; simp

theorem foldE_length {α β : Type} (f : List β → α → Except Err (List β))
    (hf : ∀ s a s', f s a = .ok s' → s'.length = s.length) (l : List α) (s s' : List β)
    (h : foldE f s l = .ok s') : s'.length = s.length := by
  induction l generalizing s with
  | nil => cases h; rfl
  | cons a l ih =>
    unfold foldE at h
    split at h
    · cases h
    · rename_i s1 h1
      rw [ih s1 h, hf s a s1 h1]

theorem evaluationBand_length (samples : Effect → List ℝ)
    (other : Nat → List (Int × ℝ) → Except Err (List (Option ℝ))) (b : Band) (n : Nat) (fs pad : Int)
    (ts : Nat) (r : List (Option ℝ)) (h : b.evaluationBand samples other n fs pad ts = .ok r) :
    r.length = n := by
  unfold Band.evaluationBand at h
  split at h
  · rw [foldE_length _ (fun s a s' h => addCurveEffect_length _ _ _ _ _ _ _ _ h) _ _ _ h]; simp
  · rw [mapE_length _ _ _ h]; simp

theorem mixBands_spec (samples : Effect → List ℝ)
    (other : Nat → List (Int × ℝ) → Except Err (List (Option ℝ))) (n : Nat) (fs pad : Int) (ts : Nat)
    (l : List Band) (amp r : List (Option ℝ)) (hn : amp.length = n)
    (ha : ∀ x ∈ amp, x = none ∨ Sample x) (h : mixBands samples other n fs pad ts amp l = .ok r) :
    r.length = n ∧ ∀ x ∈ r, x = none ∨ Sample x := by
  induction l generalizing amp with
  | nil => cases h; exact ⟨hn, ha⟩
  | cons b l ih =>
    unfold mixBands at h
    split at h
    · cases h
    · rename_i v hv
      have hlen := evaluationBand_length _ _ _ _ _ _ _ _ hv
      refine ih (mixBand amp v) ?_ ?_ h
      · rw [mixBand_length _ _ (by omega), hn]
      · intro x hx
        unfold mixBand at hx
        obtain ⟨p, -, hp⟩ := mem_zipWith _ _ _ _ hx
        rcases hs : fadd p.1 p.2 with _ | y
        · left; rw [hp, hs]; rfl
        · right; rw [hp, hs]; exact clamp1_sample y

/-- C32 for `EvaluateChannel`: one sample per sampling instant, each a number of [-1, 1] or NaN. -/
theorem c32_evaluateChannel_partial (samples : Effect → List ℝ)
    (other : Nat → List (Int × ℝ) → Except Err (List (Option ℝ))) (c : Channel) (n : Nat) (fs pad : Int)
    (timescale : Nat) (r : List (Option ℝ))
    (h : c.evaluateChannel samples other n fs pad timescale = .ok r) :
    r.length = n ∧ ∀ x ∈ r, x = none ∨ Sample x := by
  refine mixBands_spec samples other n fs pad timescale c.bands _ r (by simp) ?_ h
  intro x hx
  rw [List.eq_of_mem_replicate hx]
  exact Or.inr ⟨0, rfl, by norm_num, by norm_num⟩

theorem sumEffects_total (samples : Effect → List ℝ) (b : Band) (position : ℝ) (timescale : Nat)
    (ht : timescale ≠ 0) (h0 : 0 ≤ b.upperFrequencyLimit)
    (hl : b.lowerFrequencyLimit ≤ b.upperFrequencyLimit) (l : List Effect)
    (hp : ∀ e ∈ l, ∀ k ∈ e.keyframes, k.relativePosition.isSome)
    (ha : b.bandType = BandType.Transient → ∀ e ∈ l, ∀ k ∈ e.keyframes, k.amplitudeModulation.isSome)
    (acc : ℝ) : ∃ r, sumEffects samples b position timescale (some acc) l = .ok (some r) := by
  induction l generalizing acc with
  | nil => exact ⟨acc, rfl⟩
  | cons e l ih =>
    have ih' := ih (fun x hx => hp x (List.mem_cons_of_mem _ hx))
      (fun t x hx => ha t x (List.mem_cons_of_mem _ hx))
    unfold sumEffects
    split
    · rename_i hpos
      obtain ⟨r, hr⟩ := evaluationSwitch_total samples b position e timescale ht h0 _ _ hl
        (hp e List.mem_cons_self) (fun t => ha t e List.mem_cons_self) hpos
      rw [hr]
      exact ih' (acc + r)
    · exact ih' acc

theorem evaluationBand_total (samples : Effect → List ℝ)
    (other : Nat → List (Int × ℝ) → Except Err (List (Option ℝ))) (c : Channel) (n : Nat) (fs pad : Int)
    (timescale : Nat) (hc : Playable timescale c) (b : Band) (hb : b ∈ c.bands)
    (hcv : b.bandType ≠ BandType.Curve) (hne : b.effects ≠ []) :
    ∃ r, b.evaluationBand samples other n fs pad timescale = .ok r ∧ ∀ x ∈ r, x ≠ none := by
  have key : ∀ ti, ∃ y, b.evaluationSample samples fs pad timescale ti = .ok (some y) := by
    intro ti
    unfold Band.evaluationSample
    split
    · rename_i h
      exact absurd (List.getLast?_eq_none_iff.mp h) hne
    · rename_i last hlast
      obtain ⟨len, hlen⟩ := timeLength_total last b.bandType (transientDuration timescale)
        (hc.placed b hb last (List.mem_of_getLast? hlast))
      rw [hlen]
      exact sumEffects_total samples b _ timescale hc.scale (hc.limits b hb).1 (hc.limits b hb).2 _
        (fun e he => hc.placed b hb e (List.mem_reverse.mp he))
        (fun t e he => hc.loud b hb t e (List.mem_reverse.mp he)) 0
  unfold Band.evaluationBand
  rw [if_neg hcv]
  obtain ⟨r, hr⟩ := mapE_total (b.evaluationSample samples fs pad timescale) (List.range n)
    (fun a _ => ⟨_, (key a).choose_spec⟩)
  refine ⟨r, hr, ?_⟩
  intro x hx
  obtain ⟨a, -, ha⟩ := mapE_mem _ _ _ hr x hx
  obtain ⟨y, hy⟩ := key a
  rw [hy] at ha
  cases ha
  simp

theorem mixBands_total (samples : Effect → List ℝ)
    (other : Nat → List (Int × ℝ) → Except Err (List (Option ℝ))) (c : Channel) (n : Nat) (fs pad : Int)
    (timescale : Nat) (hc : Playable timescale c)
    (hb : ∀ b ∈ c.bands, b.bandType ≠ BandType.Curve ∧ b.effects ≠ []) (l : List Band)
    (hl : ∀ b ∈ l, b ∈ c.bands) (amp : List (Option ℝ)) (ha : ∀ x ∈ amp, x ≠ none) :
    ∃ r, mixBands samples other n fs pad timescale amp l = .ok r ∧ ∀ x ∈ r, x ≠ none := by
  induction l generalizing amp with
  | nil => exact ⟨amp, rfl, ha⟩
  | cons b l ih =>
    obtain ⟨v, hv, hvn⟩ := evaluationBand_total samples other c n fs pad timescale hc b
      (hl b List.mem_cons_self) (hb b (hl b List.mem_cons_self)).1 (hb b (hl b List.mem_cons_self)).2
    unfold mixBands
    rw [hv]
    apply ih (fun x hx => hl x (List.mem_cons_of_mem _ hx))
    intro x hx
    unfold mixBand at hx
    obtain ⟨p, hp, rfl⟩ := mem_zipWith _ _ _ _ hx
    obtain ⟨a, ha'⟩ := Option.ne_none_iff_exists'.mp (ha p.1 (List.of_mem_zip hp).1)
    obtain ⟨y, hy'⟩ := Option.ne_none_iff_exists'.mp (hvn p.2 (List.of_mem_zip hp).2)
    simp [ha', hy', fadd, clamp1]

/-- C32 for `EvaluateChannel`, for playable channels without curve bands or empty bands: all samples are
delivered and all are numbers of [-1, 1]. -/
theorem c32_evaluateChannel (samples : Effect → List ℝ)
    (other : Nat → List (Int × ℝ) → Except Err (List (Option ℝ))) (c : Channel) (n : Nat) (fs pad : Int)
    (timescale : Nat) (hc : Playable timescale c)
    (hb : ∀ b ∈ c.bands, b.bandType ≠ BandType.Curve ∧ b.effects ≠ []) :
    ∃ r, c.evaluateChannel samples other n fs pad timescale = .ok r ∧ r.length = n ∧ ∀ x ∈ r, Sample x := by
  obtain ⟨r, hr, hn⟩ := mixBands_total samples other c n fs pad timescale hc hb c.bands (fun _ h => h)
    (List.replicate n (some 0)) (fun x hx => by rw [List.eq_of_mem_replicate hx]; simp)
  have h := c32_evaluateChannel_partial samples other c n fs pad timescale r hr
  exact ⟨r, hr, h.1, fun x hx => (h.2 x hx).resolve_left (hn x hx)⟩

example : Playable 1000 { bands := demoChannel.bands.take 2 } ∧
    ∀ b ∈ demoChannel.bands.take 2, b.bandType ≠ BandType.Curve ∧ b.effects ≠ [] := by
  refine ⟨⟨by decide, ?_, ?_, ?_⟩, ?_⟩ <;> simp [demoChannel, buzz, click]

/-- A band without effects makes `EvaluateChannel` step before the beginning of the effects. -/
theorem c32_empty_band_negation (samples : Effect → List ℝ)
    (other : Nat → List (Int × ℝ) → Except Err (List (Option ℝ))) (n : Nat) (fs pad : Int) (timescale : Nat) :
    ({ bands := [{}] } : Channel).evaluateChannel samples other (n + 1) fs pad timescale = .error .ub := by
  have : ∀ l : List Nat, l ≠ [] → mapE (Band.evaluationSample samples {} fs pad timescale) l = .error .ub := by
    intro l hl
    cases l with
    | nil => exact absurd rfl hl
    | cons a l => rfl
  unfold Channel.evaluateChannel mixBands Band.evaluationBand
  rw [if_neg (by decide), this _ (by simp)]

end Haptics
