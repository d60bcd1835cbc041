import Verif.Eval.SpecChirp
import Verif.Eval.PropsRender

/-
Vibrations follow the frequencies and amplitudes of their keyframes.
-/
namespace Haptics

noncomputable section

/-! ## The amplitude -/

/-- Position of a keyframe. -/
def tm (k : Keyframe) : ℤ := k.relativePosition.getD 0

theorem linear_line (t t' : ℤ) (a a' x : ℝ) (h : t < t') (h0 : (t : ℝ) < x) (h1 : x ≤ t') :
    linearInterpolation (t, a) (t', a') x = some (a + (a' - a) * (x - t) / (t' - t)) := by
  have ht : (t : ℝ) < t' := by exact_mod_cast h
  unfold linearInterpolation
  rw [if_neg (by simpa using h0.le), if_neg (by simpa using h1), if_neg (by simpa using h)]
  rw [fdiv_of_ne (by dsimp only; linarith)]
  congr 1
  field_simp [show (t' : ℝ) - t ≠ 0 by linarith]
  ring

/-- The scan of `amplitudeModulationAt` after the keyframes `pre`, the last of which with an amplitude is
at `(t, a)`. -/
theorem amplitude_scan (x : ℝ) (stop : Keyframe → Bool)
    (hstop : stop = fun k => match k.relativePosition, k.amplitudeModulation with
      | some p, some _ => decide ((p : ℝ) ≥ x)
      | _, _ => false) (ks pre : List Keyframe) (b : Keyframe) (t : ℤ) (a : ℚ)
    (hb : pre.reverse.find? (·.amplitudeModulation.isSome) = some b)
    (hbt : b.relativePosition = some t) (hba : b.amplitudeModulation = some a) (htx : (t : ℝ) < x)
    (hp : ∀ k ∈ ks, ∃ p : ℤ, k.relativePosition = some p)
    (hord : (b :: ks).Pairwise (fun k k' => tm k < tm k')) :
    (match ks.dropWhile (fun k => !stop k) with
    | after :: _ => match (pre ++ ks.takeWhile (fun k => !stop k)).reverse.find?
          (·.amplitudeModulation.isSome) with
      | none => some ((after.amplitudeModulation.getD 0 : ℚ) : ℝ)
      | some b => linearInterpolation (b.relativePosition.getD 0, ((b.amplitudeModulation.getD 0 : ℚ) : ℝ))
          (after.relativePosition.getD 0, ((after.amplitudeModulation.getD 0 : ℚ) : ℝ)) x
    | [] => match (pre ++ ks).reverse.find? (·.amplitudeModulation.isSome) with
      | some k => some ((k.amplitudeModulation.getD 0 : ℚ) : ℝ)
      | none => some 1) = some (lineFrom t a (ks.filterMap amplitudePoint) x) := by
  induction ks generalizing pre b t a with
  | nil => simp [hb, hba, lineFrom]
  | cons k ks ih =>
    obtain ⟨p, hkp⟩ := hp k List.mem_cons_self
    obtain ⟨hbk, hks⟩ := List.pairwise_cons.mp hord
    obtain ⟨hkk, hkks⟩ := List.pairwise_cons.mp hks
    have hlt : t < p := by
      have := hbk k List.mem_cons_self
      simpa [tm, hbt, hkp] using this
    rcases hka : k.amplitudeModulation with _ | a'
    · have hs : stop k = false := by simp [hstop, hka]
      rw [List.dropWhile_cons_of_pos (by simp [hs]), List.takeWhile_cons_of_pos (by simp [hs]),
        List.filterMap_cons_none (by simp [amplitudePoint, hka, hkp])]
      have := ih (pre ++ [k]) b t a (by simp [hka, hb]) hbt hba htx
        (fun k' h => hp k' (List.mem_cons_of_mem _ h))
        (List.pairwise_cons.mpr ⟨fun k' h => hbk k' (List.mem_cons_of_mem _ h), hkks⟩)
      simpa only [List.append_assoc, List.singleton_append] using this
    · rw [List.filterMap_cons_some (b := (p, (a' : ℝ))) (by simp [amplitudePoint, hka, hkp])]
      by_cases hx : x ≤ p
      · have hs : stop k = true := by simp [hstop, hka, hkp, hx]
        rw [List.dropWhile_cons_of_neg (by simp [hs]), List.takeWhile_cons_of_neg (by simp [hs])]
        simp only [List.append_nil, hb, hbt, hba, hka, hkp, Option.getD_some, lineFrom, if_pos hx]
        exact linear_line t p a a' x hlt htx hx
      · have hs : stop k = false := by simp [hstop, hka, hkp, hx]
        rw [List.dropWhile_cons_of_pos (by simp [hs]), List.takeWhile_cons_of_pos (by simp [hs])]
        have := ih (pre ++ [k]) k p a' (by simp [hka]) hkp hka (by linarith)
          (fun k' h => hp k' (List.mem_cons_of_mem _ h)) hks
        simp only [lineFrom, if_neg hx]
        simpa only [List.append_assoc, List.singleton_append] using this

/-- Before any keyframe with an amplitude. -/
theorem amplitude_scan0 (x : ℝ) (stop : Keyframe → Bool)
    (hstop : stop = fun k => match k.relativePosition, k.amplitudeModulation with
      | some p, some _ => decide ((p : ℝ) ≥ x)
      | _, _ => false) (ks pre : List Keyframe)
    (hb : pre.reverse.find? (·.amplitudeModulation.isSome) = none)
    (hp : ∀ k ∈ ks, ∃ p : ℤ, k.relativePosition = some p)
    (hord : ks.Pairwise (fun k k' => tm k < tm k')) :
    (match ks.dropWhile (fun k => !stop k) with
    | after :: _ => match (pre ++ ks.takeWhile (fun k => !stop k)).reverse.find?
          (·.amplitudeModulation.isSome) with
      | none => some ((after.amplitudeModulation.getD 0 : ℚ) : ℝ)
      | some b => linearInterpolation (b.relativePosition.getD 0, ((b.amplitudeModulation.getD 0 : ℚ) : ℝ))
          (after.relativePosition.getD 0, ((after.amplitudeModulation.getD 0 : ℚ) : ℝ)) x
    | [] => match (pre ++ ks).reverse.find? (·.amplitudeModulation.isSome) with
      | some k => some ((k.amplitudeModulation.getD 0 : ℚ) : ℝ)
      | none => some 1) = some (lineAt (ks.filterMap amplitudePoint) x) := by
  induction ks generalizing pre with
  | nil => simp [hb, lineAt]
  | cons k ks ih =>
    obtain ⟨p, hkp⟩ := hp k List.mem_cons_self
    obtain ⟨hkk, hkks⟩ := List.pairwise_cons.mp hord
    rcases hka : k.amplitudeModulation with _ | a'
    · have hs : stop k = false := by simp [hstop, hka]
      rw [List.dropWhile_cons_of_pos (by simp [hs]), List.takeWhile_cons_of_pos (by simp [hs]),
        List.filterMap_cons_none (by simp [amplitudePoint, hka, hkp])]
      have := ih (pre ++ [k]) (by simp [hka]; simpa using hb)
        (fun k' h => hp k' (List.mem_cons_of_mem _ h)) hkks
      simpa only [List.append_assoc, List.singleton_append] using this
    · rw [List.filterMap_cons_some (b := (p, (a' : ℝ))) (by simp [amplitudePoint, hka, hkp])]
      by_cases hx : x ≤ p
      · have hs : stop k = true := by simp [hstop, hka, hkp, hx]
        rw [List.dropWhile_cons_of_neg (by simp [hs]), List.takeWhile_cons_of_neg (by simp [hs])]
        simp only [List.append_nil, hb, hka, Option.getD_some, lineAt, if_pos hx]
      · have hs : stop k = false := by simp [hstop, hka, hkp, hx]
        rw [List.dropWhile_cons_of_pos (by simp [hs]), List.takeWhile_cons_of_pos (by simp [hs])]
        have := amplitude_scan x stop hstop ks (pre ++ [k]) k p a' (by simp [hka]) hkp hka (by linarith)
          (fun k' h => hp k' (List.mem_cons_of_mem _ h)) hord
        simp only [lineAt, if_neg hx]
        simpa only [List.append_assoc, List.singleton_append] using this

/-- C63, amplitude: the amplitude of a vibration is the line through its amplitude keyframes. -/
theorem c63_amplitude (e : Effect) (h : Timed e) (x : ℝ) :
    amplitudeModulationAt e.keyframes x = some (lineAt (amplitudePoints e) x) := by
  have := amplitude_scan0 x _ rfl e.keyframes [] rfl
    (fun k hk => (h.1 k hk).imp fun _ hp => hp.1) h.2
  simp only [List.nil_append] at this
  exact this

/-! ## The frequency -/

theorem frequency_scan (x : ℝ) (ks : List Keyframe) (b : Keyframe) (t f : ℤ) (phi : ℝ)
    (hbt : b.relativePosition = some t) (hbf : b.frequencyModulation = some f) (htx : (t : ℝ) < x)
    (hp : ∀ k ∈ ks, ∃ p : ℤ, k.relativePosition = some p)
    (hord : (b :: ks).Pairwise (fun k k' => tm k < tm k'))
    (hlast : ∃ p ∈ ks.filterMap frequencyPoint, x ≤ p.1) :
    ∃ (phi' : ℝ) (b' k : Keyframe) (t1 t2 f1 f2 : ℤ),
      frequencyLoop x (some b) phi ks = (phi', some (some b', k)) ∧
      b' ∈ b :: ks ∧ k ∈ b :: ks ∧
      b'.relativePosition = some t1 ∧ b'.frequencyModulation = some f1 ∧
      k.relativePosition = some t2 ∧ k.frequencyModulation = some f2 ∧
      t1 < t2 ∧ (t1 : ℝ) < x ∧ x ≤ t2 ∧
      phi' + 2 * Real.pi * ((x - t1) * (f1 + (f1 + (f2 - f1) * (x - t1) / (t2 - t1))) / 2) / 1000
        = phi + 2 * Real.pi * areaFrom t f (ks.filterMap frequencyPoint) x / 1000 := by
  induction ks generalizing b t f phi with
  | nil => simp at hlast
  | cons k ks ih =>
    obtain ⟨p, hkp⟩ := hp k List.mem_cons_self
    obtain ⟨hbk, hks⟩ := List.pairwise_cons.mp hord
    obtain ⟨hkk, hkks⟩ := List.pairwise_cons.mp hks
    have hlt : t < p := by
      have := hbk k List.mem_cons_self
      simpa [tm, hbt, hkp] using this
    rcases hkf : k.frequencyModulation with _ | f'
    · have hn : frequencyPoint k = none := by simp [frequencyPoint, hkf, hkp]
      rw [List.filterMap_cons_none hn] at hlast ⊢
      obtain ⟨phi', b', k', t1, t2, f1, f2, h1, hm1, hm2, h2⟩ := ih b t f phi hbt hbf htx
        (fun k' h => hp k' (List.mem_cons_of_mem _ h))
        (List.pairwise_cons.mpr ⟨fun k' h => hbk k' (List.mem_cons_of_mem _ h), hkks⟩) hlast
      refine ⟨phi', b', k', t1, t2, f1, f2, ?_, ?_, ?_, h2⟩
      · simp only [frequencyLoop, hkf]; exact h1
      · simp only [List.mem_cons] at hm1 ⊢; tauto
      · simp only [List.mem_cons] at hm2 ⊢; tauto
    · have hn : frequencyPoint k = some (p, (f' : ℝ)) := by simp [frequencyPoint, hkf, hkp]
      rw [List.filterMap_cons_some hn] at hlast ⊢
      by_cases hx : x ≤ p
      · refine ⟨phi, b, k, t, p, f, f', ?_, by simp, by simp, hbt, hbf, hkp, hkf, hlt, htx, hx, ?_⟩
        · simp [frequencyLoop, hkf, hkp, hx]
        · simp only [areaFrom, if_pos hx]
      · have hlast' : ∃ q ∈ ks.filterMap frequencyPoint, x ≤ q.1 := by
          obtain ⟨q, hq, hxq⟩ := hlast
          rcases List.mem_cons.mp hq with rfl | hq
          · exact absurd hxq hx
          · exact ⟨q, hq, hxq⟩
        obtain ⟨phi', b', k', t1, t2, f1, f2, h1, hm1, hm2, a1, a2, a3, a4, a5, a6, a7, h2⟩ :=
          ih k p f' (phi + Real.pi * ((p - t : ℤ) : ℝ) * 0.001 * ((f + f' : ℤ) : ℝ)) hkp hkf
          (by linarith) (fun k' h => hp k' (List.mem_cons_of_mem _ h)) hks hlast'
        refine ⟨phi', b', k', t1, t2, f1, f2, ?_, ?_, ?_, a1, a2, a3, a4, a5, a6, a7, ?_⟩
        · simp only [frequencyLoop, hkf, hkp, hbt, hbf, Option.getD_some, ge_iff_le, if_neg hx]
          exact h1
        · simp only [List.mem_cons] at hm1 ⊢; tauto
        · simp only [List.mem_cons] at hm2 ⊢; tauto
        · rw [h2]
          simp only [areaFrom, if_neg hx]
          push_cast
          ring

/-- Before any keyframe with a frequency. -/
theorem frequency_scan0 (x : ℝ) (hx0 : 0 ≤ x) (ks : List Keyframe) (phi : ℝ)
    (hp : ∀ k ∈ ks, ∃ p : ℤ, k.relativePosition = some p ∧ 0 ≤ p)
    (hord : ks.Pairwise (fun k k' => tm k < tm k'))
    (hlast : ∃ p ∈ ks.filterMap frequencyPoint, x ≤ p.1) :
    (∃ (k : Keyframe) (f : ℤ), frequencyLoop x none phi ks = (phi, some (none, k)) ∧ k ∈ ks ∧
      k.frequencyModulation = some f ∧ areaTo (ks.filterMap frequencyPoint) x = x * f) ∨
    ∃ (phi' : ℝ) (b' k : Keyframe) (t1 t2 f1 f2 : ℤ),
      frequencyLoop x none phi ks = (phi', some (some b', k)) ∧
      b' ∈ ks ∧ k ∈ ks ∧
      b'.relativePosition = some t1 ∧ b'.frequencyModulation = some f1 ∧
      k.relativePosition = some t2 ∧ k.frequencyModulation = some f2 ∧
      t1 < t2 ∧ (t1 : ℝ) < x ∧ x ≤ t2 ∧
      phi' + 2 * Real.pi * ((x - t1) * (f1 + (f1 + (f2 - f1) * (x - t1) / (t2 - t1))) / 2) / 1000
        = phi + 2 * Real.pi * areaTo (ks.filterMap frequencyPoint) x / 1000 := by
  induction ks with
  | nil => simp at hlast
  | cons k ks ih =>
    obtain ⟨p, hkp, hp0⟩ := hp k List.mem_cons_self
    obtain ⟨hkk, hkks⟩ := List.pairwise_cons.mp hord
    rcases hkf : k.frequencyModulation with _ | f'
    · have hn : frequencyPoint k = none := by simp [frequencyPoint, hkf, hkp]
      rw [List.filterMap_cons_none hn] at hlast ⊢
      rcases ih (fun k' h => hp k' (List.mem_cons_of_mem _ h)) hkks hlast with
        ⟨k', f, h1, hm, h2⟩ | ⟨phi', b', k', t1, t2, f1, f2, h1, hm1, hm2, h2⟩
      · exact .inl ⟨k', f, by simp only [frequencyLoop, hkf]; exact h1, List.mem_cons_of_mem _ hm, h2⟩
      · exact .inr ⟨phi', b', k', t1, t2, f1, f2, by simp only [frequencyLoop, hkf]; exact h1,
          List.mem_cons_of_mem _ hm1, List.mem_cons_of_mem _ hm2, h2⟩
    · have hn : frequencyPoint k = some (p, (f' : ℝ)) := by simp [frequencyPoint, hkf, hkp]
      rw [List.filterMap_cons_some hn] at hlast ⊢
      by_cases hx : x ≤ p
      · exact .inl ⟨k, f', by simp [frequencyLoop, hkf, hkp, hx], List.mem_cons_self, hkf,
          by simp [areaTo, hx]⟩
      · have hlast' : ∃ q ∈ ks.filterMap frequencyPoint, x ≤ q.1 := by
          obtain ⟨q, hq, hxq⟩ := hlast
          rcases List.mem_cons.mp hq with rfl | hq
          · exact absurd hxq hx
          · exact ⟨q, hq, hxq⟩
        obtain ⟨phi', b', k', t1, t2, f1, f2, h1, hm1, hm2, a1, a2, a3, a4, a5, a6, a7, h2⟩ :=
          frequency_scan x ks k p f' (phi + 2 * Real.pi * p * 0.001 * f') hkp hkf
          (by linarith) (fun k' h => (hp k' (List.mem_cons_of_mem _ h)).imp fun _ h => h.1) hord hlast'
        refine .inr ⟨phi', b', k', t1, t2, f1, f2, ?_, hm1, hm2, a1, a2, a3, a4, a5, a6, a7, ?_⟩
        · simp only [frequencyLoop, hkf, hkp, Option.getD_some, ge_iff_le, if_neg hx]
          by_cases hp1 : p > 0
          · rw [if_pos hp1]; exact h1
          · have : p = 0 := by omega
            subst this
            rw [if_neg hp1]
            simpa using h1
        · rw [h2]
          simp only [areaTo, if_neg hx]
          push_cast
          ring

/-! ## The signal -/

theorem cround_abs (x : ℝ) : |cround x - x| = |x - round x| := by
  obtain ⟨z, hz⟩ := cround_int x
  have h1 := cround_dist x
  rw [hz] at h1 ⊢
  have h2 := abs_sub_round x
  rw [abs_sub_comm] at h2
  have := nearest_dist_unique h1 h2
  rw [this, abs_sub_comm x]

theorem cround_fract (c : ℝ) :
    1 - 2 * cround (c - ⌊c⌋) = if Int.fract c < 1 / 2 then 1 else -1 := by
  have h0 := Int.fract_nonneg c
  have h1 := Int.fract_lt_one c
  change 1 - 2 * cround (Int.fract c) = _
  unfold cround
  rw [if_pos h0]
  split
  · have : ⌊Int.fract c + 1 / 2⌋ = 0 := by rw [Int.floor_eq_iff]; constructor <;> push_cast <;> linarith
    rw [this]; norm_num
  · have : ⌊Int.fract c + 1 / 2⌋ = 1 := by rw [Int.floor_eq_iff]; constructor <;> push_cast <;> linarith
    rw [this]; norm_num

/-- C63: the base signals have their shapes, and the phase is added to the number of cycles. -/
theorem c63_waveform (e : Effect) (time frequency phase : ℝ) (h : frequency ≠ 0) :
    e.computeBaseSignal time frequency phase
      = waveform e.baseSignalOrDefault (time * frequency + phase / (2 * Real.pi)) := by
  have hc : (time + phase / (2 * Real.pi * frequency)) * frequency
      = time * frequency + phase / (2 * Real.pi) := by
    have := Real.pi_ne_zero
    field_simp
  unfold Effect.computeBaseSignal
  rw [if_pos h]
  dsimp only
  rw [show 2 * Real.pi * (time + phase / (2 * Real.pi * frequency)) * frequency
    = 2 * Real.pi * ((time + phase / (2 * Real.pi * frequency)) * frequency) by ring, hc]
  generalize time * frequency + phase / (2 * Real.pi) = c
  generalize e.baseSignalOrDefault = n
  unfold waveform
  split
  · rfl
  · exact cround_fract c
  · exact congrArg (fun y => 1 - 4 * y) (cround_abs _)
  · simp only [round_eq]
  · simp only [round_eq]
  · split
    all_goals first | rfl | simp_all

/-- C63, when the timescale is 1000 ticks per second, the frequencies lie within the limits of the band and
the effect has a frequency keyframe at or after the time in question (the full property asks for any
timescale and any keyframes: see `c63_timescale_negation` and `c63_tail_negation`): at every time of the
effect, the signal is the line through the amplitudes times the base signal after as many cycles as the
area under the line through the frequencies. -/
theorem c63_partial (e : Effect) (low high : ℤ) (ht : Timed e) (hb : InBand e low high) (x : ℝ)
    (h0 : 0 ≤ x) (hlast : ∃ p ∈ frequencyPoints e, x ≤ p.1) :
    e.evaluateVectorial (e.position + x) low high 1000 = .ok (some (lineAt (amplitudePoints e) x
      * waveform e.baseSignalOrDefault
        ((e.phaseOrDefault : ℝ) / (2 * Real.pi) + areaTo (frequencyPoints e) x / 1000))) := by
  have hpi := Real.pi_ne_zero
  obtain ⟨q, hq, hxq⟩ := hlast
  have hne : e.keyframes ≠ [] := by
    intro h
    simp [frequencyPoints, h] at hq
  -- the effect lasts at least until the last frequency
  obtain ⟨len, hlen, hql⟩ : ∃ len : ℚ, e.timeLength BandType.VectorialWave 0 = .ok len ∧ x ≤ len := by
    unfold Effect.timeLength
    rw [if_neg (by simpa using hne), if_pos (by simp)]
    obtain ⟨init, last, hil⟩ : ∃ init last, e.keyframes = init ++ [last] :=
      ⟨_, _, (List.dropLast_append_getLast hne).symm⟩
    obtain ⟨p, hp, hp0⟩ := ht.1 last (by rw [hil]; simp)
    have hg : (e.keyframes.filterMap Keyframe.relativePosition).getLast? = some p := by
      rw [hil, List.filterMap_append]
      simp [hp]
    rw [hg]
    refine ⟨p, by simp [BandType.VectorialWave, BandType.Transient], ?_⟩
    obtain ⟨k, hk, hkq⟩ := List.mem_filterMap.mp hq
    have hkp : k.relativePosition = some q.1 := by
      unfold frequencyPoint at hkq
      split at hkq
      · cases hkq; assumption
      · cases hkq
    have : q.1 ≤ p := by
      rw [hil] at hk
      rcases List.mem_append.mp hk with hk | hk
      · have := ht.2
        rw [hil, List.pairwise_append] at this
        have := this.2.2 k hk last (by simp)
        simp only [hkp, hp, Option.getD_some] at this
        omega
      · have : k = last := by simpa using hk
        subst this
        rw [hkp] at hp; cases hp; omega
    have : (q.1 : ℝ) ≤ p := by exact_mod_cast this
    push_cast
    linarith
  have hfreq : ∀ k ∈ e.keyframes, ∀ f : ℤ, k.frequencyModulation = some f →
      0 < (f : ℝ) ∧ (low : ℝ) ≤ f ∧ (f : ℝ) ≤ high := by
    intro k hk f hf
    obtain ⟨p, hp, -⟩ := ht.1 k hk
    exact hb (p, (f : ℝ)) (List.mem_filterMap.mpr ⟨k, hk, by simp [frequencyPoint, hp, hf]⟩)
  unfold Effect.evaluateVectorial
  rw [hlen]
  dsimp only
  rw [if_neg (by push Not; exact ⟨by linarith, by linarith, hne⟩)]
  rw [show (e.position : ℝ) + x - e.position = x by ring, c63_amplitude e ht x]
  rcases frequency_scan0 x h0 e.keyframes (e.phaseOrDefault : ℝ) ht.1 ht.2 ⟨q, hq, hxq⟩ with
    ⟨k, f, h1, hm, hf, ha⟩ |
    ⟨phi', b', k, t1, t2, f1, f2, h1, hm1, hm2, hbt, hbf, hkt, hkf, hlt, htx, hxt, hphi⟩
  · rw [h1]
    dsimp only
    rw [fdiv_of_ne (by norm_num), hf]
    simp only [Option.getD_some]
    change Except.ok (some _) = _
    rw [c63_waveform _ _ _ _ (hfreq k hm f hf).1.ne']
    have ha' : areaTo (frequencyPoints e) x = x * f := ha
    rw [ha']
    congr 4
    push_cast
    ring
  · obtain ⟨p1, l1, u1⟩ := hfreq b' hm1 f1 hbf
    obtain ⟨p2, l2, u2⟩ := hfreq k hm2 f2 hkf
    have hlt' : (t1 : ℝ) < t2 := by exact_mod_cast hlt
    have hlh : ¬ high < low := by
      have : (low : ℝ) ≤ high := by linarith
      have : low ≤ high := by exact_mod_cast this
      omega
    -- the average frequency lies between the two frequencies
    obtain ⟨s, hs, hs0, hs1⟩ : ∃ s : ℝ, s = (x - t1) / (t2 - t1) / 2 ∧ 0 ≤ s ∧ s ≤ 1 := by
      refine ⟨_, rfl, ?_, ?_⟩
      · have : 0 ≤ (x - t1) / (t2 - t1) := div_nonneg (by linarith) (by linarith)
        linarith
      · have : (x - t1) / (t2 - t1) ≤ 1 := by rw [div_le_one (by linarith)]; linarith
        linarith
    have hchirp : chirpInterpolation t1 t2 (f1 : ℝ) (f2 : ℝ) x = f1 * (1 - s) + f2 * s := by
      unfold chirpInterpolation
      rw [if_neg (by omega), if_neg (by omega), hs]
      have : (t2 : ℝ) - t1 ≠ 0 := by linarith
      field_simp
      ring
    have hlow : (low : ℝ) ≤ f1 * (1 - s) + f2 * s := by
      nlinarith [mul_nonneg (sub_nonneg.mpr l1) (sub_nonneg.mpr hs1), mul_nonneg (sub_nonneg.mpr l2) hs0]
    have hhigh : f1 * (1 - s) + f2 * s ≤ (high : ℝ) := by
      nlinarith [mul_nonneg (sub_nonneg.mpr u1) (sub_nonneg.mpr hs1), mul_nonneg (sub_nonneg.mpr u2) hs0]
    have hpos : 0 < f1 * (1 - s) + f2 * s := by
      rcases eq_or_lt_of_le hs0 with h | h
      · rw [← h]; simpa using p1
      · nlinarith [mul_nonneg p1.le (sub_nonneg.mpr hs1), mul_pos p2 h]
    rw [h1]
    dsimp only
    rw [if_neg hlh]
    simp only [hbt, hbf, hkt, hkf, Option.getD_some]
    rw [hchirp, min_eq_left hhigh, max_eq_right hlow, fdiv_of_ne (by norm_num)]
    change Except.ok (some _) = _
    rw [c63_waveform _ _ _ _ hpos.ne']
    congr 4
    have hphi' : phi' = (e.phaseOrDefault : ℝ) + 2 * Real.pi * areaTo (frequencyPoints e) x / 1000
        - 2 * Real.pi * ((x - t1) * (f1 + (f1 + (f2 - f1) * (x - t1) / (t2 - t1))) / 2) / 1000 := by
      have : phi' + _ = (e.phaseOrDefault : ℝ) + 2 * Real.pi * areaTo (frequencyPoints e) x / 1000 := hphi
      linarith
    rw [hphi', hs]
    have : (t2 : ℝ) - t1 ≠ 0 := by linarith
    push_cast
    field_simp
    ring

/-- A chirp from 20 Hz to 60 Hz and back, fading in, with phase π/4. -/
def siren : Effect :=
  { position := 5, phase := some (1 / 4), baseSignal := some 2,
    keyframes := [⟨some 0, some 0, some 20⟩, ⟨some 50, none, some 60⟩, ⟨some 80, some 1, none⟩,
      ⟨some 100, none, some 20⟩] }

example : Timed siren ∧ InBand siren 10 100 ∧ (∃ p ∈ frequencyPoints siren, (75 : ℝ) ≤ p.1) ∧
    lineAt (amplitudePoints siren) 75 = 15 / 16 ∧ areaTo (frequencyPoints siren) 75 = 3250 := by
  refine ⟨⟨?_, ?_⟩, ?_, ?_, ?_, ?_⟩
  · simp [siren]
  · simp [siren]
  · simp only [InBand, frequencyPoints, siren, frequencyPoint, List.filterMap_cons, List.filterMap_nil,
      List.mem_cons, List.not_mem_nil, or_false, forall_eq_or_imp, forall_eq]
    norm_num
  · norm_num [frequencyPoints, siren, frequencyPoint]
  · have : amplitudePoints siren = [(0, 0), (80, 1)] := by
      simp [amplitudePoints, siren, amplitudePoint, List.filterMap_cons]
    rw [this]
    norm_num [lineAt, lineFrom]
  · have : frequencyPoints siren = [(0, 20), (50, 60), (100, 20)] := by
      simp [frequencyPoints, siren, frequencyPoint, List.filterMap_cons]
    rw [this]
    norm_num [areaTo, areaFrom]

/-- What the full property asks of a vectorial effect played at a given timescale. -/
def FollowsKeyframes (e : Effect) (low high : ℤ) (timescale : ℕ) (x : ℝ) : Prop :=
  e.evaluateVectorial (e.position + x) low high timescale = .ok (some (lineAt (amplitudePoints e) x
    * waveform e.baseSignalOrDefault
      ((e.phaseOrDefault : ℝ) / (2 * Real.pi) + areaTo (frequencyPoints e) x / timescale)))

/-- 25 Hz for 20 ticks, with a keyframe in the middle. -/
def steady : Effect :=
  { keyframes := [⟨some 0, some 1, some 25⟩, ⟨some 10, some 1, some 25⟩, ⟨some 20, some 1, some 25⟩] }

/-- Not C63 for other timescales: the phase reached at a keyframe is computed in milliseconds even when
time is counted otherwise.  At 500 ticks per second, a 25 Hz sine that should be at a zero after a full
cycle is at its minimum. -/
theorem c63_timescale_negation : Timed steady ∧ InBand steady 0 100 ∧
    (∃ p ∈ frequencyPoints steady, (20 : ℝ) ≤ p.1) ∧
    steady.evaluateVectorial (steady.position + 20) 0 100 500 = .ok (some (-1)) ∧
    ¬ FollowsKeyframes steady 0 100 500 20 := by
  have hv : steady.evaluateVectorial (steady.position + 20) 0 100 500 = .ok (some (-1)) := by
    have e1 : steady.timeLength BandType.VectorialWave 0 = .ok 20 := by
      simp [steady, Effect.timeLength]
    have e2 : amplitudeModulationAt steady.keyframes 20 = some 1 := by
      norm_num [steady, amplitudeModulationAt, linearInterpolation, fdiv]
    have e3 : frequencyLoop 20 none 0 steady.keyframes = (Real.pi / 2,
        some (some ⟨some 10, some 1, some 25⟩, ⟨some 20, some 1, some 25⟩)) := by
      norm_num [steady, frequencyLoop]
      ring
    have e4 : steady.position = 0 := rfl
    have e5 : (steady.phaseOrDefault : ℝ) = 0 := by simp [steady, Effect.phaseOrDefault]
    have e6 : steady.baseSignalOrDefault = 0 := rfl
    unfold Effect.evaluateVectorial
    rw [e1]
    dsimp only
    rw [if_neg (by norm_num [e4]; exact List.cons_ne_nil _ _), e4, e5]
    norm_num [e2, e3, chirpInterpolation, fdiv, c63_waveform, e6, waveform]
    have hpi := Real.pi_ne_zero
    rw [show 2 * Real.pi * (1 / 2 + Real.pi / 2 / (2 * Real.pi)) = Real.pi / 2 + Real.pi by field_simp; ring,
      Real.sin_add_pi]
    simp
  refine ⟨⟨?_, ?_⟩, ?_, ?_, hv, ?_⟩
  · simp [steady]
  · simp [steady]
  · simp only [InBand, frequencyPoints, frequencyPoint, steady, List.filterMap_cons, List.filterMap_nil,
      List.mem_cons, List.not_mem_nil, or_false, forall_eq_or_imp, forall_eq]
    norm_num
  · norm_num [frequencyPoints, frequencyPoint, steady]
  · unfold FollowsKeyframes
    rw [hv]
    have h1 : amplitudePoints steady = [(0, 1), (10, 1), (20, 1)] := by
      simp [amplitudePoints, steady, amplitudePoint]
    have h2 : frequencyPoints steady = [(0, 25), (10, 25), (20, 25)] := by
      simp [frequencyPoints, steady, frequencyPoint]
    have e6 : steady.baseSignalOrDefault = 0 := rfl
    have e5 : (steady.phaseOrDefault : ℝ) = 0 := by simp [steady, Effect.phaseOrDefault]
    rw [h1, h2, e5, e6]
    norm_num [lineAt, lineFrom, areaTo, areaFrom, waveform]

/-- 25 Hz for 20 ms; the last keyframe gives the amplitude only. -/
def fading : Effect :=
  { keyframes := [⟨some 0, some 1, some 25⟩, ⟨some 10, some 1, some 25⟩, ⟨some 20, some 1, none⟩] }

/-- Not C63 after the last frequency keyframe: the phase reached there is added, although the time is still
counted from the beginning of the effect.  A 25 Hz sine that should be back at a zero after half a cycle is
at its minimum. -/
theorem c63_tail_negation : Timed fading ∧ InBand fading 0 100 ∧
    fading.evaluateVectorial (fading.position + 20) 0 100 1000 = .ok (some (-1)) ∧
    ¬ FollowsKeyframes fading 0 100 1000 20 := by
  have hv : fading.evaluateVectorial (fading.position + 20) 0 100 1000 = .ok (some (-1)) := by
    have e1 : fading.timeLength BandType.VectorialWave 0 = .ok 20 := by
      simp [fading, Effect.timeLength]
    have e2 : amplitudeModulationAt fading.keyframes 20 = some 1 := by
      norm_num [fading, amplitudeModulationAt, linearInterpolation, fdiv]
    have e3 : frequencyLoop 20 none 0 fading.keyframes = (Real.pi / 2, none) := by
      norm_num [fading, frequencyLoop]
      ring
    have e4 : fading.position = 0 := rfl
    have e5 : (fading.phaseOrDefault : ℝ) = 0 := by simp [fading, Effect.phaseOrDefault]
    have e6 : fading.baseSignalOrDefault = 0 := rfl
    have e7 : fading.keyframes.reverse.find? (·.frequencyModulation.isSome)
        = some ⟨some 10, some 1, some 25⟩ := by simp [fading]
    unfold Effect.evaluateVectorial
    rw [e1]
    dsimp only
    rw [if_neg (by norm_num [e4]; exact List.cons_ne_nil _ _), e4, e5]
    norm_num [e2, e3, e7, chirpInterpolation, fdiv, c63_waveform, e6, waveform]
    have hpi := Real.pi_ne_zero
    rw [show 2 * Real.pi * (1 / 2 + Real.pi / 2 / (2 * Real.pi)) = Real.pi / 2 + Real.pi by field_simp; ring,
      Real.sin_add_pi]
    simp
  refine ⟨⟨?_, ?_⟩, ?_, hv, ?_⟩
  · simp [fading]
  · simp [fading]
  · simp only [InBand, frequencyPoints, frequencyPoint, fading, List.filterMap_cons, List.filterMap_nil,
      List.mem_cons, List.not_mem_nil, or_false, forall_eq_or_imp, forall_eq]
    norm_num
  · unfold FollowsKeyframes
    rw [hv]
    have h1 : amplitudePoints fading = [(0, 1), (10, 1), (20, 1)] := by
      simp [amplitudePoints, fading, amplitudePoint]
    have h2 : frequencyPoints fading = [(0, 25), (10, 25)] := by
      simp [frequencyPoints, fading, frequencyPoint]
    have e6 : fading.baseSignalOrDefault = 0 := rfl
    have e5 : (fading.phaseOrDefault : ℝ) = 0 := by simp [fading, Effect.phaseOrDefault]
    rw [h1, h2, e5, e6]
    norm_num [lineAt, lineFrom, areaTo, areaFrom, waveform]
    rw [show 2 * Real.pi * (1 / 2) = Real.pi by ring]
    simp

/-! ## C64: the limits of the band -/

/-- A vibration of one frequency, given at both ends. -/
def tone (position len f : ℤ) (a a' : ℚ) (phase : Option ℚ) (base : Option ℕ) : Effect :=
  { position := position, phase := phase, baseSignal := base,
    keyframes := [⟨some 0, some a, some f⟩, ⟨some len, some a', some f⟩] }

/-- C64, for a single frequency given at both ends of the effect (the full property asks for any
keyframes: see `c64_negation`): at any timescale, the vibration is played at that frequency, or at the
nearest one the band allows. -/
theorem c64_partial (position len f low high : ℤ) (a a' : ℚ) (phase : Option ℚ) (base : Option ℕ)
    (timescale : ℕ) (ht : timescale ≠ 0) (hf : 0 < f) (hlen : 0 < len) (hlh : low ≤ high) (hh : 0 < high)
    (x : ℝ) (h0 : 0 ≤ x) (h1 : x ≤ len) :
    (tone position len f a a' phase base).evaluateVectorial (position + x) low high timescale
      = .ok (some (lineAt [(0, (a : ℝ)), (len, (a' : ℝ))] x
        * waveform (base.getD 0) (((phase.getD 0 : ℚ) : ℝ) / (2 * Real.pi)
          + (max low (min f high) : ℤ) * x / timescale))) := by
  have hts : (timescale : ℝ) ≠ 0 := by exact_mod_cast ht
  have htimed : Timed (tone position len f a a' phase base) := by
    constructor
    · simp [tone, hlen.le]
    · simp [tone, hlen]
  have e1 : (tone position len f a a' phase base).timeLength BandType.VectorialWave 0 = .ok (len : ℚ) := by
    simp [tone, Effect.timeLength]
  have e2 := c63_amplitude _ htimed x
  have e3 : amplitudePoints (tone position len f a a' phase base) = [(0, (a : ℝ)), (len, (a' : ℝ))] := by
    simp [amplitudePoints, tone, amplitudePoint]
  rw [e3] at e2
  have e4 : (tone position len f a a' phase base).position = position := rfl
  have e5 : (tone position len f a a' phase base).phaseOrDefault = phase.getD 0 := rfl
  have e6 : (tone position len f a a' phase base).baseSignalOrDefault = base.getD 0 := rfl
  unfold Effect.evaluateVectorial
  rw [e1]
  dsimp only
  rw [e4, e5, if_neg (by
    push Not
    refine ⟨by linarith, ?_, List.cons_ne_nil _ _⟩
    push_cast; linarith)]
  rw [show (position : ℝ) + x - position = x by ring, e2]
  rcases eq_or_lt_of_le h0 with h | h
  · subst h
    have e7 : frequencyLoop 0 none ((phase.getD 0 : ℚ) : ℝ) (tone position len f a a' phase base).keyframes
        = (((phase.getD 0 : ℚ) : ℝ), some (none, ⟨some 0, some a, some f⟩)) := by
      simp [tone, frequencyLoop]
    rw [e7]
    dsimp only
    rw [fdiv_of_ne hts]
    simp only [Option.getD_some]
    change Except.ok (some _) = _
    rw [c63_waveform _ _ _ _ (by exact_mod_cast hf.ne'), e6]
    congr 4
    simp
  · have e7 : frequencyLoop x none ((phase.getD 0 : ℚ) : ℝ) (tone position len f a a' phase base).keyframes
        = (((phase.getD 0 : ℚ) : ℝ),
          some (some ⟨some 0, some a, some f⟩, ⟨some len, some a', some f⟩)) := by
      simp [tone, frequencyLoop, h1, h]
    rw [e7]
    dsimp only
    rw [if_neg (by omega)]
    simp only [Option.getD_some]
    rw [fdiv_of_ne hts]
    have e8 : chirpInterpolation 0 len (f : ℝ) (f : ℝ) x = f := by
      unfold chirpInterpolation
      rw [if_neg (by omega), if_neg (by omega)]
      simp
    have e9 : max (low : ℝ) (min (f : ℝ) high) = ((max low (min f high) : ℤ) : ℝ) := by push_cast; rfl
    rw [e8, e9]
    change Except.ok (some _) = _
    have hpos : 0 < max low (min f high) := lt_max_of_lt_right (lt_min hf hh)
    rw [c63_waveform _ _ _ _ (by exact_mod_cast hpos.ne'), e6]
    congr 4
    simp only [Int.cast_zero, sub_zero]
    ring

/-- 400 Hz for 20 ms, with the frequency given at the beginning only. -/
def shrill : Effect := { keyframes := [⟨some 0, some 1, some 400⟩, ⟨some 20, some 1, none⟩] }

/-- Not C64 when the frequency is given once: in a band limited to 100 Hz, the effect is played at
400 Hz.  After 2.5 ms it has made a full cycle instead of a quarter of one. -/
theorem c64_negation : Timed shrill ∧ shrill.evaluateVectorial 2.5 0 100 1000 = .ok (some 0) ∧
    waveform 0 (400 * 2.5 / 1000) = 0 ∧ waveform 0 (100 * 2.5 / 1000) = 1 := by
  have ht : Timed shrill := by
    constructor
    · simp [shrill]
    · simp [shrill]
  refine ⟨ht, ?_, ?_, ?_⟩
  · have e1 : shrill.timeLength BandType.VectorialWave 0 = .ok 20 := by
      simp [shrill, Effect.timeLength]
    have e2 : amplitudeModulationAt shrill.keyframes 2.5 = some 1 := by
      norm_num [shrill, amplitudeModulationAt, linearInterpolation, fdiv]
    have e3 : frequencyLoop 2.5 none 0 shrill.keyframes = (0, none) := by
      norm_num [shrill, frequencyLoop]
    have e4 : shrill.position = 0 := rfl
    have e5 : (shrill.phaseOrDefault : ℝ) = 0 := by simp [shrill, Effect.phaseOrDefault]
    have e6 : shrill.baseSignalOrDefault = 0 := rfl
    have e7 : shrill.keyframes.reverse.find? (·.frequencyModulation.isSome)
        = some ⟨some 0, some 1, some 400⟩ := by simp [shrill]
    unfold Effect.evaluateVectorial
    rw [e1]
    dsimp only
    rw [if_neg (by norm_num [e4]; exact List.cons_ne_nil _ _), e4, e5]
    norm_num at e2 e3
    norm_num [e2, e3, e7, fdiv, c63_waveform, e6, waveform]
  · norm_num [waveform]
  · norm_num [waveform]
    rw [show 2 * Real.pi * (1 / 4) = Real.pi / 2 by ring]
    simp

/-! ## C65: wavelet bands -/

/-- C65: at every time, with a timescale and an upper frequency limit that are not negative, a wavelet band
plays the sample of its last started effect whose turn it is (the upper frequency limit is the sampling
rate), and silence before the first effect and after the samples.  It never reads outside the samples. -/
theorem c65 (samples : Effect → List ℝ) (b : Band) (hb : b.bandType = BandType.WaveletWave)
    (low high : ℤ) (timescale : ℕ) (ht : timescale ≠ 0) (fs : ℕ) (hfs : b.upperFrequencyLimit = fs)
    (t : ℝ) :
    ((∀ e ∈ b.effects, t < e.position) → b.evaluate samples t low high timescale = .ok (some 0)) ∧
    (∀ pre e post, b.effects = pre ++ e :: post → (e.position : ℝ) ≤ t → (∀ e' ∈ post, t < e'.position) →
      ∀ n : ℕ, (n : ℝ) ≤ (t - e.position) * fs / timescale → (t - e.position) * fs / timescale < n + 1 →
      b.evaluate samples t low high timescale = .ok (some ((samples e).getD n 0))) := by
  have hts : (timescale : ℝ) ≠ 0 := by exact_mod_cast ht
  constructor
  · intro h
    unfold Band.evaluate
    split
    · rfl
    · rw [if_pos hb]
      dsimp only
      have : b.effects.reverse.find? (fun e => decide ((e.position : ℝ) ≤ t)) = none := by
        rw [List.find?_eq_none]
        intro e he
        simpa using h e (List.mem_reverse.mp he)
      rw [this]
  · intro pre e post hsplit he hpost n hn1 hn2
    have hfind : b.effects.reverse.find? (fun e => decide ((e.position : ℝ) ≤ t)) = some e := by
      rw [hsplit, List.reverse_append, List.reverse_cons, List.append_assoc, List.find?_append]
      have : post.reverse.find? (fun e => decide ((e.position : ℝ) ≤ t)) = none := by
        rw [List.find?_eq_none]
        intro e he
        simpa using hpost e (List.mem_reverse.mp he)
      rw [this]
      simp [he]
    unfold Band.evaluate
    split
    · rename_i hl
      rw [List.getLast?_eq_none_iff] at hl
      rw [hl] at hsplit
      simp at hsplit
    · rw [if_pos hb]
      dsimp only
      rw [hfind]
      dsimp only
      unfold Band.evaluationSwitch
      rw [if_neg (by rw [hb]; decide), if_neg (by rw [hb]; decide), if_pos hb]
      unfold evaluateWavelet
      rw [fdiv_of_ne hts, hfs]
      dsimp only
      have hfl : ⌊(t - e.position) * ((fs : ℤ) : ℝ) / timescale⌋ = n := by
        rw [Int.floor_eq_iff]
        push_cast
        exact ⟨hn1, hn2⟩
      rw [hfl]
      split
      · rename_i h
        have : (samples e).length ≤ n := by exact_mod_cast h
        rw [List.getD_eq_getElem?_getD, List.getElem?_eq_none this]
        rfl
      · rw [if_neg (by omega), Int.toNat_natCast]

/-- Two effects of three samples each, at 1000 samples per second: at 11.5 ms the second one plays its
second sample. -/
example : ∃ b : Band, b.bandType = BandType.WaveletWave ∧ b.upperFrequencyLimit = (1000 : ℕ) ∧
    b.effects = [{ position := 0 }] ++ { position := 10 } :: [] ∧
    ((10 : ℤ) : ℝ) ≤ 11.5 ∧ ((1 : ℕ) : ℝ) ≤ (11.5 - (10 : ℤ)) * (1000 : ℕ) / (1000 : ℕ) ∧
    (11.5 - (10 : ℤ)) * (1000 : ℕ) / (1000 : ℕ) < ((1 : ℕ) : ℝ) + 1 :=
  ⟨{ bandType := BandType.WaveletWave, upperFrequencyLimit := 1000,
     effects := [{ position := 0 }, { position := 10 }] }, rfl, rfl, rfl, by norm_num, by norm_num, by norm_num⟩

/-- Why C65 asks for a limit that is not negative: with limit -1, reading 1 ms into the effect is a read
before the first sample. -/
theorem c65_unsafe (samples : Effect → List ℝ) (e : Effect) (he : e.position = 0) (b : Band)
    (hb : b.bandType = BandType.WaveletWave) (hl : b.upperFrequencyLimit = -1) (hbe : b.effects = [e]) :
    b.evaluate samples 1 0 0 1000 = .error .ub := by
  unfold Band.evaluate
  rw [hbe]
  simp only [List.getLast?_singleton, List.reverse_singleton, List.find?_singleton, he, if_pos hb]
  norm_num
  unfold Band.evaluationSwitch
  rw [if_neg (by rw [hb]; decide), if_neg (by rw [hb]; decide), if_pos hb]
  unfold evaluateWavelet
  rw [fdiv_of_ne (by norm_num), he, hl]
  dsimp only
  have hfl : ⌊((1 : ℝ) - ((0 : ℤ) : ℝ)) * ((-1 : ℤ) : ℝ) / (1000 : ℕ)⌋ = -1 := by
    rw [Int.floor_eq_iff]
    constructor <;> norm_num
  rw [hfl, if_neg (by omega), if_pos (by omega)]

end
end Haptics
