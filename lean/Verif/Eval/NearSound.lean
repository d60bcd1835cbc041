import Verif.Eval.NearLemmas

/-! Rendering of transient and vectorial effects that are nearly the same. -/

namespace Haptics

variable {δ η : ℚ} {bt : Nat}

theorem forall₂_mem_right {α β : Type} {R : α → β → Prop} {l : List α} {l' : List β} (h : List.Forall₂ R l l') {b : β}
    (hb : b ∈ l') : ∃ a, R a b := by
  induction h with
  | nil => cases hb
  | cons hr _ ih => rcases List.mem_cons.mp hb with rfl | hb; exacts [⟨_, hr⟩, ih hb]

theorem forall₂_mem_left {α β : Type} {R : α → β → Prop} {l : List α} {l' : List β} (h : List.Forall₂ R l l') {a : α}
    (ha : a ∈ l) : ∃ b, R a b := by
  induction h with
  | nil => cases ha
  | cons hr _ ih => rcases List.mem_cons.mp ha with rfl | ha; exacts [⟨_, hr⟩, ih ha]

/-! ### Transients -/

theorem active_eq {k k' : Keyframe} (h : k.NearTo δ bt k') (rel duration : ℝ) :
    transientActive rel duration k = transientActive rel duration k' := by
  unfold transientActive
  rw [h.position]

theorem transientLoop_near {l l' : List Keyframe} (h : List.Forall₂ (Keyframe.NearTo δ bt) l l') (hδ : 0 ≤ δ) (rel duration : ℝ) :
    ∀ res res' c : ℝ, |res - res'| ≤ c →
      Alike (Near (c + δ * (l.filter (transientActive rel duration)).length)) (transientLoop rel duration res l)
        (transientLoop rel duration res' l') := by
  have hδ' : (0 : ℝ) ≤ δ := by exact_mod_cast hδ
  induction h with
  | nil =>
    intro res res' c hc
    show |res - res'| ≤ _
    simpa using hc
  | cons hk _ ih =>
    rename_i k k' l l' _
    intro res res' c hc
    have hs : 0 ≤ c := (abs_nonneg _).trans hc
    unfold transientLoop
    rw [← active_eq hk rel duration]
    cases ha : transientActive rel duration k with
    | false =>
      rw [if_neg Bool.false_ne_true, if_neg Bool.false_ne_true]
      show |res - res'| ≤ _
      have : 0 ≤ (δ : ℝ) * ((k :: l).filter (transientActive rel duration)).length := by positivity
      linarith
    | true =>
      rw [if_pos rfl, if_pos rfl, hk.position]
      have := hk.amplitude
      cases hx : k.amplitudeModulation <;> cases hx' : k'.amplitudeModulation <;> rw [hx, hx'] at this
      · exact rfl
      · cases this
      · cases this
      · rename_i a a'
        obtain ⟨h1, _, _⟩ := Option.rel_some_some.mp this
        have h1 : |(a : ℝ) - (a' : ℝ)| ≤ δ := by exact_mod_cast h1
        simp only
        cases fdiv (4 * Real.pi * (rel - ((k.relativePosition.getD 0 : ℤ) : ℝ))) duration with
        | none => trivial
        | some x =>
          simp only
          have hstep : |res + Real.sin x * (a : ℝ) - (res' + Real.sin x * (a' : ℝ))| ≤ c + δ := by
            rw [show res + Real.sin x * (a : ℝ) - (res' + Real.sin x * (a' : ℝ)) = (res - res') + Real.sin x * ((a : ℝ) - a') by ring]
            refine (abs_add_le _ _).trans (add_le_add hc ?_)
            rw [abs_mul]
            calc |Real.sin x| * |(a : ℝ) - a'| ≤ 1 * |(a : ℝ) - a'| := by
                  gcongr
                  exact Real.abs_sin_le_one x
              _ ≤ δ := by rw [one_mul]; exact h1
          have := ih _ _ _ hstep
          refine this.imp fun u v huv => huv.mono ?_
          rw [List.filter_cons_of_pos ha, List.length_cons]
          push_cast
          linarith

theorem transientDuration_real (ts : Nat) : ((transientDuration ts : ℚ) : ℝ) = 22 / 1000 * ts := by
  unfold transientDuration TRANSIENT_DURATION_MS
  push_cast
  ring

theorem evaluateTransient_near {e e' : Effect} (h : e.NearTo δ η BandType.Transient e') (hδ : 0 ≤ δ) (position : ℝ) (ts : Nat) :
    Alike (Near (δ * e.voices BandType.Transient ts position)) (e.evaluateTransient position (transientDuration ts : ℚ))
      (e'.evaluateTransient position (transientDuration ts : ℚ)) := by
  unfold Effect.evaluateTransient
  simp only
  rw [h.position]
  have h2 := (forall₂_takeWhile (List.rel_reverse h.keyframes) (p := fun k => !transientActive (position - e.position) (transientDuration ts : ℚ) k)
    (q := fun k => !transientActive (position - e.position) (transientDuration ts : ℚ) k)
    (fun k k' hk => by rw [active_eq hk])).2
  have := transientLoop_near h2 hδ (position - e.position) (transientDuration ts : ℚ) 0 0 0 (by simp)
  refine this.imp fun u v huv => huv.mono ?_
  rw [zero_add]
  have hδ' : (0 : ℝ) ≤ δ := by exact_mod_cast hδ
  refine mul_le_mul_of_nonneg_left ?_ hδ'
  norm_cast
  unfold Effect.voices
  rw [if_pos rfl]
  refine le_trans (List.Sublist.length_le ((List.dropWhile_sublist _).filter _)) ?_
  rw [List.filter_reverse, List.length_reverse]
  refine le_of_eq (congrArg List.length (List.filter_congr fun k _ => ?_))
  unfold transientActive
  rw [transientDuration_real]
  cases hp : k.relativePosition with
  | none => simp
  | some p =>
    simp only [Option.some.injEq, exists_eq_left', decide_eq_decide]
    constructor
    · rintro ⟨a, b⟩; constructor <;> linarith
    · rintro ⟨a, b⟩; constructor <;> linarith

/-! ### Vectorial effects -/

theorem linearInterpolation_bound {a b : Int × ℝ} {x r B : ℝ} (ha : |a.2| ≤ B) (hb : |b.2| ≤ B)
    (h : linearInterpolation a b x = some r) : |r| ≤ B := by
  unfold linearInterpolation at h
  split_ifs at h with c1 c2 c3
  · rw [← Option.some.inj h]; exact ha
  · rw [← Option.some.inj h]; exact hb
  · push Not at c1 c2
    have e : (a.1 : ℝ) = b.1 := le_antisymm (c1.trans c2) (by exact_mod_cast c3)
    unfold fdiv at h
    rw [if_pos (by linarith)] at h
    cases h
  · push Not at c1 c2
    have hlt : (a.1 : ℝ) < b.1 := by exact_mod_cast not_le.mp c3
    unfold fdiv at h
    rw [if_neg (by linarith)] at h
    rw [← Option.some.inj h]
    have := between_near (a := a.2) (b := b.2) (a' := 0) (b' := 0) (d := B) (x := b.1 - x) (y := x - a.1) (by linarith)
      (by linarith) (by linarith) (by simpa using ha) (by simpa using hb)
    rw [show (b.1 : ℝ) - x + (x - a.1) = b.1 - a.1 by ring] at this
    simpa using this

theorem amplitude_bound {l : List Keyframe} (h : ∀ k ∈ l, ∀ a, k.amplitudeModulation = some a → |a| ≤ 1) (rel r : ℝ)
    (hr : amplitudeModulationAt l rel = some r) : |r| ≤ 1 := by
  have amp : ∀ k ∈ l, |((k.amplitudeModulation.getD 0 : ℚ) : ℝ)| ≤ 1 := by
    intro k hk
    cases ha : k.amplitudeModulation with
    | none => simp
    | some a => exact_mod_cast h k hk a ha
  unfold amplitudeModulationAt at hr
  simp only at hr
  revert hr
  generalize hd : List.dropWhile _ l = d
  generalize hf : List.find? _ (List.reverse (List.takeWhile _ l)) = f
  generalize hg : List.find? _ l.reverse = g
  intro hr
  cases d with
  | nil =>
    cases g with
    | none => rw [← Option.some.inj hr]; simp
    | some k =>
      rw [← Option.some.inj hr]
      exact amp k (List.mem_reverse.mp (List.mem_of_find?_eq_some hg))
  | cons k d =>
    have hk : k ∈ l := (List.dropWhile_sublist _).subset (hd ▸ List.mem_cons_self)
    cases f with
    | none => rw [← Option.some.inj hr]; exact amp k hk
    | some b =>
      have hb : b ∈ l := (List.takeWhile_sublist _).subset (List.mem_reverse.mp (List.mem_of_find?_eq_some hf))
      exact linearInterpolation_bound (amp b hb) (amp k hk) hr

theorem frequencyLoop_near (hbt : bt ≠ BandType.Curve) {l l' : List Keyframe} (h : List.Forall₂ (Keyframe.NearTo δ bt) l l') (rel d : ℝ) :
    ∀ (prev prev' : Option Keyframe) (phi : ℝ), Option.Rel (Keyframe.NearTo δ bt) prev prev' →
      (frequencyLoop rel prev' (phi + d) l').1 = (frequencyLoop rel prev phi l).1 + d ∧
      Option.Rel (fun a b => Option.Rel (Keyframe.NearTo δ bt) a.1 b.1 ∧ a.2.NearTo δ bt b.2) (frequencyLoop rel prev phi l).2
        (frequencyLoop rel prev' (phi + d) l').2 := by
  induction h with
  | nil => intro prev prev' phi _; exact ⟨rfl, .none⟩
  | cons hk _ ih =>
    rename_i k k' l l' _
    intro prev prev' phi hp
    unfold frequencyLoop
    rw [hk.frequency hbt, hk.position]
    cases k.frequencyModulation with
    | none => exact ih prev prev' phi hp
    | some f =>
      simp only
      by_cases hc : ((k.relativePosition.getD 0 : ℤ) : ℝ) ≥ rel
      · rw [if_pos hc, if_pos hc]; exact ⟨rfl, .some ⟨hp, hk⟩⟩
      rw [if_neg hc, if_neg hc]
      cases hp with
      | none =>
        simp only
        by_cases hz : k.relativePosition.getD 0 > 0
        · rw [if_pos hz, if_pos hz, add_right_comm]
          exact ih _ _ _ (.some hk)
        · rw [if_neg hz, if_neg hz]
          exact ih _ _ _ (.some hk)
      | some hb =>
        simp only
        rw [hb.position, hb.frequency hbt, add_right_comm]
        exact ih _ _ _ (.some hk)

theorem computeBaseSignal_near {e e' : Effect} (hs : e'.baseSignalOrDefault = e.baseSignalOrDefault) {d E : ℝ}
    (hd : d = 0 ∨ (e.baseSignalOrDefault = 0 ∧ |d| ≤ E)) (hE : 0 ≤ E) (time frequency phase : ℝ) :
    |e.computeBaseSignal time frequency phase - e'.computeBaseSignal time frequency (phase + d)| ≤ E := by
  rcases hd with rfl | ⟨h0, hd⟩
  · rw [add_zero]
    have : e'.computeBaseSignal time frequency phase = e.computeBaseSignal time frequency phase := by
      unfold Effect.computeBaseSignal
      rw [hs]
    rw [this, sub_self, abs_zero]
    exact hE
  · unfold Effect.computeBaseSignal
    simp only [hs, h0]
    by_cases hf : frequency = 0
    · subst hf; simpa using hE
    · rw [if_pos hf, if_pos hf]
      refine (Real.abs_sin_sub_sin_le _ _).trans ?_
      have hpi : Real.pi ≠ 0 := Real.pi_ne_zero
      rw [show 2 * Real.pi * (time + phase / (2 * Real.pi * frequency)) * frequency -
        2 * Real.pi * (time + (phase + d) / (2 * Real.pi * frequency)) * frequency = -d by field_simp; ring, abs_neg]
      exact hd

theorem product_near {a a' s s' : ℝ} {d E : ℝ} (ha : |a - a'| ≤ d) (ha' : |a'| ≤ 1) (hs : |s| ≤ 1) (hss : |s - s'| ≤ E) :
    |a * s - a' * s'| ≤ d + E := by
  rw [show a * s - a' * s' = (a - a') * s + a' * (s - s') by ring]
  refine (abs_add_le _ _).trans (add_le_add ?_ ?_)
  · rw [abs_mul]
    calc |a - a'| * |s| ≤ |a - a'| * 1 := by gcongr
      _ ≤ d := by rw [mul_one]; exact ha
  · rw [abs_mul]
    calc |a'| * |s - s'| ≤ 1 * |s - s'| := by gcongr
      _ ≤ E := by rw [one_mul]; exact hss

theorem evaluateVectorial_near {e e' : Effect} (h : e.NearTo δ η BandType.VectorialWave e') (hδ : 0 ≤ δ) (hη : 0 ≤ η)
    (position : ℝ) (low high : Int) (ts : Nat) :
    Alike (Near (((δ + η : ℚ) : ℝ) * e.voices BandType.VectorialWave ts position)) (e.evaluateVectorial position low high ts)
      (e'.evaluateVectorial position low high ts) := by
  have hbt : BandType.VectorialWave ≠ BandType.Curve := by decide
  have hE : (0 : ℝ) ≤ ((δ + η : ℚ) : ℝ) := by exact_mod_cast add_nonneg hδ hη
  unfold Effect.evaluateVectorial
  rw [timeLength_eq h, h.position]
  cases hlen : e.timeLength BandType.VectorialWave 0 with
  | error x => exact rfl
  | ok len =>
    simp only
    have hnil : e'.keyframes = [] ↔ e.keyframes = [] := by
      have := h.keyframes.length_eq
      rw [← List.length_eq_zero_iff, ← List.length_eq_zero_iff, this]
    by_cases hc : position < e.position ∨ position > e.position + (len : ℝ) ∨ e.keyframes = []
    · rw [if_pos hc, if_pos (by rw [hnil]; exact hc)]
      exact Near.refl (show 0 ≤ ((δ + η : ℚ) : ℝ) * (e.voices BandType.VectorialWave ts position : ℝ) by positivity) (some 0)
    rw [if_neg hc, if_neg (by rw [hnil]; exact hc)]
    push Not at hc
    obtain ⟨c1, c2, c3⟩ := hc
    have hv : e.voices BandType.VectorialWave ts position = 1 := by
      unfold Effect.voices
      rw [if_neg (by decide), if_pos]
      refine ⟨c1, ?_⟩
      unfold Effect.timeLength at hlen
      rw [if_neg (by simpa using c3), if_pos (Or.inr (Or.inr rfl))] at hlen
      cases hg : (e.keyframes.filterMap Keyframe.relativePosition).getLast? with
      | none => rw [hg] at hlen; cases hlen
      | some p =>
        rw [hg] at hlen
        obtain ⟨k, hk, hkp⟩ := List.mem_filterMap.mp (List.mem_of_getLast? hg)
        refine ⟨k, hk, p, hkp, ?_⟩
        have := Except.ok.inj hlen
        rw [if_neg (by decide)] at this
        rw [← this] at c2
        exact_mod_cast c2
    rw [hv, Nat.cast_one, mul_one]
    obtain ⟨hsig, hph⟩ := h.signal rfl
    obtain ⟨d, hd⟩ : ∃ d : ℝ, (e'.phaseOrDefault : ℝ) = e.phaseOrDefault + d := ⟨e'.phaseOrDefault - e.phaseOrDefault, by ring⟩
    have hd0 : d = 0 ∨ (e.baseSignalOrDefault = 0 ∧ |d| ≤ (η : ℝ)) := by
      rcases hph with hp | ⟨h0, hp⟩
      · left; rw [hp] at hd; linarith
      · right
        refine ⟨h0, ?_⟩
        have : |(e.phaseOrDefault : ℝ) - (e'.phaseOrDefault : ℝ)| ≤ (η : ℝ) := by exact_mod_cast hp
        rw [hd] at this
        rw [show (e.phaseOrDefault : ℝ) - (e.phaseOrDefault + d) = -d by ring, abs_neg] at this
        exact this
    obtain ⟨hphi, hfound⟩ := frequencyLoop_near hbt h.keyframes (position - e.position) d none none e.phaseOrDefault .none
    rw [hd]
    have hlast := forall₂_find? (List.rel_reverse h.keyframes) (p := fun k => k.frequencyModulation.isSome)
      (q := fun k => k.frequencyModulation.isSome) (fun k k' hk => by rw [hk.frequency hbt])
    have hamp := amplitude_near h.keyframes hδ (position - e.position)
    have hbound : ∀ r, amplitudeModulationAt e'.keyframes (position - e.position) = some r → |r| ≤ 1 := by
      intro r hr
      refine amplitude_bound (fun k' hk' a' ha' => ?_) _ r hr
      obtain ⟨k, hkk⟩ := forall₂_mem_right h.keyframes hk'
      have := hkk.amplitude
      rw [ha'] at this
      cases hx : k.amplitudeModulation with
      | none => rw [hx] at this; cases this
      | some a => rw [hx] at this; exact (Option.rel_some_some.mp this).2.2
    revert hphi hfound hlast
    generalize frequencyLoop (position - e.position) none (e.phaseOrDefault : ℝ) e.keyframes = r
    generalize frequencyLoop (position - e.position) none ((e.phaseOrDefault : ℝ) + d) e'.keyframes = r'
    generalize e.keyframes.reverse.find? _ = g
    generalize e'.keyframes.reverse.find? _ = g'
    obtain ⟨phi, found⟩ := r
    obtain ⟨phi', found'⟩ := r'
    intro hphi hfound hlast
    simp only at hphi hfound ⊢
    subst hphi
    have core : ∀ (frequency rel' : ℝ), Near ((δ + η : ℚ) : ℝ)
        (do
          let amp ← amplitudeModulationAt e.keyframes (position - e.position)
          let time ← fdiv rel' ts
          pure (amp * e.computeBaseSignal time frequency phi))
        (do
          let amp ← amplitudeModulationAt e'.keyframes (position - e.position)
          let time ← fdiv rel' ts
          pure (amp * e'.computeBaseSignal time frequency (phi + d))) := by
      intro frequency rel'
      revert hamp hbound
      generalize amplitudeModulationAt e.keyframes _ = a
      generalize amplitudeModulationAt e'.keyframes _ = a'
      intro hamp hbound
      cases a with
      | none => cases a' with
        | none => trivial
        | some a' => exact absurd hamp id
      | some a => cases a' with
        | none => exact absurd hamp id
        | some a' =>
          cases fdiv rel' ts with
          | none => trivial
          | some t =>
            show |a * _ - a' * _| ≤ _
            rw [Rat.cast_add]
            exact product_near hamp (hbound a' rfl) (c51_range e t frequency phi)
              (computeBaseSignal_near hsig hd0 (by exact_mod_cast hη) t frequency phi)
    cases hfound with
    | none =>
      cases hlast with
      | none => exact core _ _
      | some hk =>
        simp only
        rw [hk.frequency hbt]
        exact core _ _
    | some hp =>
      rename_i a b
      obtain ⟨a1, a2⟩ := a
      obtain ⟨b1, b2⟩ := b
      obtain ⟨hp1, hp2⟩ := hp
      simp only at hp1 hp2
      cases hp1 with
      | none =>
        simp only
        rw [hp2.frequency hbt]
        exact core _ _
      | some hk =>
        simp only
        rw [hp2.frequency hbt, hk.frequency hbt, hp2.position, hk.position]
        by_cases hl : high < low
        · rw [if_pos hl]; exact rfl
        · rw [if_neg hl]; exact core _ _

end Haptics
