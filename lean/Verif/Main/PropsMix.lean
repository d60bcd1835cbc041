import Verif.Eval.SpecMix
import Verif.Main.PropsPadding

/-! ## C107: a channel plays the sum of its bands, and a band that of its effects, in any order -/

namespace Haptics
open SynthMain Sounds

theorem clipped_of_mem {x : ℝ} (h1 : -1 ≤ x) (h2 : x ≤ 1) : clipped x = x := by
  unfold clipped
  rw [min_eq_right h2, max_eq_right h1]

theorem clamp1_clipped (x : ℝ) : clamp1 (some x) = some (clipped x) := by
  unfold clamp1 clipped
  simp only [Option.map_some]
  congr 1
  split
  · rename_i h
    rw [min_eq_right (by linarith), max_eq_left h.le]
  · rename_i h
    split
    · rename_i h'
      rw [min_eq_left h'.le, max_eq_right (by norm_num)]
    · rename_i h'
      rw [min_eq_right (by linarith), max_eq_right (by linarith)]

/-- Adding and clipping one after the other. -/
noncomputable def clippedSum (a : ℝ) (xs : List ℝ) : ℝ := xs.foldl (fun a x => clipped (a + x)) a

theorem clippedSum_small : ∀ (xs : List ℝ) (a : ℝ), |a| + (xs.map abs).sum ≤ 1 → clippedSum a xs = a + xs.sum
  | [], a, _ => by simp [clippedSum]
  | x :: xs, a, h => by
    rw [List.map_cons, List.sum_cons] at h
    have h0 : 0 ≤ (xs.map abs).sum := List.sum_nonneg (by simp)
    have h1 := abs_add_le a x
    have h2 := abs_le.mp (show |a + x| ≤ 1 by linarith)
    have := clippedSum_small xs (a + x) (by linarith)
    unfold clippedSum at this ⊢
    rw [List.foldl_cons, clipped_of_mem h2.1 h2.2, this, List.sum_cons]
    ring

theorem clippedSum_pos : ∀ (xs : List ℝ) (a : ℝ), 0 ≤ a → a ≤ 1 → (∀ x ∈ xs, 0 ≤ x) → clippedSum a xs = min 1 (a + xs.sum)
  | [], a, _, h, _ => by simp [clippedSum, h]
  | x :: xs, a, h0, h1, h => by
    have hx : 0 ≤ x := h x List.mem_cons_self
    have hs : 0 ≤ xs.sum := List.sum_nonneg fun y hy => h y (List.mem_cons_of_mem _ hy)
    have e : clipped (a + x) = min 1 (a + x) := by
      unfold clipped
      exact max_eq_right (le_min (by norm_num) (by linarith))
    have := clippedSum_pos xs (min 1 (a + x)) (le_min (by norm_num) (by linarith)) (min_le_left _ _)
      (fun y hy => h y (List.mem_cons_of_mem _ hy))
    unfold clippedSum at this ⊢
    rw [List.foldl_cons, e, this, List.sum_cons, min_add, ← add_assoc]
    rcases le_total 1 (a + x + xs.sum) with hc | hc
    · rw [min_eq_left hc, min_eq_left (le_min (by linarith) hc)]
    · rw [min_eq_right hc, min_eq_right (a := 1 + xs.sum) (by linarith), min_eq_right hc]

theorem clipped_neg (x : ℝ) : clipped (-x) = -clipped x := by
  unfold clipped
  rcases le_total x (-1) with h | h
  · rw [min_eq_left (by linarith), max_eq_right (by norm_num), min_eq_right (by linarith), max_eq_left h]; norm_num
  · rcases le_total x 1 with h' | h'
    · rw [min_eq_right (by linarith), max_eq_right (by linarith), min_eq_right h', max_eq_right h]
    · rw [min_eq_right (by linarith), max_eq_left (by linarith), min_eq_left h', max_eq_right (by norm_num)]

theorem clippedSum_neg : ∀ (xs : List ℝ) (a : ℝ), clippedSum (-a) (xs.map Neg.neg) = -clippedSum a xs
  | [], a => rfl
  | x :: xs, a => by
    have := clippedSum_neg xs (clipped (a + x))
    unfold clippedSum at this ⊢
    rw [List.map_cons, List.foldl_cons, List.foldl_cons, ← neg_add, clipped_neg, this]

theorem sum_neg (xs : List ℝ) : (xs.map Neg.neg).sum = -xs.sum := by
  induction xs with
  | nil => simp
  | cons x xs ih => rw [List.map_cons, List.sum_cons, ih, List.sum_cons]; ring

theorem clippedSum_calm {xs : List ℝ} (h : Calm xs) : clippedSum 0 xs = clipped xs.sum := by
  have key : ∀ ys : List ℝ, (∀ x ∈ ys, 0 ≤ x) → clippedSum 0 ys = clipped ys.sum := by
    intro ys h
    rw [clippedSum_pos ys 0 le_rfl (by norm_num) h, zero_add]
    have := List.sum_nonneg h
    unfold clipped
    exact (max_eq_right (le_min (by norm_num) (by linarith))).symm
  rcases h with h | h | h
  · rw [clippedSum_small xs 0 (by simpa using h), zero_add]
    have hb : |xs.sum| ≤ 1 := by
      refine le_trans ?_ h
      clear h
      induction xs with
      | nil => simp
      | cons x xs ih =>
        rw [List.sum_cons, List.map_cons, List.sum_cons]
        exact (abs_add_le _ _).trans (by linarith)
    exact (clipped_of_mem (abs_le.mp hb).1 (abs_le.mp hb).2).symm
  · exact key xs h
  · have h1 := key (xs.map Neg.neg) (by
      intro y hy
      obtain ⟨x, hx, rfl⟩ := List.mem_map.mp hy
      have := h x hx
      linarith)
    have h2 := clippedSum_neg xs 0
    rw [neg_zero] at h2
    rw [h2, sum_neg, clipped_neg] at h1
    linarith

theorem mixBands_sum (samples : Effect → List ℝ) (other : Nat → List (Int × ℝ) → Except Err (List (Option ℝ)))
    (n : ℕ) (fs pad : ℤ) (ts : ℕ) {bands : List Band} {signals : List (List (Option ℝ))}
    (hb : List.Forall₂ (fun b v => b.evaluationBand samples other n fs pad ts = .ok v) bands signals) :
    ∀ a : List (Option ℝ), a.length = n → (∀ v ∈ signals, n ≤ v.length) →
      ∃ s, mixBands samples other n fs pad ts a bands = .ok s ∧ s.length = n ∧
        ∀ i < n, ∀ x xs, a[i]? = some (some x) → SamplesAt i signals xs → s[i]? = some (some (clippedSum x xs)) := by
  induction hb with
  | nil => exact fun a ha _ => ⟨a, rfl, ha, fun i _ x xs hx hxs => by cases hxs; exact hx⟩
  | @cons b v bands signals hbv hb ih =>
    intro a ha hv
    have hvl := hv v List.mem_cons_self
    obtain ⟨s, h1, h2, h3⟩ := ih (mixBand a v) (by unfold mixBand; rw [List.length_zipWith]; omega)
      (fun w hw => hv w (List.mem_cons_of_mem _ hw))
    refine ⟨s, ?_, h2, fun i hi x xs hx hxs => ?_⟩
    · unfold mixBands
      rw [hbv]
      exact h1
    · cases hxs with
      | @cons _ y _ ys hy hys =>
        refine h3 i hi (clipped (x + y)) ys ?_ hys
        unfold mixBand
        rw [List.getElem?_zipWith, hx, hy]
        exact congrArg some (clamp1_clipped _)

/-- **C107 (partial)** A channel plays the sum of what its bands play, clipped to the range from -1 to 1, if at every sample the
bands are calm: their magnitudes do not add up to more than 1, or they have the same sign.
Missing: other signals, which are clipped after every band (`c107_clipping_negation`). -/
theorem c107_sum_partial (samples : Effect → List ℝ) (other : Nat → List (Int × ℝ) → Except Err (List (Option ℝ)))
    (c : Channel) (n : ℕ) (fs pad : ℤ) (ts : ℕ) (signals : List (List (Option ℝ)))
    (hb : List.Forall₂ (fun b v => b.evaluationBand samples other n fs pad ts = .ok v ∧ v.length = n) c.bands signals)
    (hcalm : ∀ i < n, ∃ xs, SamplesAt i signals xs ∧ Calm xs) :
    ∃ s, c.evaluateChannel samples other n fs pad ts = .ok s ∧ IsMix n signals s := by
  obtain ⟨s, h1, h2, h3⟩ := mixBands_sum samples other n fs pad ts (hb.imp fun _ _ h => h.1) (List.replicate n (some 0)) (by simp)
    (fun v hv => by
      obtain ⟨b, -, h⟩ := forall₂_mem_right hb hv
      exact h.ge)
  refine ⟨s, h1, h2, fun i hi => ?_⟩
  obtain ⟨xs, hxs, hc⟩ := hcalm i hi
  exact ⟨xs, hxs, by rw [h3 i hi 0 xs (List.getElem?_replicate_of_lt hi) hxs, clippedSum_calm hc]⟩

theorem samplesAt_unique {i : ℕ} {signals : List (List (Option ℝ))} {xs ys : List ℝ} (h : SamplesAt i signals xs)
    (h' : SamplesAt i signals ys) : xs = ys := by
  unfold SamplesAt at h h'
  induction h generalizing ys with
  | nil => cases h'; rfl
  | cons hx _ ih =>
    cases h' with
    | cons hy h' =>
      rw [hx] at hy
      rw [ih h', Option.some.inj (Option.some.inj hy)]

theorem calm_perm {xs ys : List ℝ} (h : xs.Perm ys) (hc : Calm xs) : Calm ys := by
  rcases hc with hc | hc | hc
  · exact .inl (by rw [← (h.map abs).sum_eq]; exact hc)
  · exact .inr (.inl fun x hx => hc x (h.mem_iff.mpr hx))
  · exact .inr (.inr fun x hx => hc x (h.mem_iff.mpr hx))

/-- **C107 (partial)** The order of the bands of a channel does not matter if at every sample they are calm.
Missing: other signals (`c107_order_negation`). -/
theorem c107_order_partial (samples : Effect → List ℝ) (other : Nat → List (Int × ℝ) → Except Err (List (Option ℝ)))
    (c c' : Channel) (n : ℕ) (fs pad : ℤ) (ts : ℕ) (signals : List (List (Option ℝ))) (hp : c'.bands.Perm c.bands)
    (hb : List.Forall₂ (fun b v => b.evaluationBand samples other n fs pad ts = .ok v ∧ v.length = n) c.bands signals)
    (hcalm : ∀ i < n, ∃ xs, SamplesAt i signals xs ∧ Calm xs) :
    ∃ s, c.evaluateChannel samples other n fs pad ts = .ok s ∧ c'.evaluateChannel samples other n fs pad ts = .ok s := by
  obtain ⟨s, h1, h2, h3⟩ := c107_sum_partial samples other c n fs pad ts signals hb hcalm
  obtain ⟨signals', hb', hsp⟩ := List.perm_comp_forall₂ hp hb
  have hcalm' : ∀ i < n, ∃ xs xs', SamplesAt i signals xs ∧ SamplesAt i signals' xs' ∧ xs'.Perm xs ∧ Calm xs' := by
    intro i hi
    obtain ⟨xs, hxs, hc⟩ := hcalm i hi
    obtain ⟨xs', hxs', hxp⟩ := List.perm_comp_forall₂ hsp hxs
    exact ⟨xs, xs', hxs, hxs', hxp, calm_perm hxp.symm hc⟩
  obtain ⟨s', h1', h2', h3'⟩ := c107_sum_partial samples other c' n fs pad ts signals' hb' (fun i hi => by
    obtain ⟨xs, xs', -, h, -, hc⟩ := hcalm' i hi
    exact ⟨xs', h, hc⟩)
  refine ⟨s, h1, ?_⟩
  rw [h1']
  congr 1
  refine List.ext_getElem? fun i => ?_
  by_cases hi : i < n
  · obtain ⟨xs, xs', g1, g2, g3, -⟩ := hcalm' i hi
    obtain ⟨ys, k1, k2⟩ := h3 i hi
    obtain ⟨ys', k1', k2'⟩ := h3' i hi
    rw [k2, k2', samplesAt_unique k1 g1, samplesAt_unique k1' g2, g3.sum_eq]
  · rw [List.getElem?_eq_none (by omega), List.getElem?_eq_none (by omega)]

/-- What the bands of a channel play at a position, and what the channel plays: their sum, clipped. -/
theorem sumBands_sum (samples : Effect → List ℝ) (position : ℝ) (ts : ℕ) {bands : List Band} {xs : List ℝ}
    (hb : List.Forall₂ (fun b x => b.evaluate samples position b.lowerFrequencyLimit b.upperFrequencyLimit ts = .ok (some x)) bands xs) :
    ∀ a : ℝ, sumBands samples position ts (some a) bands = .ok (some (a + xs.sum)) := by
  induction hb with
  | nil => intro a; simp [sumBands]
  | @cons b x bands xs h _ ih =>
    intro a
    unfold sumBands
    rw [h]
    show sumBands samples position ts (fadd (some a) (some x)) bands = _
    rw [show fadd (some a) (some x) = some (a + x) from rfl, ih, List.sum_cons, add_assoc]

/-- **C107** Evaluated at a single position, a channel plays the sum of its bands, clipped once, whatever their signs. -/
theorem c107_position (samples : Effect → List ℝ) (c : Channel) (position : ℝ) (ts : ℕ) (xs : List ℝ)
    (hb : List.Forall₂ (fun b x => b.evaluate samples position b.lowerFrequencyLimit b.upperFrequencyLimit ts = .ok (some x)) c.bands xs) :
    c.evaluate samples position ts = .ok (some (clipped xs.sum)) := by
  unfold Channel.evaluate
  rw [sumBands_sum samples position ts hb 0, zero_add]
  exact congrArg Except.ok (clamp1_clipped _)

/-- A square wave of frequency 0: a constant. -/
def hold (a : ℚ) : Band :=
  { bandType := BandType.VectorialWave, lowerFrequencyLimit := 0, upperFrequencyLimit := 100,
    effects := [{ position := 0, baseSignal := some 1, keyframes := [{ relativePosition := some 0, amplitudeModulation := some a }] }] }

theorem hold_vectorial (a : ℚ) (low high : ℤ) :
    Effect.evaluateVectorial { position := 0, baseSignal := some 1, keyframes := [{ relativePosition := some 0, amplitudeModulation := some a }] }
      0 low high 1000 = .ok (some (a : ℝ)) := by
  simp [Effect.evaluateVectorial, Effect.timeLength, frequencyLoop, amplitudeModulationAt, fdiv, Effect.computeBaseSignal,
    Effect.baseSignalOrDefault, cround, BandType.VectorialWave, BandType.Transient, List.takeWhile, List.dropWhile]
  rw [show ⌊(2 : ℝ)⁻¹⌋ = 0 from by rw [Int.floor_eq_zero_iff]; constructor <;> norm_num]
  simp

theorem hold_switch (samples : Effect → List ℝ) (a : ℚ) :
    Band.evaluationSwitch samples (hold a) 0 { position := 0, baseSignal := some 1, keyframes := [{ relativePosition := some 0, amplitudeModulation := some a }] }
      0 100 1000 = .ok (some (a : ℝ)) := by
  unfold Band.evaluationSwitch
  rw [if_neg (by simp [hold, BandType.Curve, BandType.VectorialWave]), if_pos (show (hold a).bandType = BandType.VectorialWave from rfl)]
  exact hold_vectorial a 0 100

theorem hold_plays (samples : Effect → List ℝ) (other : Nat → List (Int × ℝ) → Except Err (List (Option ℝ))) (a : ℚ) :
    (hold a).evaluationBand samples other 1 8000 0 1000 = .ok [some (a : ℝ)] := by
  have h := hold_switch samples a
  unfold Band.evaluationBand
  rw [if_neg (by simp [hold, BandType.Curve, BandType.VectorialWave])]
  simp only [List.range_one, mapE]
  have hs : (hold a).evaluationSample samples 8000 0 1000 0 = .ok (some (a : ℝ)) := by
    unfold Band.evaluationSample
    simp [hold, Effect.timeLength, BandType.VectorialWave, BandType.Transient, sumEffects]
    have h' := h
    simp only [hold] at h'
    rw [h']
    simp [fadd]
  rw [hs]

/-- Non-vacuity of `c107_position`: bands of 1, 1 and -1 give 1. -/
example (samples : Effect → List ℝ) : (∀ a : ℚ, (hold a).evaluate samples 0 0 100 1000 = .ok (some (a : ℝ))) ∧
    Channel.evaluate samples { bands := [hold 1, hold 1, hold (-1)] } 0 1000 = .ok (some 1) := by
  have h : ∀ a : ℚ, (hold a).evaluate samples 0 0 100 1000 = .ok (some (a : ℝ)) := by
    intro a
    have := hold_switch samples a
    simp only [hold] at this
    unfold Band.evaluate
    simp [hold, Effect.timeLength, BandType.VectorialWave, BandType.Transient]
    exact this
  refine ⟨h, ?_⟩
  rw [c107_position samples { bands := [hold 1, hold 1, hold (-1)] } 0 1000 [((1 : ℚ) : ℝ), ((1 : ℚ) : ℝ), ((-1 : ℚ) : ℝ)] (.cons (h 1) (.cons (h 1) (.cons (h (-1)) .nil)))]
  norm_num [clipped]

/-- Rational numbers as real numbers. -/
def reals (l : List ℚ) : List ℝ := l.map (fun a : ℚ => (a : ℝ))

/-- A channel with constant bands. -/
def holds (l : List ℚ) : Channel := { bands := l.map hold }

theorem holds_plays (samples : Effect → List ℝ) (other : Nat → List (Int × ℝ) → Except Err (List (Option ℝ))) (l : List ℚ) :
    (holds l).evaluateChannel samples other 1 8000 0 1000 = .ok [some (clippedSum 0 (reals l))] := by
  obtain ⟨s, h1, h2, h3⟩ := mixBands_sum samples other 1 8000 0 1000 (bands := l.map hold)
    (signals := l.map fun a : ℚ => [some (a : ℝ)]) (by
      rw [List.forall₂_map_left_iff, List.forall₂_map_right_iff]
      rw [List.forall₂_same]
      exact fun a _ => hold_plays samples other a) (List.replicate 1 (some 0)) (by simp) (by simp)
  have h4 := h3 0 (by norm_num) 0 (reals l) rfl (by
    unfold SamplesAt reals
    rw [List.forall₂_map_left_iff, List.forall₂_map_right_iff]
    rw [List.forall₂_same]
    exact fun a _ => rfl)
  match s, h2, h4, h1 with
  | [x], _, h4, h1 =>
    have : x = some (clippedSum 0 (reals l)) := by simpa using h4
    rw [← this]
    exact h1

/-- **C107** is false of the code: with bands that play 1, 1 and -1 a channel plays 0, not 1, because it clips after every band. -/
theorem c107_clipping_negation (samples : Effect → List ℝ) (other : Nat → List (Int × ℝ) → Except Err (List (Option ℝ))) :
    (∀ a : ℚ, (hold a).evaluationBand samples other 1 8000 0 1000 = .ok [some (a : ℝ)]) ∧
    (holds [1, 1, -1]).evaluateChannel samples other 1 8000 0 1000 = .ok [some 0] ∧ clipped ([1, 1, -1] : List ℝ).sum = 1 := by
  refine ⟨hold_plays samples other, ?_, ?_⟩
  · rw [holds_plays]
    norm_num [clippedSum, clipped, reals]
  · norm_num [clipped]

/-- **C107** is false of the code: the order of the bands changes what is played. -/
theorem c107_order_negation (samples : Effect → List ℝ) (other : Nat → List (Int × ℝ) → Except Err (List (Option ℝ))) :
    (holds [1, -1, 1]).bands.Perm (holds [1, 1, -1]).bands ∧
    (holds [1, -1, 1]).evaluateChannel samples other 1 8000 0 1000 = .ok [some 1] ∧
    (holds [1, 1, -1]).evaluateChannel samples other 1 8000 0 1000 = .ok [some 0] := by
  refine ⟨List.Perm.map _ (by decide +kernel), ?_, (c107_clipping_negation samples other).2.1⟩
  rw [holds_plays]
  norm_num [clippedSum, clipped, reals]

/-- Non-vacuity of `c107_sum_partial` and `c107_order_partial`: bands of 1/2, -1/3 and 1/8 in another order, and (clipped) of 1/2 and 3/4. -/
example (samples : Effect → List ℝ) (other : Nat → List (Int × ℝ) → Except Err (List (Option ℝ))) :
    (holds [-1/3, 1/8, 1/2]).bands.Perm (holds [1/2, -1/3, 1/8]).bands ∧
    List.Forall₂ (fun b v => b.evaluationBand samples other 1 8000 0 1000 = .ok v ∧ v.length = 1) (holds [1/2, -1/3, 1/8]).bands
      [[some ((1/2 : ℚ) : ℝ)], [some ((-1/3 : ℚ) : ℝ)], [some ((1/8 : ℚ) : ℝ)]] ∧
    SamplesAt 0 [[some ((1/2 : ℚ) : ℝ)], [some ((-1/3 : ℚ) : ℝ)], [some ((1/8 : ℚ) : ℝ)]] [((1/2 : ℚ) : ℝ), ((-1/3 : ℚ) : ℝ), ((1/8 : ℚ) : ℝ)] ∧
    Calm [((1/2 : ℚ) : ℝ), ((-1/3 : ℚ) : ℝ), ((1/8 : ℚ) : ℝ)] ∧ Calm [(1/2 : ℝ), 3/4] ∧
    (holds [1/2, 3/4]).evaluateChannel samples other 1 8000 0 1000 = .ok [some 1] := by
  refine ⟨List.Perm.map _ (by decide +kernel), ?_, ?_, .inl ?_, .inr (.inl ?_), ?_⟩
  · exact .cons ⟨hold_plays _ _ _, rfl⟩ (.cons ⟨hold_plays _ _ _, rfl⟩ (.cons ⟨hold_plays _ _ _, rfl⟩ .nil))
  · exact .cons rfl (.cons rfl (.cons rfl .nil))
  · norm_num [abs_of_pos, abs_of_neg]
  · intro x hx
    simp at hx
    rcases hx with rfl | rfl <;> norm_num
  · rw [holds_plays]
    norm_num [clippedSum, clipped, reals]

/-! ### Effects -/

instance : RightCommutative fadd := ⟨fun a b c => by
  rcases a with - | a <;> rcases b with - | b <;> rcases c with - | c <;> simp [fadd]
  ring⟩

theorem fadd_zero (a : Option ℝ) : fadd a (some 0) = a := by
  cases a <;> simp [fadd]

/-- What an effect adds to its band at a position. -/
noncomputable def soundOf (samples : Effect → List ℝ) (b : Band) (position : ℝ) (ts : ℕ) (e : Effect) : Option ℝ :=
  if (e.position : ℝ) ≤ position then
    match b.evaluationSwitch samples position e b.lowerFrequencyLimit b.upperFrequencyLimit ts with
    | .error _ => none
    | .ok v => v
  else some 0

theorem sumEffects_eq (samples : Effect → List ℝ) (b : Band) (position : ℝ) (ts : ℕ) : ∀ (l : List Effect) (acc v : Option ℝ),
    sumEffects samples b position ts acc l = .ok v → v = (l.map (soundOf samples b position ts)).foldl fadd acc
  | [], acc, v, h => (Except.ok.inj h).symm
  | e :: l, acc, v, h => by
    unfold sumEffects at h
    rw [List.map_cons, List.foldl_cons]
    split at h
    · rename_i hp
      split at h
      · cases h
      · rename_i w hw
        rw [sumEffects_eq samples b position ts l _ v h]
        congr 2
        unfold soundOf
        rw [if_pos hp, hw]
    · rename_i hp
      rw [sumEffects_eq samples b position ts l _ v h]
      congr 1
      unfold soundOf
      rw [if_neg hp, fadd_zero]

/-- What a curve adds to its band at sample `i`. -/
noncomputable def curveOf (other : Nat → List (Int × ℝ) → Except Err (List (Option ℝ))) (curveType : Nat) (fs pad : ℤ) (ts : ℕ)
    (i : ℕ) (e : Effect) : Option ℝ :=
  match curvePoints fs ts e.keyframes with
  | .error _ => none
  | .ok points =>
    let last := (points.getLastD (0, 0)).1
    if points.length = 2 then some 0
    else match interpolateCurve other curveType points with
      | .error _ => none
      | .ok curve =>
        let position := toSigned 32 (u32 ((e.position + pad) * fs * ts))
        if position.toNat ≤ i ∧ ((i - position.toNat + (-position).toNat : ℕ) : ℤ) ≤ last then
          curve.getD (i - position.toNat + (-position).toNat) (some 0)
        else some 0

theorem addCurveEffect_eq (other : Nat → List (Int × ℝ) → Except Err (List (Option ℝ))) (curveType : Nat) (fs pad : ℤ) (ts : ℕ)
    (amp : List (Option ℝ)) (e : Effect) (r : List (Option ℝ)) (h : addCurveEffect other curveType fs pad ts amp e = .ok r) :
    r.length = amp.length ∧ ∀ i < amp.length, r.getD i (some 0) = fadd (amp.getD i (some 0)) (curveOf other curveType fs pad ts i e) := by
  unfold addCurveEffect at h
  unfold curveOf
  split at h
  · cases h
  · rename_i points hp
    rw [hp]
    dsimp only at h ⊢
    split at h
    · rename_i h2
      split at h
      · cases h
      · cases h
        exact ⟨rfl, fun i _ => by rw [if_pos h2, fadd_zero]⟩
    · rename_i h2
      split at h
      · cases h
      · rename_i curve hc
        rw [hc]
        unfold addCurve at h
        dsimp only at h
        split at h
        · cases h
        · cases h
          refine ⟨by rw [List.length_map, List.length_range], fun i hi => ?_⟩
          rw [if_neg h2, List.getD_eq_getElem?_getD, List.getElem?_map, List.getElem?_range hi]
          dsimp only [Option.map_some, Option.getD_some]
          generalize toSigned 32 (u32 ((e.position + pad) * fs * ts)) = p
          by_cases ht : p.toNat ≤ i ∧ ((i - p.toNat + (-p).toNat : ℕ) : ℤ) ≤ (points.getLastD (0, 0)).1
          · rw [if_pos (decide_eq_true ht), if_pos ht]
          · rw [if_neg (by simpa using ht), if_neg ht, fadd_zero]

theorem foldE_curve (other : Nat → List (Int × ℝ) → Except Err (List (Option ℝ))) (curveType : Nat) (fs pad : ℤ) (ts : ℕ) :
    ∀ (l : List Effect) (amp r : List (Option ℝ)), foldE (addCurveEffect other curveType fs pad ts) amp l = .ok r →
      r.length = amp.length ∧ ∀ i < amp.length,
        r.getD i (some 0) = (l.map (curveOf other curveType fs pad ts i)).foldl fadd (amp.getD i (some 0))
  | [], amp, r, h => by cases h; exact ⟨rfl, fun _ _ => rfl⟩
  | e :: l, amp, r, h => by
    unfold foldE at h
    split at h
    · cases h
    · rename_i s hs
      obtain ⟨h1, h2⟩ := addCurveEffect_eq other curveType fs pad ts amp e s hs
      obtain ⟨h3, h4⟩ := foldE_curve other curveType fs pad ts l s r h
      refine ⟨h3.trans h1, fun i hi => ?_⟩
      rw [h4 i (by omega), h2 i hi, List.map_cons, List.foldl_cons]

/-- **C107 (partial)** The order of the effects of a band does not matter, for any type of band.
Missing: if the evaluation of one order fails, that of another may fail in another way. -/
theorem c107_effects_partial (samples : Effect → List ℝ) (other : Nat → List (Int × ℝ) → Except Err (List (Option ℝ)))
    (b : Band) (effects : List Effect) (hp : effects.Perm b.effects) (n : ℕ) (fs pad : ℤ) (ts : ℕ) (s s' : List (Option ℝ))
    (h : b.evaluationBand samples other n fs pad ts = .ok s)
    (h' : Band.evaluationBand samples other { b with effects := effects } n fs pad ts = .ok s') : s = s' := by
  unfold Band.evaluationBand at h h'
  by_cases hc : b.bandType = BandType.Curve
  · rw [if_pos hc] at h
    dsimp only at h'
    rw [if_pos hc] at h'
    obtain ⟨l1, g1⟩ := foldE_curve _ _ _ _ _ _ _ _ h
    obtain ⟨l2, g2⟩ := foldE_curve _ _ _ _ _ _ _ _ h'
    refine List.ext_getElem (by rw [l1, l2]) fun i h1 h2 => ?_
    rw [l1] at h1
    have e1 := g1 i h1
    have e2 := g2 i h1
    rw [List.getD_eq_getElem?_getD, List.getElem?_eq_getElem (by omega), Option.getD_some] at e1 e2
    rw [e1, e2]
    exact (List.Perm.foldl_eq (hp.map _) _).symm
  · rw [if_neg hc] at h
    dsimp only at h'
    rw [if_neg hc] at h'
    obtain ⟨l1, g1⟩ := mapE_get _ _ _ h
    obtain ⟨l2, g2⟩ := mapE_get _ _ _ h'
    refine List.ext_getElem? fun i => ?_
    by_cases hi : i < n
    · obtain ⟨v, hv, fv⟩ := g1 i i (List.getElem?_range hi)
      obtain ⟨w, hw, fw⟩ := g2 i i (List.getElem?_range hi)
      rw [hv, hw]
      unfold Band.evaluationSample at fv fw
      split at fv
      · cases fv
      · split at fv
        · cases fv
        · split at fw
          · cases fw
          · split at fw
            · cases fw
            · have e1 := sumEffects_eq _ _ _ _ _ _ _ fv
              have e2 := sumEffects_eq _ _ _ _ _ _ _ fw
              rw [e1, e2]
              congr 1
              exact List.Perm.foldl_eq (((List.reverse_perm _).trans (hp.symm.trans (List.reverse_perm _).symm)).map _) _
    · rw [List.length_range] at l1 l2
      rw [List.getElem?_eq_none (by omega), List.getElem?_eq_none (by omega)]


/-- Non-vacuity of `c107_effects_partial`: the two vibrations of a band, in both orders. -/
example (samples : Effect → List ℝ) (other : Nat → List (Int × ℝ) → Except Err (List (Option ℝ))) :
    ∃ b ∈ (plain none).bands, ∃ e f, b.effects = [e, f] ∧ ([f, e] : List Effect).Perm b.effects ∧ e.position ≠ f.position ∧
      (∃ s, b.evaluationBand samples other 2400 8000 0 1000 = .ok s) ∧
      ∃ s, Band.evaluationBand samples other { b with effects := [f, e] } 2400 8000 0 1000 = .ok s := by
  have key : ∀ l : List Effect, l = [Sounds.sweep, { tone with id := -1, position := 200 }] ∨ l = [{ tone with id := -1, position := 200 }, Sounds.sweep] →
      ∃ s, Band.evaluationBand samples other { upperFrequencyLimit := 300, effects := l } 2400 8000 0 1000 = .ok s := by
    intro l hl
    obtain ⟨r, hr, -⟩ := c32_evaluateChannel samples other { bands := [{ upperFrequencyLimit := 300, effects := l }] } 2400 8000 0 1000
      (by rcases hl with rfl | rfl <;> refine ⟨by decide, ?_, ?_, ?_⟩ <;>
            simp [Sounds.sweep, tone, BandType.VectorialWave, BandType.Transient, BandType.Curve])
      (by rcases hl with rfl | rfl <;> simp [BandType.Curve])
    unfold Channel.evaluateChannel mixBands at hr
    generalize Band.evaluationBand samples other { upperFrequencyLimit := 300, effects := l } 2400 8000 0 1000 = q at hr ⊢
    cases q with
    | error x => cases hr
    | ok s => exact ⟨s, rfl⟩
  have hm : ({ upperFrequencyLimit := 300, effects := [Sounds.sweep, { tone with id := -1, position := 200 }] } : Band) ∈ (plain none).bands := by
    simp [plain]
  exact ⟨_, hm, _, _, rfl, List.Perm.swap _ _ _, by simp [Sounds.sweep, tone], key _ (.inl rfl), key _ (.inr rfl)⟩

end Haptics
