import Verif.Main.SpecPoint
import Verif.Main.PropsMix

/-! ## C109: the value of a channel at a position is the sample of its signal at that time -/

namespace Haptics
open SynthMain Sounds

/-- An effect that has ended is silent. -/
theorem soundOf_ended (samples : Effect → List ℝ) (b : Band) (position : ℝ) (ts : ℕ)
    (hb : b.bandType = BandType.Transient ∨ b.bandType = BandType.VectorialWave) (e : Effect) (len : ℚ)
    (hl : e.timeLength b.bandType (transientDuration ts) = .ok len) (hp : (e.position : ℝ) + (len : ℝ) < position) :
    soundOf samples b position ts e = some 0 := by
  unfold soundOf
  by_cases h : (e.position : ℝ) ≤ position
  · rw [if_pos h]
    unfold Band.evaluationSwitch
    rcases hb with hbt | hbt
    · rw [hbt] at hl
      rw [hbt, if_neg (by decide), if_neg (by decide), if_neg (by decide), if_pos rfl, if_pos h, hl]
      dsimp only
      rw [if_neg (by linarith)]
    · rw [hbt, vectorial_length e _ 0] at hl
      rw [hbt, if_neg (by decide), if_pos rfl]
      unfold Effect.evaluateVectorial
      rw [hl]
      dsimp only
      rw [if_pos (Or.inr (Or.inl hp))]
  · rw [if_neg h]

theorem zero_fadd (a : Option ℝ) : fadd (some 0) a = a := by
  cases a <;> simp [fadd]

theorem foldl_silent (a : Option ℝ) : ∀ l : List (Option ℝ), (∀ x ∈ l, x = some 0) → l.foldl fadd a = a
  | [], _ => rfl
  | x :: l, h => by
    rw [List.foldl_cons, h x List.mem_cons_self, fadd_zero]
    exact foldl_silent a l fun y hy => h y (List.mem_cons_of_mem _ hy)

theorem sumEffects_ok (samples : Effect → List ℝ) (b : Band) (position : ℝ) (ts : ℕ) : ∀ (l : List Effect) (acc v : Option ℝ),
    sumEffects samples b position ts acc l = .ok v → ∀ e ∈ l, (e.position : ℝ) ≤ position →
      b.evaluationSwitch samples position e b.lowerFrequencyLimit b.upperFrequencyLimit ts = .ok (soundOf samples b position ts e)
  | [], _, _, _, e, he, _ => by cases he
  | f :: l, acc, v, h, e, he, hp => by
    unfold sumEffects at h
    by_cases hf : (f.position : ℝ) ≤ position
    · rw [if_pos hf] at h
      split at h
      · cases h
      · rename_i w hw
        rcases List.mem_cons.mp he with rfl | he
        · unfold soundOf
          rw [if_pos hp, hw]
        · exact sumEffects_ok samples b position ts l _ v h e he hp
    · rw [if_neg hf] at h
      rcases List.mem_cons.mp he with rfl | he
      · exact absurd hp hf
      · exact sumEffects_ok samples b position ts l _ v h e he hp

/-- **C109 (partial)** The value of a band at the position of a sample is that sample of its signal, for transients at 1000 ticks per
second and vibrations, one at a time.
Missing: overlapping effects (`c109_overlap_negation`), other time scales (`c109_timescale_negation`), curves
(`c109_curve_negation`); for wavelets see `c109_wavelet_partial`. -/
theorem c109_band_partial (samples : Effect → List ℝ) (other : Nat → List (Int × ℝ) → Except Err (List (Option ℝ)))
    (b : Band) (n : ℕ) (fs : ℤ) (ts : ℕ) (s : List (Option ℝ)) (hf : 0 < fs)
    (hb : b.bandType = BandType.Transient ∧ ts = 1000 ∨ b.bandType = BandType.VectorialWave) (hone : b.OneAtATime ts)
    (h : b.evaluationBand samples other n fs 0 ts = .ok s) (i : ℕ) (hi : i < n) :
    ∃ v, s[i]? = some v ∧ b.evaluate samples (sampleTime ts fs i) b.lowerFrequencyLimit b.upperFrequencyLimit ts = .ok v := by
  have hb' : b.bandType = BandType.Transient ∨ b.bandType = BandType.VectorialWave := hb.imp_left And.left
  have hlen : ∀ e : Effect, e.timeLength b.bandType TRANSIENT_DURATION_MS = e.timeLength b.bandType (transientDuration ts) := by
    intro e
    rcases hb with ⟨-, rfl⟩ | hbt
    · rw [show transientDuration 1000 = TRANSIENT_DURATION_MS from by simp [transientDuration]]
    · rw [hbt]; exact vectorial_length _ _ _
  unfold Band.evaluationBand at h
  rw [if_neg (by rcases hb' with h | h <;> rw [h] <;> decide)] at h
  obtain ⟨l1, g1⟩ := mapE_get _ _ _ h
  obtain ⟨v, hv, fv⟩ := g1 i i (List.getElem?_range hi)
  refine ⟨v, hv, ?_⟩
  unfold Band.evaluationSample at fv
  have hpos : (ts : ℝ) * ((i : ℝ) / fs - ((0 : ℤ) : ℝ) * 0.001) = sampleTime ts fs i := by
    unfold sampleTime; push_cast; ring
  have hx0 : 0 ≤ sampleTime ts fs i := by
    have : (0 : ℝ) < fs := by exact_mod_cast hf
    unfold sampleTime; positivity
  rw [hpos] at fv
  generalize sampleTime ts fs i = x at fv hx0
  split at fv
  · cases fv
  · rename_i last hlast
    split at fv
    · cases fv
    · rename_i len hll
      have hsum := sumEffects_eq _ _ _ _ _ _ _ fv
      have hok := sumEffects_ok _ _ _ _ _ _ _ fv
      obtain ⟨init, hinit⟩ : ∃ init, b.effects = init ++ [last] := by
        obtain ⟨init, h⟩ := List.getLast?_eq_some_iff.mp hlast
        exact ⟨init, h⟩
      unfold Band.evaluate
      rw [hlast]
      dsimp only
      rw [if_neg (by rcases hb' with h | h <;> rw [h] <;> decide), hlen, hll]
      dsimp only
      by_cases hend : x > (last.position : ℝ) + (len : ℝ) ∨ x < 0
      · rw [decide_eq_true hend]
        have hend' := hend.resolve_right (by linarith)
        dsimp only
        rw [hsum, foldl_silent]
        intro y hy
        obtain ⟨e, he, rfl⟩ := List.mem_map.mp hy
        rw [List.mem_reverse, hinit, List.mem_append, List.mem_singleton] at he
        rcases he with he | rfl
        · have hone2 := hone.2
          rw [hinit, List.pairwise_append] at hone2
          obtain ⟨el, h1, h2⟩ := hone2.2.2 e he last List.mem_cons_self
          refine soundOf_ended samples b x ts hb' e el h1 ?_
          have h3 := (Rat.cast_lt (K := ℝ)).mpr h2
          push_cast at h3
          have h4 : (0 : ℝ) ≤ len := by
            exact_mod_cast hone.1 last (List.mem_of_mem_getLast? hlast) len hll
          linarith
        · exact soundOf_ended samples b x ts hb' e len hll hend'
      · rw [decide_eq_false hend]
        dsimp only
        cases hfind : b.effects.reverse.find? (fun e => decide ((e.position : ℝ) ≤ x)) with
        | none =>
          rw [List.find?_eq_none] at hfind
          dsimp only
          rw [hsum, foldl_silent]
          intro y hy
          obtain ⟨e, he, rfl⟩ := List.mem_map.mp hy
          unfold soundOf
          rw [if_neg (by simpa using hfind e he)]
        | some e =>
          obtain ⟨he, pre, rest, hrev, hpre⟩ := List.find?_eq_some_iff_append.mp hfind
          have he' : (e.position : ℝ) ≤ x := by simpa using he
          have hmem : e ∈ b.effects.reverse := by rw [hrev]; simp
          dsimp only
          have hrest : ∀ y ∈ rest.map (soundOf samples b x ts), y = some 0 := by
            intro y hy
            obtain ⟨f, hf', rfl⟩ := List.mem_map.mp hy
            have hp2 : b.effects.reverse.Pairwise (fun e f => ∃ len, f.timeLength b.bandType (transientDuration ts) = .ok len ∧
                (f.position : ℚ) + len < e.position) := List.pairwise_reverse.mpr hone.2
            rw [hrev, List.pairwise_append, List.pairwise_cons] at hp2
            obtain ⟨fl, h1, h2⟩ := hp2.2.1.1 f hf'
            refine soundOf_ended samples b x ts hb' f fl h1 ?_
            have h3 := (Rat.cast_lt (K := ℝ)).mpr h2
            push_cast at h3
            linarith
          have hpre' : ∀ y ∈ pre.map (soundOf samples b x ts), y = some 0 := by
            intro y hy
            obtain ⟨f, hf', rfl⟩ := List.mem_map.mp hy
            have := hpre f hf'
            unfold soundOf
            rw [if_neg (by simpa using this)]
          rw [hok e hmem he', hsum, hrev, List.map_append, List.foldl_append, foldl_silent _ _ hpre', List.map_cons, List.foldl_cons,
            zero_fadd, foldl_silent _ _ hrest]

theorem wavelet_ended (samples : Effect → List ℝ) (b : Band) (x : ℝ) (ts : ℕ) (hb : b.bandType = BandType.WaveletWave) (hts : 0 < ts) (e f : Effect)
    (hef : ((samples e).length : ℤ) * ts ≤ (f.position - e.position) * b.upperFrequencyLimit) (hF : 0 < b.upperFrequencyLimit)
    (hx : (f.position : ℝ) ≤ x) : soundOf samples b x ts e = some 0 := by
  unfold soundOf
  by_cases h : (e.position : ℝ) ≤ x
  · rw [if_pos h]
    unfold Band.evaluationSwitch
    rw [if_neg (by rw [hb]; decide), if_neg (by rw [hb]; decide), if_pos hb]
    unfold evaluateWavelet fdiv
    have hts' : (0 : ℝ) < ts := by exact_mod_cast hts
    rw [if_neg hts'.ne']
    have hF' : (0 : ℝ) < b.upperFrequencyLimit := by exact_mod_cast hF
    have h1 : ((samples e).length : ℝ) * ts ≤ ((f.position : ℝ) - e.position) * b.upperFrequencyLimit := by exact_mod_cast hef
    have h2 : ((samples e).length : ℝ) ≤ (x - e.position) * b.upperFrequencyLimit / ts := by
      rw [le_div_iff₀ hts']
      nlinarith
    have h3 : ((samples e).length : ℤ) ≤ ⌊(x - e.position) * (b.upperFrequencyLimit : ℝ) / ts⌋ := Int.le_floor.mpr (by exact_mod_cast h2)
    dsimp only
    rw [if_pos h3]
  · rw [if_neg h]

/-- **C109 (partial)** for wavelet bands whose blocks do not overlap. -/
theorem c109_wavelet_partial (samples : Effect → List ℝ) (other : Nat → List (Int × ℝ) → Except Err (List (Option ℝ)))
    (b : Band) (n : ℕ) (fs : ℤ) (ts : ℕ) (s : List (Option ℝ)) (hb : b.bandType = BandType.WaveletWave) (hts : 0 < ts)
    (hF : 0 < b.upperFrequencyLimit) (hone : b.BlockAtATime samples ts)
    (h : b.evaluationBand samples other n fs 0 ts = .ok s) (i : ℕ) (hi : i < n) :
    ∃ v, s[i]? = some v ∧ b.evaluate samples (sampleTime ts fs i) b.lowerFrequencyLimit b.upperFrequencyLimit ts = .ok v := by
  unfold Band.evaluationBand at h
  rw [if_neg (by rw [hb]; decide)] at h
  obtain ⟨l1, g1⟩ := mapE_get _ _ _ h
  obtain ⟨v, hv, fv⟩ := g1 i i (List.getElem?_range hi)
  refine ⟨v, hv, ?_⟩
  unfold Band.evaluationSample at fv
  have hpos : (ts : ℝ) * ((i : ℝ) / fs - ((0 : ℤ) : ℝ) * 0.001) = sampleTime ts fs i := by
    unfold sampleTime; push_cast; ring
  rw [hpos] at fv
  generalize sampleTime ts fs i = x at fv
  split at fv
  · cases fv
  · rename_i last hlast
    split at fv
    · cases fv
    · have hsum := sumEffects_eq _ _ _ _ _ _ _ fv
      have hok := sumEffects_ok _ _ _ _ _ _ _ fv
      unfold Band.evaluate
      rw [hlast]
      dsimp only
      rw [if_pos hb]
      dsimp only
      cases hfind : b.effects.reverse.find? (fun e => decide ((e.position : ℝ) ≤ x)) with
      | none =>
        rw [List.find?_eq_none] at hfind
        dsimp only
        rw [hsum, foldl_silent]
        intro y hy
        obtain ⟨e, he, rfl⟩ := List.mem_map.mp hy
        unfold soundOf
        rw [if_neg (by simpa using hfind e he)]
      | some e =>
        obtain ⟨he, pre, rest, hrev, hpre⟩ := List.find?_eq_some_iff_append.mp hfind
        have he' : (e.position : ℝ) ≤ x := by simpa using he
        have hmem : e ∈ b.effects.reverse := by rw [hrev]; simp
        dsimp only
        have hrest : ∀ y ∈ rest.map (soundOf samples b x ts), y = some 0 := by
          intro y hy
          obtain ⟨f, hf', rfl⟩ := List.mem_map.mp hy
          have hp2 : b.effects.reverse.Pairwise (fun e f => ((samples f).length : ℤ) * ts ≤ (e.position - f.position) * b.upperFrequencyLimit) :=
            List.pairwise_reverse.mpr hone
          rw [hrev, List.pairwise_append, List.pairwise_cons] at hp2
          exact wavelet_ended samples b x ts hb hts f e (hp2.2.1.1 f hf') hF he'
        have hpre' : ∀ y ∈ pre.map (soundOf samples b x ts), y = some 0 := by
          intro y hy
          obtain ⟨f, hf', rfl⟩ := List.mem_map.mp hy
          have := hpre f hf'
          unfold soundOf
          rw [if_neg (by simpa using this)]
        rw [hok e hmem he', hsum, hrev, List.map_append, List.foldl_append, foldl_silent _ _ hpre', List.map_cons, List.foldl_cons,
          zero_fadd, foldl_silent _ _ hrest]

/-- **C109 (partial)** for a channel, at the samples at which its bands are calm (C107).
Missing: the cases of `c109_band_partial`, and other signals, which `EvaluateChannel` clips after every band. -/
theorem c109_channel_partial (samples : Effect → List ℝ) (other : Nat → List (Int × ℝ) → Except Err (List (Option ℝ)))
    (c : Channel) (n : ℕ) (fs : ℤ) (ts : ℕ) (s : List (Option ℝ)) (hf : 0 < fs)
    (hb : ∀ b ∈ c.bands, ((b.bandType = BandType.Transient ∧ ts = 1000 ∨ b.bandType = BandType.VectorialWave) ∧ b.OneAtATime ts) ∨
      (b.bandType = BandType.WaveletWave ∧ 0 < ts ∧ 0 < b.upperFrequencyLimit ∧ b.BlockAtATime samples ts))
    (signals : List (List (Option ℝ)))
    (hs : List.Forall₂ (fun b v => b.evaluationBand samples other n fs 0 ts = .ok v) c.bands signals)
    (h : c.evaluateChannel samples other n fs 0 ts = .ok s) (i : ℕ) (hi : i < n) (xs : List ℝ) (hxs : SamplesAt i signals xs)
    (hcalm : Calm xs) : ∃ v, s[i]? = some v ∧ c.evaluate samples (sampleTime ts fs i) ts = .ok v := by
  have hlen : ∀ v ∈ signals, n ≤ v.length := by
    intro v hv
    obtain ⟨b, hbm, h⟩ : ∃ b ∈ c.bands, b.evaluationBand samples other n fs 0 ts = .ok v := by
      clear h hxs hb
      generalize c.bands = l at hs
      induction hs with
      | nil => cases hv
      | cons hr _ ih =>
        rcases List.mem_cons.mp hv with rfl | hv
        · exact ⟨_, List.mem_cons_self, hr⟩
        · obtain ⟨b, h1, h2⟩ := ih hv
          exact ⟨b, List.mem_cons_of_mem _ h1, h2⟩
    unfold Band.evaluationBand at h
    rw [if_neg (by rcases hb b hbm with ⟨⟨h, -⟩ | h, -⟩ | ⟨h, -⟩ <;> rw [h] <;> decide)] at h
    rw [mapE_length _ _ _ h, List.length_range]
  obtain ⟨s', h1, h2, h3⟩ := mixBands_sum samples other n fs 0 ts hs (List.replicate n (some 0)) (by simp) hlen
  have e : s' = s := by
    unfold Channel.evaluateChannel at h
    rw [h] at h1
    exact (Except.ok.inj h1).symm
  subst e
  refine ⟨some (clipped xs.sum), ?_, c107_position samples c _ ts xs ?_⟩
  · rw [h3 i hi 0 xs (List.getElem?_replicate_of_lt hi) hxs, clippedSum_calm hcalm]
  · clear h h1 h3 hcalm hlen
    generalize c.bands = l at hs hb
    unfold SamplesAt at hxs
    induction hs generalizing xs with
    | nil => cases hxs; exact .nil
    | @cons b v l signals hr _ ih =>
      cases hxs with
      | @cons _ x _ xs hx hxs =>
        refine .cons ?_ (ih xs hxs (fun q hq => hb q (List.mem_cons_of_mem _ hq)))
        obtain ⟨w, hw1, hw2⟩ : ∃ w, v[i]? = some w ∧
            b.evaluate samples (sampleTime ts fs i) b.lowerFrequencyLimit b.upperFrequencyLimit ts = .ok w := by
          rcases hb b List.mem_cons_self with ⟨hb1, hb2⟩ | ⟨hb1, hb2, hb3, hb4⟩
          · exact c109_band_partial samples other b n fs ts v hf hb1 hb2 hr i hi
          · exact c109_wavelet_partial samples other b n fs ts v hb1 hb2 hb3 hb4 hr i hi
        rw [hx] at hw1
        rw [hw2, ← Option.some.inj hw1]

/-- The effect of `hold`. -/
def steadily (a : ℚ) : Effect := { position := 0, baseSignal := some 1, keyframes := [{ relativePosition := some 0, amplitudeModulation := some a }] }

/-- Two constants at the same time. -/
def both : Band := { hold 1 with effects := [steadily (1/4), steadily (1/2)] }

theorem both_switch (samples : Effect → List ℝ) (a : ℚ) : both.evaluationSwitch samples 0 (steadily a) 0 100 1000 = .ok (some (a : ℝ)) := by
  unfold Band.evaluationSwitch
  rw [if_neg (show both.bandType ≠ BandType.Curve by decide), if_pos (show both.bandType = BandType.VectorialWave from rfl)]
  exact hold_vectorial a 0 100

theorem steadily_length (a : ℚ) (d : ℚ) : (steadily a).timeLength BandType.VectorialWave d = .ok 0 := by
  simp [steadily, Effect.timeLength, BandType.VectorialWave, BandType.Transient]

/-- **C109** is false of the code for effects that overlap: `Evaluate` plays only the last one that has started. -/
theorem c109_overlap_negation (samples : Effect → List ℝ) (other : Nat → List (Int × ℝ) → Except Err (List (Option ℝ))) :
    both.evaluationBand samples other 1 8000 0 1000 = .ok [some (3/4)] ∧
    both.evaluate samples (sampleTime 1000 8000 0) 0 100 1000 = .ok (some (1/2)) := by
  have h0 : sampleTime 1000 8000 0 = 0 := by simp [sampleTime]
  have hp : ∀ a : ℚ, (((steadily a).position : ℤ) : ℝ) ≤ 0 := by simp [steadily]
  refine ⟨?_, ?_⟩
  · have hsum : sumEffects samples both 0 1000 (some 0) [steadily (1/2), steadily (1/4)] = .ok (some (3/4)) := by
      have e1 := both_switch samples (1/2)
      have e2 := both_switch samples (1/4)
      change Band.evaluationSwitch samples both 0 (steadily (1/2)) both.lowerFrequencyLimit both.upperFrequencyLimit 1000 = _ at e1
      change Band.evaluationSwitch samples both 0 (steadily (1/4)) both.lowerFrequencyLimit both.upperFrequencyLimit 1000 = _ at e2
      simp only [sumEffects, if_pos (hp _), e1, e2, fadd]
      norm_num
    have hs : Band.evaluationSample samples both 8000 0 1000 0 = .ok (some (3/4 : ℝ)) := by
      unfold Band.evaluationSample
      rw [show both.effects.getLast? = some (steadily (1/2)) from rfl]
      dsimp only
      rw [show both.bandType = BandType.VectorialWave from rfl, steadily_length]
      dsimp only
      rw [show both.effects.reverse = [steadily (1/2), steadily (1/4)] from rfl]
      convert hsum using 2
      norm_num
    unfold Band.evaluationBand
    rw [if_neg (show both.bandType ≠ BandType.Curve by decide)]
    simp only [List.range_one, mapE, hs]
  · rw [h0]
    unfold Band.evaluate
    rw [show both.effects.getLast? = some (steadily (1/2)) from rfl]
    dsimp only
    rw [if_neg (show both.bandType ≠ BandType.WaveletWave by decide), show both.bandType = BandType.VectorialWave from rfl, steadily_length]
    dsimp only
    rw [decide_eq_false (by simp [steadily])]
    dsimp only
    rw [show both.effects.reverse = [steadily (1/2), steadily (1/4)] from rfl, List.find?_cons, decide_eq_true (hp _)]
    dsimp only
    rw [both_switch]
    norm_num

/-- Two blocks at the start, at eight samples per second. -/
def bothBlocks : Band :=
  { bandType := BandType.WaveletWave, lowerFrequencyLimit := 0, upperFrequencyLimit := 8, effects := [{ position := 0 }, { position := 0 }] }

/-- **C109** is false of the code for blocks that overlap: the signal has their sum, `Evaluate` gives the last one. -/
theorem c109_blocks_negation (other : Nat → List (Int × ℝ) → Except Err (List (Option ℝ))) :
    bothBlocks.evaluationBand (fun _ => [1/2, 0]) other 1 8000 0 1000 = .ok [some 1] ∧
    bothBlocks.evaluate (fun _ => [1/2, 0]) (sampleTime 1000 8000 0) 0 8 1000 = .ok (some (1/2)) := by
  have h0 : sampleTime 1000 8000 0 = 0 := by simp [sampleTime]
  have hs : ∀ low high, bothBlocks.evaluationSwitch (fun _ => [1/2, 0]) 0 { position := 0 } low high 1000 = .ok (some (1/2)) := by
    intro low high
    simp [Band.evaluationSwitch, bothBlocks, BandType.WaveletWave, BandType.Curve, BandType.VectorialWave, evaluateWavelet, fdiv]
  refine ⟨?_, ?_⟩
  · have hsum : sumEffects (fun _ => [1/2, 0]) bothBlocks 0 1000 (some 0) [{ position := 0 }, { position := 0 }] = .ok (some 1) := by
      simp only [sumEffects, hs, fadd]
      norm_num
    have hs : Band.evaluationSample (fun _ => [1/2, 0]) bothBlocks 8000 0 1000 0 = .ok (some (1 : ℝ)) := by
      unfold Band.evaluationSample
      rw [show bothBlocks.effects.getLast? = some { position := 0 } from rfl]
      dsimp only
      rw [show bothBlocks.bandType = BandType.WaveletWave from rfl]
      simp only [Effect.timeLength]
      rw [show bothBlocks.effects.reverse = [{ position := 0 }, { position := 0 }] from rfl]
      convert hsum using 2
      norm_num
    unfold Band.evaluationBand
    rw [if_neg (show bothBlocks.bandType ≠ BandType.Curve by decide)]
    simp only [List.range_one, mapE, hs]
  · rw [h0]
    unfold Band.evaluate
    rw [show bothBlocks.effects.getLast? = some { position := 0 } from rfl]
    dsimp only
    rw [if_pos (show bothBlocks.bandType = BandType.WaveletWave by decide)]
    dsimp only
    rw [show bothBlocks.effects.reverse = [{ position := 0 }, { position := 0 }] from rfl, List.find?_cons, decide_eq_true (by simp)]
    dsimp only
    rw [hs]

/-- A click at the start, with 2000 ticks per second. -/
def lateClick : Effect := { position := 0, keyframes := [{ relativePosition := some 0, amplitudeModulation := some 1 }] }

/-- The band of the click. -/
def lateBand : Band := { bandType := BandType.Transient, lowerFrequencyLimit := 0, upperFrequencyLimit := 100, effects := [lateClick] }

theorem lateClick_length (d : ℚ) : lateClick.timeLength BandType.Transient d = .ok d := by
  simp [lateClick, Effect.timeLength, BandType.Transient]

/-- **C109** is false of the code for transients with other time scales: `Evaluate` takes them to end after 22 ticks, not 22 ms. -/
theorem c109_timescale_negation (samples : Effect → List ℝ) (other : Nat → List (Int × ℝ) → Except Err (List (Option ℝ))) :
    (∃ s, lateBand.evaluationBand samples other 12 800 0 2000 = .ok s ∧ s[11]? = some (some 1)) ∧
    lateBand.evaluate samples (sampleTime 2000 800 11) 0 100 2000 = .ok (some 0) := by
  have hd : transientDuration 2000 = 44 := by norm_num [transientDuration, TRANSIENT_DURATION_MS]
  refine ⟨?_, ?_⟩
  · have hsmp : ∀ ti : ℕ, ti < 12 → ∃ v, Band.evaluationSample samples lateBand 800 0 2000 ti = .ok v ∧ (ti = 11 → v = some 1) := by
      intro ti hti
      unfold Band.evaluationSample
      rw [show lateBand.effects.getLast? = some lateClick from rfl, show lateBand.bandType = BandType.Transient from rfl, hd]
      dsimp only
      rw [lateClick_length]
      dsimp only
      rw [show lateBand.effects.reverse = [lateClick] from rfl]
      have hx : ((2000 : ℕ) : ℝ) * ((ti : ℝ) / ((800 : ℤ) : ℝ) - ((0 : ℤ) : ℝ) * 0.001) = 5 / 2 * ti := by
        push_cast; ring
      rw [hx]
      have hti0 : (0 : ℝ) ≤ ti := by positivity
      have hti1 : (ti : ℝ) ≤ 11 := by exact_mod_cast (by omega : ti ≤ 11)
      have hsw : lateBand.evaluationSwitch samples (5 / 2 * ti) lateClick lateBand.lowerFrequencyLimit lateBand.upperFrequencyLimit 2000 =
          .ok (some (Real.sin (4 * Real.pi * (5 / 2 * ti) / 44))) := by
        unfold Band.evaluationSwitch
        rw [show lateBand.bandType = BandType.Transient from rfl, if_neg (by decide), if_neg (by decide), if_neg (by decide), if_pos rfl,
          hd, lateClick_length, if_pos (by simp [lateClick])]
        dsimp only
        rw [if_pos (by simp [lateClick]; linarith)]
        have hact : transientActive (5 / 2 * ti) ((44 : ℚ) : ℝ) { relativePosition := some 0, amplitudeModulation := some 1 } = true := by
          unfold transientActive
          simp
          linarith
        have hact' : transientActive (5 / 2 * ti) (44 : ℝ) { amplitudeModulation := some 1 } = true := by
          have := hact
          push_cast at this
          exact this
        simp [lateClick, Effect.evaluateTransient]
        rw [List.dropWhile_cons_of_neg (by rw [hact']; simp)]
        simp [transientLoop, hact', fdiv]
      refine ⟨some (Real.sin (4 * Real.pi * (5 / 2 * ti) / 44)), ?_, ?_⟩
      · unfold sumEffects
        rw [if_pos (by simp [lateClick]), hsw]
        simp [sumEffects, fadd]
      · rintro rfl
        have : 4 * Real.pi * (5 / 2 * ((11 : ℕ) : ℝ)) / 44 = Real.pi / 2 + 2 * Real.pi := by push_cast; ring
        rw [this, Real.sin_add_two_pi, Real.sin_pi_div_two]
    obtain ⟨s, hs⟩ := mapE_total (Band.evaluationSample samples lateBand 800 0 2000) (List.range 12) (fun a ha => by
      obtain ⟨v, hv, -⟩ := hsmp a (List.mem_range.mp ha)
      exact ⟨v, hv⟩)
    refine ⟨s, ?_, ?_⟩
    · unfold Band.evaluationBand
      rw [if_neg (show lateBand.bandType ≠ BandType.Curve by decide)]
      exact hs
    · obtain ⟨-, g⟩ := mapE_get _ _ _ hs
      obtain ⟨v, hv, fv⟩ := g 11 11 (List.getElem?_range (by norm_num))
      obtain ⟨w, hw, h11⟩ := hsmp 11 (by norm_num)
      rw [hw] at fv
      rw [hv, ← Except.ok.inj fv, h11 rfl]
  · unfold Band.evaluate
    rw [show lateBand.effects.getLast? = some lateClick from rfl]
    dsimp only
    rw [if_neg (show lateBand.bandType ≠ BandType.WaveletWave by decide), show lateBand.bandType = BandType.Transient from rfl, lateClick_length]
    dsimp only
    rw [decide_eq_true (by left; norm_num [lateClick, sampleTime, TRANSIENT_DURATION_MS])]

/-- A curve with two points. -/
def shortCurve : Effect :=
  { position := 0, keyframes := [{ relativePosition := some 0, amplitudeModulation := some 1 }, { relativePosition := some 1, amplitudeModulation := some 1 }] }

/-- The band of the curve. -/
def shortBand : Band := { bandType := BandType.Curve, curveType := some CurveType.Linear, effects := [shortCurve] }

/-- **C109** is false of the code for curves: a curve with two points is not played at all, but has values. -/
theorem c109_curve_negation (samples : Effect → List ℝ) (other : Nat → List (Int × ℝ) → Except Err (List (Option ℝ))) :
    shortBand.evaluationBand samples other 1 1000 0 1000 = .ok [some 0] ∧
    shortBand.evaluate samples (sampleTime 1000 1000 0) 0 0 1000 = .ok (some 1) := by
  have h0 : sampleTime 1000 1000 0 = 0 := by simp [sampleTime]
  refine ⟨?_, ?_⟩
  · simp [Band.evaluationBand, shortBand, foldE, addCurveEffect, shortCurve, curvePoints, mapE, curvePoint, u32, toSigned, interpolation2]
  · rw [h0]
    simp [Band.evaluate, shortBand, shortCurve, Effect.timeLength, BandType.Curve, BandType.WaveletWave, BandType.Transient,
      Band.evaluationSwitch, Effect.evaluateKeyframes, Keyframe.point, Band.curveTypeOrDefault, linearSegment, fdiv]
    rw [decide_eq_false (by norm_num)]

/-- Non-vacuity of `c109_band_partial`: two vibrations and a click, all sampled. -/
example (samples : Effect → List ℝ) (other : Nat → List (Int × ℝ) → Except Err (List (Option ℝ))) :
    (plain none).bands.map (fun b => b.effects.length) = [2, 1] ∧
    (∀ b ∈ (plain none).bands, (b.bandType = BandType.Transient ∧ 1000 = 1000 ∨ b.bandType = BandType.VectorialWave) ∧ b.OneAtATime 1000) ∧
    ∃ s, (plain none).evaluateChannel samples other 2400 8000 0 1000 = .ok s ∧ s.length = 2400 := by
  obtain ⟨r, hr, hl, _⟩ := c32_evaluateChannel samples other (plain none) 2400 8000 0 1000 (plain_plays _).1 (plain_plays _).2
  refine ⟨rfl, ?_, r, hr, hl⟩
  intro b hb
  simp only [plain, List.mem_cons, List.not_mem_nil, or_false] at hb
  rcases hb with rfl | rfl
  · refine ⟨Or.inr rfl, ?_, ?_⟩
    · intro e he len hlen
      simp only [List.mem_cons, List.not_mem_nil, or_false] at he
      rcases he with rfl | rfl <;>
        (simp [Sounds.sweep, tone, Effect.timeLength, BandType.VectorialWave, BandType.Transient] at hlen; subst hlen; norm_num)
    · simp [Sounds.sweep, tone, Effect.timeLength, BandType.VectorialWave, BandType.Transient]
      norm_num
  · refine ⟨Or.inl ⟨rfl, rfl⟩, ?_, by simp⟩
    intro e he len hlen
    simp only [List.mem_cons, List.not_mem_nil, or_false] at he
    subst he
    simp [tick, Effect.timeLength, BandType.Transient, transientDuration, TRANSIENT_DURATION_MS] at hlen
    subst hlen
    norm_num

/-- Two blocks of eight samples, at eight samples per second, the second one second after the first. -/
def blocks : Band :=
  { bandType := BandType.WaveletWave, lowerFrequencyLimit := 0, upperFrequencyLimit := 8, effects := [{ position := 0 }, { position := 1000 }] }

/-- Non-vacuity of `c109_wavelet_partial`: two blocks, one after the other, are sampled. -/
example (other : Nat → List (Int × ℝ) → Except Err (List (Option ℝ))) :
    blocks.bandType = BandType.WaveletWave ∧ 0 < blocks.upperFrequencyLimit ∧
    blocks.BlockAtATime (fun _ => List.replicate 8 (1/2)) 1000 ∧
    ∃ s, blocks.evaluationBand (fun _ => List.replicate 8 (1/2)) other 16 8 0 1000 = .ok s := by
  refine ⟨rfl, by decide, ?_, ?_⟩
  · simp [Band.BlockAtATime, blocks]
  · obtain ⟨r, hr, _⟩ := evaluationBand_total (fun _ => List.replicate 8 (1/2)) other { bands := [blocks] } 16 8 0 1000
      ⟨by decide, by simp [blocks], by simp [blocks], by simp [blocks, BandType.WaveletWave, BandType.Transient]⟩ blocks (by simp) (by decide) (by simp [blocks])
    exact ⟨r, hr⟩

/-- Non-vacuity of `c109_channel_partial`: bands of 1/2, -1/3 and 1/8. -/
example (samples : Effect → List ℝ) (other : Nat → List (Int × ℝ) → Except Err (List (Option ℝ))) :
    (∀ b ∈ (holds [1/2, -1/3, 1/8]).bands, (b.bandType = BandType.Transient ∧ 1000 = 1000 ∨ b.bandType = BandType.VectorialWave) ∧ b.OneAtATime 1000) ∧
    List.Forall₂ (fun b v => b.evaluationBand samples other 1 8000 0 1000 = .ok v) (holds [1/2, -1/3, 1/8]).bands
      [[some ((1/2 : ℚ) : ℝ)], [some ((-1/3 : ℚ) : ℝ)], [some ((1/8 : ℚ) : ℝ)]] ∧
    SamplesAt 0 [[some ((1/2 : ℚ) : ℝ)], [some ((-1/3 : ℚ) : ℝ)], [some ((1/8 : ℚ) : ℝ)]] [((1/2 : ℚ) : ℝ), ((-1/3 : ℚ) : ℝ), ((1/8 : ℚ) : ℝ)] ∧
    Calm [((1/2 : ℚ) : ℝ), ((-1/3 : ℚ) : ℝ), ((1/8 : ℚ) : ℝ)] := by
  refine ⟨?_, ?_, ?_, .inl ?_⟩
  · intro b hb
    obtain ⟨a, -, rfl⟩ := List.mem_map.mp hb
    refine ⟨Or.inr rfl, ?_, by simp [hold]⟩
    intro e he len hlen
    simp only [hold, List.mem_cons, List.not_mem_nil, or_false] at he
    subst he
    have := (steadily_length a (transientDuration 1000)).symm.trans hlen
    rw [← Except.ok.inj this]
  · exact .cons (hold_plays _ _ _) (.cons (hold_plays _ _ _) (.cons (hold_plays _ _ _) .nil))
  · exact .cons rfl (.cons rfl (.cons rfl .nil))
  · norm_num [abs_of_pos, abs_of_neg]

end Haptics
