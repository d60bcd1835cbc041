import Verif.Main.SpecPadding
import Verif.Main.PropsRate

/-! ## C105: padding is silence before and after the sound -/

namespace Haptics
open SynthMain Sounds

/-- Signals of `n` and `n'` samples, one delayed. -/
def Shifted (d n n' : ℕ) (s s' : List (Option ℝ)) : Prop := s.length = n ∧ s'.length = n' ∧ Delayed d s s'

theorem shifted_silence (d n n' : ℕ) : Shifted d n n' (List.replicate n (some 0)) (List.replicate n' (some 0)) := by
  refine ⟨by simp, by simp, fun i _ hi => ?_, fun i hi hi' => ?_⟩
  · rw [List.length_replicate] at hi
    rw [List.getElem?_replicate_of_lt hi]
  · rw [List.length_replicate] at hi hi'
    rw [List.getElem?_replicate_of_lt hi, List.getElem?_replicate_of_lt hi']

theorem mapE_shifted {d n n' : ℕ} {f f' : ℕ → Except Err (Option ℝ)} (h0 : ∀ i < d, ∀ v, f' i = .ok v → v = some 0)
    (hff : ∀ i, f' (i + d) = f i) {s s' : List (Option ℝ)} (h : mapE f (List.range n) = .ok s)
    (h' : mapE f' (List.range n') = .ok s') : Shifted d n n' s s' := by
  obtain ⟨l1, g1⟩ := mapE_get _ _ _ h
  obtain ⟨l2, g2⟩ := mapE_get _ _ _ h'
  rw [List.length_range] at l1 l2
  refine ⟨l1, l2, fun i hi hi' => ?_, fun i hi hi' => ?_⟩
  · obtain ⟨y, hy, fy⟩ := g2 i i (List.getElem?_range (by omega))
    rw [hy, h0 i hi y fy]
  · obtain ⟨x, hx, fx⟩ := g1 i i (List.getElem?_range (by omega))
    obtain ⟨y, hy, fy⟩ := g2 (i + d) (i + d) (List.getElem?_range (by omega))
    rw [hff, fx] at fy
    rw [hx, hy, Except.ok.inj fy]

theorem mixBand_shifted {d n n' : ℕ} {a a' b b' : List (Option ℝ)} (ha : Shifted d n n' a a') (hb : Shifted d n n' b b') :
    Shifted d n n' (mixBand a b) (mixBand a' b') := by
  obtain ⟨a1, a2, a3, a4⟩ := ha
  obtain ⟨b1, b2, b3, b4⟩ := hb
  have e1 : (mixBand a b).length = n := by unfold mixBand; rw [List.length_zipWith]; omega
  have e2 : (mixBand a' b').length = n' := by unfold mixBand; rw [List.length_zipWith]; omega
  refine ⟨e1, e2, fun i hi hi' => ?_, fun i hi hi' => ?_⟩
  · rw [e2] at hi'
    unfold mixBand
    rw [List.getElem?_zipWith, a3 i hi (by omega), b3 i hi (by omega)]
    simp [fadd, clamp1]
    rw [if_neg (by norm_num), if_neg (by norm_num)]
  · rw [e1] at hi
    rw [e2] at hi'
    unfold mixBand
    rw [List.getElem?_zipWith, List.getElem?_zipWith, a4 i (by omega) (by omega), b4 i (by omega) (by omega)]

/-- Before its first effect a band is silent. -/
theorem sumEffects_before (samples : Effect → List ℝ) (b : Band) (position : ℝ) (ts : ℕ) (hp : position < 0) (acc : Option ℝ) :
    ∀ l : List Effect, (∀ e ∈ l, 0 ≤ e.position) → sumEffects samples b position ts acc l = .ok acc
  | [], _ => rfl
  | e :: l, h => by
    have he : (0 : ℝ) ≤ e.position := by exact_mod_cast h e List.mem_cons_self
    unfold sumEffects
    rw [if_neg (by linarith)]
    exact sumEffects_before samples b position ts hp acc l (fun x hx => h x (List.mem_cons_of_mem _ hx))

/-- **C105** for a channel without curves whose effects do not start before 0: with a padding of `pad` ms, `d` samples, it is
silent for `d` samples and then plays what it plays without padding.  (The full property has no exception for curves: see
`c105_curve_negation`.) -/
theorem c105_channel_partial (samples : Effect → List ℝ) (other : Nat → List (Int × ℝ) → Except Err (List (Option ℝ)))
    (c : Channel) (n n' d : ℕ) (fs pad : ℤ) (ts : ℕ) (s s' : List (Option ℝ)) (hf : 0 < fs) (hts : 0 < ts) (hd : pad * fs = 1000 * d)
    (hc : ∀ b ∈ c.bands, b.bandType ≠ BandType.Curve ∧ ∀ e ∈ b.effects, 0 ≤ e.position)
    (h : c.evaluateChannel samples other n fs 0 ts = .ok s) (h' : c.evaluateChannel samples other n' fs pad ts = .ok s') :
    s.length = n ∧ s'.length = n' ∧ Delayed d s s' := by
  have hfs : (0 : ℝ) < fs := by exact_mod_cast hf
  have hdr : (pad : ℝ) * fs = 1000 * d := by exact_mod_cast hd
  have htr : (0 : ℝ) < ts := by exact_mod_cast hts
  have hpad : (pad : ℝ) * 0.001 = d / fs := by
    rw [eq_div_iff hfs.ne']; linarith
  have key : ∀ (l : List Band) (a a' r r' : List (Option ℝ)),
      (∀ b ∈ l, b.bandType ≠ BandType.Curve ∧ ∀ e ∈ b.effects, 0 ≤ e.position) → Shifted d n n' a a' →
      mixBands samples other n fs 0 ts a l = .ok r → mixBands samples other n' fs pad ts a' l = .ok r' → Shifted d n n' r r' := by
    intro l
    induction l with
    | nil => intro a a' r r' _ ha h h'; cases h; cases h'; exact ha
    | cons b l ih =>
      intro a a' r r' hl ha h h'
      unfold mixBands at h h'
      split at h
      · cases h
      · rename_i v hv
        split at h'
        · cases h'
        · rename_i v' hv'
          obtain ⟨hb1, hb2⟩ := hl b List.mem_cons_self
          unfold Band.evaluationBand at hv hv'
          rw [if_neg hb1] at hv hv'
          refine ih _ _ _ _ (fun x hx => hl x (List.mem_cons_of_mem _ hx)) (mixBand_shifted ha (mapE_shifted ?_ ?_ hv hv')) h h'
          · intro i hi w hw
            unfold Band.evaluationSample at hw
            split at hw
            · cases hw
            · split at hw
              · cases hw
              · rw [sumEffects_before _ _ _ _ ?_ _ _ (fun e he => hb2 e (List.mem_reverse.mp he))] at hw
                · exact (Except.ok.inj hw).symm
                · rw [hpad]
                  have : (i : ℝ) / fs < d / fs := by
                    rw [div_lt_div_iff_of_pos_right hfs]; exact_mod_cast hi
                  nlinarith
          · intro i
            unfold Band.evaluationSample
            have : ((i + d : ℕ) : ℝ) / fs - pad * 0.001 = (i : ℝ) / fs - ((0 : ℤ) : ℝ) * 0.001 := by
              rw [hpad]; push_cast; ring
            rw [this]
  exact key c.bands _ _ s s' hc (shifted_silence d n n') h h'

theorem vectorial_length (e : Effect) (d d' : ℚ) : e.timeLength BandType.VectorialWave d = e.timeLength BandType.VectorialWave d' := by
  unfold Effect.timeLength
  simp [BandType.VectorialWave, BandType.Transient]

/-- After the end of its effects a band is silent. -/
theorem sumEffects_after (samples : Effect → List ℝ) (b : Band) (position : ℝ) (ts : ℕ)
    (hb : b.bandType = BandType.Transient ∨ b.bandType = BandType.VectorialWave) :
    ∀ l : List Effect, (∀ e ∈ l, ∀ len, e.timeLength b.bandType (transientDuration ts) = .ok len → (e.position : ℝ) + (len : ℝ) < position) →
      ∀ v, sumEffects samples b position ts (some 0) l = .ok v → v = some 0
  | [], _, v, h => (Except.ok.inj h).symm
  | e :: l, hl, v, h => by
    have ih := sumEffects_after samples b position ts hb l (fun x hx => hl x (List.mem_cons_of_mem _ hx)) v
    unfold sumEffects at h
    by_cases hp : (e.position : ℝ) ≤ position
    · rw [if_pos hp] at h
      split at h
      · cases h
      · rename_i w hw
        have hw0 : w = some 0 := by
          unfold Band.evaluationSwitch at hw
          rcases hb with hbt | hbt
          · rw [hbt] at hw
            rw [if_neg (by decide), if_neg (by decide), if_neg (by decide), if_pos rfl, if_pos hp] at hw
            split at hw
            · cases hw
            · rename_i len hlen
              have := hl e List.mem_cons_self len (by rw [hbt]; exact hlen)
              rw [if_neg (by linarith)] at hw
              exact (Except.ok.inj hw).symm
          · rw [hbt] at hw
            rw [if_neg (by decide), if_pos rfl] at hw
            unfold Effect.evaluateVectorial at hw
            split at hw
            · cases hw
            · rename_i len hlen
              have := hl e List.mem_cons_self len (by rw [hbt, vectorial_length e _ 0]; exact hlen)
              rw [if_pos (Or.inr (Or.inl this))] at hw
              exact (Except.ok.inj hw).symm
        rw [hw0] at h
        refine ih ?_
        rw [← h]
        simp [fadd]
    · rw [if_neg hp] at h
      exact ih h

/-- **C105**: and after the sound, until the end of the padding, it is silent; for transients and vibrations that all end within
`T` ticks. -/
theorem c105_after_partial (samples : Effect → List ℝ) (other : Nat → List (Int × ℝ) → Except Err (List (Option ℝ)))
    (c : Channel) (n : ℕ) (fs pad : ℤ) (ts : ℕ) (s : List (Option ℝ)) (T : ℚ) (hf : 0 < fs) (hts : 0 < ts)
    (hc : ∀ b ∈ c.bands, (b.bandType = BandType.Transient ∨ b.bandType = BandType.VectorialWave) ∧
      ∀ e ∈ b.effects, ∀ len, e.timeLength b.bandType (transientDuration ts) = .ok len → (e.position : ℚ) + len ≤ T)
    (h : c.evaluateChannel samples other n fs pad ts = .ok s) (i : ℕ) (hi : i < n)
    (hlate : T / ts + pad / 1000 < (i : ℚ) / fs) : s[i]? = some (some 0) := by
  have htr : (0 : ℝ) < ts := by exact_mod_cast hts
  have hlate' : (T : ℝ) < ts * ((i : ℝ) / fs - pad * 0.001) := by
    have h1 := (Rat.cast_lt (K := ℝ)).mpr hlate
    push_cast at h1
    have h2 : (T : ℝ) / ts < (i : ℝ) / fs - pad * 0.001 := by linarith
    rw [div_lt_iff₀ htr] at h2
    linarith
  have key : ∀ (l : List Band) (a r : List (Option ℝ)), (∀ b ∈ l, b ∈ c.bands) → a[i]? = some (some 0) → a.length = n →
      mixBands samples other n fs pad ts a l = .ok r → r[i]? = some (some 0) := by
    intro l
    induction l with
    | nil => intro a r _ ha _ h; cases h; exact ha
    | cons b l ih =>
      intro a r hl ha hn h
      unfold mixBands at h
      split at h
      · cases h
      · rename_i v hv
        obtain ⟨hb1, hb2⟩ := hc b (hl b List.mem_cons_self)
        unfold Band.evaluationBand at hv
        rw [if_neg (by rcases hb1 with h | h <;> rw [h] <;> decide)] at hv
        obtain ⟨hvl, g⟩ := mapE_get _ _ _ hv
        rw [List.length_range] at hvl
        obtain ⟨y, hy, fy⟩ := g i i (List.getElem?_range hi)
        have hy0 : y = some 0 := by
          unfold Band.evaluationSample at fy
          split at fy
          · cases fy
          · split at fy
            · cases fy
            · refine sumEffects_after samples b _ ts hb1 _ ?_ y fy
              intro e he len hlen
              have h1 := hb2 e (List.mem_reverse.mp he) len hlen
              have h2 := (Rat.cast_le (K := ℝ)).mpr h1
              push_cast at h2
              linarith
        refine ih _ _ (fun x hx => hl x (List.mem_cons_of_mem _ hx)) ?_ ?_ h
        · unfold mixBand
          rw [List.getElem?_zipWith, ha, hy, hy0]
          simp [fadd, clamp1]
          rw [if_neg (by norm_num), if_neg (by norm_num)]
        · unfold mixBand
          rw [List.length_zipWith]
          omega
  exact key c.bands _ s (fun _ h => h) (List.getElem?_replicate_of_lt hi) (by simp) h

/-- Non-vacuity of `c105_after_partial`: a vibration of 100 ms and a click, with 20 ms of padding at 8000 Hz. -/
example (samples : Effect → List ℝ) (other : Nat → List (Int × ℝ) → Except Err (List (Option ℝ))) :
    (∃ s, (plain none).evaluateChannel samples other 2720 8000 20 1000 = .ok s ∧ s.length = 2720) ∧
    (∀ b ∈ (plain none).bands, (b.bandType = BandType.Transient ∨ b.bandType = BandType.VectorialWave) ∧
      ∀ e ∈ b.effects, ∀ len, e.timeLength b.bandType (transientDuration 1000) = .ok len → (e.position : ℚ) + len ≤ 300) ∧
    (300 : ℚ) / (1000 : ℕ) + (20 : ℤ) / 1000 < ((2570 : ℕ) : ℚ) / (8000 : ℤ) := by
  obtain ⟨r, hr, hl, _⟩ := c32_evaluateChannel samples other (plain none) 2720 8000 20 1000 (plain_plays _).1 (plain_plays _).2
  refine ⟨⟨r, hr, hl⟩, ?_, by norm_num⟩
  intro b hb
  simp only [plain, List.mem_cons, List.not_mem_nil, or_false] at hb
  rcases hb with rfl | rfl
  · refine ⟨Or.inr rfl, ?_⟩
    intro e he len hlen
    simp only [List.mem_cons, List.not_mem_nil, or_false] at he
    rcases he with rfl | rfl <;>
      (simp [Sounds.sweep, tone, Effect.timeLength, BandType.VectorialWave, BandType.Transient] at hlen ⊢; subst hlen; norm_num)
  · refine ⟨Or.inl rfl, ?_⟩
    intro e he len hlen
    simp only [List.mem_cons, List.not_mem_nil, or_false] at he
    subst he
    simp [tick, Effect.timeLength, BandType.Transient, transientDuration, TRANSIENT_DURATION_MS] at hlen ⊢
    subst hlen
    norm_num

/-- **C105** for the program: the signals with padding are those without, delayed. -/
theorem c105_signals_partial (parts : Parts) (h : Experience) (fs pad : ℤ) (d : ℕ) (sig sig' : List (List (Option ℝ)))
    (hf : 0 < fs) (hd : pad * fs = 1000 * d)
    (hb : ∀ pc ∈ channelsOf h.linearize.perceptions, ∀ b ∈ pc.2.bands, b.bandType ≠ BandType.Curve ∧ ∀ e ∈ b.effects, 0 ≤ e.position)
    (hw : ∀ ts b b', parts.transform ts b = .ok b' → b'.bandType ≠ BandType.Curve ∧ ∀ e ∈ b'.effects, 0 ≤ e.position)
    (hs : synthesize parts h fs 0 = .ok sig) (hs' : synthesize parts h fs pad = .ok sig') :
    List.Forall₂ (Delayed d) sig sig' := by
  obtain ⟨ts, l1, n, x1, x2, x3, x4⟩ := c82_content parts h fs 0 sig hs
  obtain ⟨t2, l2, n', y1, -, -, y4⟩ := c82_content parts h fs pad sig' hs'
  rw [x1] at y1
  have e2 := Option.some.inj y1
  subst e2
  have hts : 0 < ts := by
    rcases Nat.eq_zero_or_pos ts with h0 | h0
    · subst h0; unfold sampleCount at x3; rw [if_pos rfl] at x3; cases x3
    · exact h0
  generalize channelsOf h.linearize.perceptions = cs at x4 y4 hb
  clear hs hs' x1 y1 x2 x3
  induction x4 generalizing sig' with
  | nil => cases y4; exact .nil
  | @cons pc s cs sig hx _ ih =>
    cases y4 with
    | @cons _ s' _ sig'' hy y4 =>
      refine .cons ?_ (ih _ y4 (fun q hq => hb q (List.mem_cons_of_mem _ hq)))
      obtain ⟨bands, r, d1, d2, rfl⟩ := hx
      obtain ⟨bands', r', d1', d2', rfl⟩ := hy
      have hbb := decoded_unique d1 d1'
      subst hbb
      have hun : ∀ b ∈ bands, b.bandType ≠ BandType.Curve ∧ ∀ e ∈ b.effects, 0 ≤ e.position := by
        have : ∀ {l l1 : List Band}, List.Forall₂ (Decoded parts ts) l l1 →
            (∀ b ∈ l, b.bandType ≠ BandType.Curve ∧ ∀ e ∈ b.effects, 0 ≤ e.position) →
            ∀ b ∈ l1, b.bandType ≠ BandType.Curve ∧ ∀ e ∈ b.effects, 0 ≤ e.position := by
          intro l l1 h1
          induction h1 with
          | nil => intro _ b hb; cases hb
          | cons hd _ ih =>
            intro hall b hb
            rcases List.mem_cons.mp hb with rfl | hb
            · cases hd with
              | wavelet _ w1 w2 => exact hw _ _ _ w2
              | other w1 => exact hall _ List.mem_cons_self
            · exact ih (fun x hx => hall x (List.mem_cons_of_mem _ hx)) b hb
        exact this d1 (hb pc List.mem_cons_self)
      obtain ⟨-, -, ha, ha'⟩ := c105_channel_partial parts.samples parts.other _ n n' d fs pad ts r r' hf hts hd hun d2 d2'
      refine ⟨fun i hi hi' => ?_, fun i hi hi' => ?_⟩
      · rw [List.length_map] at hi'
        rw [List.getElem?_map, ha i hi hi']
        simp
      · rw [List.length_map] at hi hi'
        rw [List.getElem?_map, List.getElem?_map, ha' i hi hi']

/-- Non-vacuity of `c105_signals_partial`: 20 ms of padding at 8000 Hz. -/
example (parts : Parts) : (∃ s, synthesize parts (heard (some 8000)) 8000 0 = .ok [s] ∧ s.length = 2400) ∧
    (∃ s, synthesize parts (heard (some 8000)) 8000 20 = .ok [s] ∧ s.length = 2720) ∧ (20 : ℤ) * 8000 = 1000 * (160 : ℕ) ∧
    ∀ pc ∈ channelsOf (heard (some 8000)).linearize.perceptions, ∀ b ∈ pc.2.bands,
      b.bandType ≠ BandType.Curve ∧ ∀ e ∈ b.effects, 0 ≤ e.position := by
  refine ⟨heard_played parts 8000 0 2400 (by unfold sampleCount; decide +kernel),
    heard_played parts 8000 20 2720 (by unfold sampleCount; decide +kernel), by norm_num, ?_⟩
  intro pc hpc b hb
  rw [heard_plain] at hpc
  simp only [channelsOf, List.flatMap_cons, List.flatMap_nil, List.append_nil, List.map_cons, List.map_nil, List.mem_singleton] at hpc
  subst hpc
  refine ⟨((plain_plays _).2 b hb).1, ?_⟩
  simp only [plain, List.mem_cons, List.not_mem_nil, or_false] at hb
  rcases hb with rfl | rfl <;> simp [Sounds.sweep, tone, tick]

/-- **C105** is false of the code for curves: 1 ms of padding delays a curve by 1000 seconds (the padding, in ms, is multiplied by
the sampling frequency and the time scale), so that shorter signals are silent. -/
theorem c105_curve_negation (samples : Effect → List ℝ) (other : Nat → List (Int × ℝ) → Except Err (List (Option ℝ))) (n : ℕ) (hn : n ≤ 8000000) :
    bendChannel.evaluateChannel samples other n 8000 1 1000 = .ok (List.replicate n (some 0)) ∧
    ∃ s, bendChannel.evaluateChannel samples other 800 8000 0 1000 = .ok s ∧ s[80]? = some (some (1 / 2)) := by
  have hp : curvePoints 8000 1000 bend.keyframes = .ok [(0, 0), (((40 : ℕ) : ℤ), 0), (((120 : ℕ) : ℤ), 1)] := by
    simp [bend, curvePoints, mapE, curvePoint, u32, toSigned]
  refine ⟨?_, ?_⟩
  · obtain ⟨curve, hc, -⟩ := c52_partial linearSegment (0, 0) (((40 : ℕ) : ℤ), 0) [(((120 : ℕ) : ℤ), 1)] rfl
      (by simp [Increasing]) (by
        intro pre a b h _
        have h' := congrArg List.reverse h
        simp at h'
        obtain ⟨rfl, rfl, -⟩ := h'
        norm_num)
    have hcurve : interpolateCurve other CurveType.Linear [(0, 0), (((40 : ℕ) : ℤ), 0), (((120 : ℕ) : ℤ), (1 : ℝ))] = .ok curve := by
      unfold interpolateCurve
      simp only
      rw [if_pos trivial]
      exact hc
    have hpos : toSigned 32 (u32 ((bend.position + 1) * 8000 * ((1000 : ℕ) : ℤ))) = ((8000000 : ℕ) : ℤ) := by
      simp [bend, u32, toSigned]
    generalize 8000000 = P at hn hpos
    have hadd : addCurveEffect other CurveType.Linear 8000 1 1000 (List.replicate n (some 0)) bend = .ok (List.replicate n (some 0)) := by
      unfold addCurveEffect
      simp only [hp]
      rw [if_neg (by simp), hcurve]
      simp only [hpos]
      unfold addCurve
      have hno : ∀ i < n, ∀ x : ℤ, decide ((P : ℤ).toNat ≤ i ∧ ((i - (P : ℤ).toNat + (-(P : ℤ)).toNat : ℕ) : ℤ) ≤ x) = false := by
        intro i hi x
        rw [decide_eq_false_iff_not]
        rintro ⟨h, -⟩
        omega
      dsimp only
      rw [if_neg]
      · congr 1
        apply List.ext_getElem
        · simp
        · intro i h1 h2
          simp only [List.length_map, List.length_range, List.length_replicate] at h1
          simp only [List.getElem_map, List.getElem_range, List.getElem_replicate]
          rw [hno i h1]
          simp [h1]
      · rw [List.any_eq_true]
        rintro ⟨i, hi, h⟩
        rw [List.mem_range, List.length_replicate] at hi
        rw [hno i hi] at h
        simp at h
    have hb : Band.evaluationBand samples other { bandType := BandType.Curve, curveType := some CurveType.Linear, effects := [bend] } n 8000 1 1000 =
        .ok (List.replicate n (some 0)) := by
      unfold Band.evaluationBand
      rw [if_pos rfl]
      show foldE (addCurveEffect other CurveType.Linear 8000 1 1000) _ [bend] = _
      unfold foldE
      rw [hadd]
      rfl
    show mixBands samples other n 8000 1 1000 _ [_] = _
    unfold mixBands
    rw [hb]
    show Except.ok (mixBand (List.replicate n (some 0)) (List.replicate n (some 0))) = _
    congr 1
    unfold mixBand
    rw [List.zipWith_replicate]
    simp [fadd, clamp1]
    right
    rw [if_neg (by norm_num), if_neg (by norm_num)]
  · obtain ⟨s, h1, h2⟩ := bend_curve (other := other) (samples := samples) (n := 800) (by norm_num) (by norm_num) (by norm_num) hp 80 (by norm_num) (by norm_num)
    exact ⟨s, h1, by rw [h2]; norm_num⟩

end Haptics
