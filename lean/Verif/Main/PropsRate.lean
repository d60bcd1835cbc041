import Verif.Main.RateLemmas
import Verif.Main.RateSplines
import Verif.Main.PropsSounds

/-! ## C104: the sampling frequency does not change what is played -/

namespace Haptics
open SynthMain Sounds

/-- **C104**, with any rounding: two renderings of a channel without curves, at the frequencies `fs` and `fs'`, have the same
samples at the times that they have in common.  (The full property has no exception for curves: see `c104_curve_negation`.) -/
theorem c104_rounded_partial (A : Arith) (samples : Effect → List ℝ) (other : Nat → List (Int × ℝ) → Except Err (List (Option ℝ)))
    (c : Channel) (n n' : ℕ) (fs fs' pad : ℤ) (ts : ℕ) (s s' : List (Option ℝ)) (hf : 0 < fs) (hf' : 0 < fs')
    (hc : ∀ b ∈ c.bands, b.bandType ≠ BandType.Curve)
    (h : Rounded.evaluateChannel A samples other c n fs pad ts = .ok s)
    (h' : Rounded.evaluateChannel A samples other c n' fs' pad ts = .ok s') :
    s.length = n ∧ s'.length = n' ∧ AgreeInTime fs fs' s s' := by
  have key : ∀ (l : List Band) (a a' r r' : List (Option ℝ)), (∀ b ∈ l, b.bandType ≠ BandType.Curve) → Agree fs fs' n n' a a' →
      Rounded.mixBands A samples other n fs pad ts a l = .ok r → Rounded.mixBands A samples other n' fs' pad ts a' l = .ok r' →
      Agree fs fs' n n' r r' := by
    intro l
    induction l with
    | nil => intro a a' r r' _ ha h h'; cases h; cases h'; exact ha
    | cons b l ih =>
      intro a a' r r' hl ha h h'
      unfold Rounded.mixBands at h h'
      split at h
      · cases h
      · rename_i v hv
        split at h'
        · cases h'
        · rename_i v' hv'
          unfold Rounded.evaluationBand at hv hv'
          rw [if_neg (hl b List.mem_cons_self)] at hv hv'
          refine ih _ _ _ _ (fun x hx => hl x (List.mem_cons_of_mem _ hx)) (zipWith_agree _ ha (mapE_agree ?_ hv hv')) h h'
          intro i j ht
          unfold Rounded.evaluationSample
          rw [sameTime_div hf hf' ht]
  exact key c.bands _ _ s s' hc (agree_silence fs fs' n n') h h'

/-- **C104**, with linear, cubic, Akima and Bézier curves: the samples at common times are the same, if the ticks of the time scale are whole
numbers of samples, two or more, at both frequencies. -/
theorem c104_channel_partial (samples : Effect → List ℝ) (rnd : ℝ → ℝ) (fuel : ℕ)
    (c : Channel) (n n' : ℕ) (fs fs' pad : ℤ) (ts : ℕ) (s s' : List (Option ℝ)) (hf : 0 < fs) (hf' : 0 < fs')
    (hc : ∀ b ∈ c.bands, Unsampled fs fs' pad ts b)
    (h : c.evaluateChannel samples (Splines.splines rnd fuel) n fs pad ts = .ok s) (h' : c.evaluateChannel samples (Splines.splines rnd fuel) n' fs' pad ts = .ok s') :
    s.length = n ∧ s'.length = n' ∧ AgreeInTime fs fs' s s' := by
  have key : ∀ (l : List Band) (a a' r r' : List (Option ℝ)), (∀ b ∈ l, Unsampled fs fs' pad ts b) → Agree fs fs' n n' a a' →
      mixBands samples (Splines.splines rnd fuel) n fs pad ts a l = .ok r → mixBands samples (Splines.splines rnd fuel) n' fs' pad ts a' l = .ok r' →
      Agree fs fs' n n' r r' := by
    intro l
    induction l with
    | nil => intro a a' r r' _ ha h h'; cases h; cases h'; exact ha
    | cons b l ih =>
      intro a a' r r' hl ha h h'
      unfold mixBands at h h'
      split at h
      · cases h
      · rename_i v hv
        split at h'
        · cases h'
        · rename_i v' hv'
          have hb : Agree fs fs' n n' v v' := by
            unfold Band.evaluationBand at hv hv'
            by_cases hcv : b.bandType = BandType.Curve
            · rw [if_pos hcv] at hv hv'
              rcases hl b List.mem_cons_self with hno | ⟨hct, he⟩
              · exact absurd hcv hno
              · refine foldE_agree b.effects ?_ (agree_silence fs fs' n n') hv hv'
                intro e hem x x' y y' hx hy hy'
                obtain ⟨pts, g, g'⟩ := he e hem
                exact addCurveEffect_agree (proportional_splines rnd fuel hct) hf hf' g g' hx hy hy'
            · rw [if_neg hcv] at hv hv'
              refine mapE_agree ?_ hv hv'
              intro i j ht
              unfold Band.evaluationSample
              rw [sameTime_div hf hf' ht]
          exact ih _ _ _ _ (fun x hx => hl x (List.mem_cons_of_mem _ hx)) (zipWith_agree _ ha hb) h h'
  exact key c.bands _ _ s s' hc (agree_silence fs fs' n n') h h'

/-- Bands are decoded in one way. -/
theorem decoded_unique {parts : Parts} {ts : ℕ} {l l1 l2 : List Band} (h1 : List.Forall₂ (Decoded parts ts) l l1)
    (h2 : List.Forall₂ (Decoded parts ts) l l2) : l1 = l2 := by
  induction h1 generalizing l2 with
  | nil => cases h2; rfl
  | cons hd _ ih =>
    cases h2 with
    | cons hd' h2 =>
      rw [ih h2]
      congr 1
      cases hd with
      | wavelet _ w1 w2 =>
        cases hd' with
        | wavelet _ w3 w4 => rw [w2] at w4; exact Except.ok.inj w4
        | other w3 => exact absurd w1 w3
      | other w1 =>
        cases hd' with
        | wavelet _ w3 w4 => exact absurd w3 w1
        | other w3 => rfl

/-- **C104** for the program: what the synthesizer writes at the frequency `fs` and what it writes at `fs'` are signals of the
same number, and each pair has the same samples at the times that they have in common. -/
theorem c104_signals_partial (parts : Parts) (h : Experience) (fs fs' pad : ℤ) (sig sig' : List (List (Option ℝ)))
    (hf : 0 < fs) (hf' : 0 < fs') (ts : ℕ) (hts : h.timescale = some ts)
    (hb : ∀ pc ∈ channelsOf h.linearize.perceptions, ∀ b ∈ pc.2.bands, Unsampled fs fs' pad ts b)
    (hw : ∀ b b', parts.transform ts b = .ok b' → b'.bandType ≠ BandType.Curve) (rnd : ℝ → ℝ) (fuel : ℕ) (ho : parts.other = Splines.splines rnd fuel)
    (hs : synthesize parts h fs pad = .ok sig) (hs' : synthesize parts h fs' pad = .ok sig') :
    List.Forall₂ (AgreeInTime fs fs') sig sig' := by
  obtain ⟨t1, l1, n, x1, -, -, x4⟩ := c82_content parts h fs pad sig hs
  obtain ⟨t2, l2, n', y1, -, -, y4⟩ := c82_content parts h fs' pad sig' hs'
  rw [hts] at x1 y1
  have e1 := Option.some.inj x1
  have e2 := Option.some.inj y1
  subst e1
  subst e2
  generalize channelsOf h.linearize.perceptions = cs at x4 y4 hb
  clear hs hs' hts x1 y1
  induction x4 generalizing sig' with
  | nil => cases y4; exact .nil
  | @cons pc s cs sig hx _ ih =>
    cases y4 with
    | @cons _ s' _ sig'' hy y4 =>
      refine .cons ?_ (ih _ y4 (fun q hq => hb q (List.mem_cons_of_mem _ hq)))
      obtain ⟨bands, r, d1, d2, rfl⟩ := hx
      obtain ⟨bands', r', d1', d2', rfl⟩ := hy
      have hbb := decoded_unique d1 d1'
      subst hbb
      have hun : ∀ b ∈ bands, Unsampled fs fs' pad ts b := by
        have : ∀ {l l1 : List Band}, List.Forall₂ (Decoded parts ts) l l1 → (∀ b ∈ l, Unsampled fs fs' pad ts b) →
            ∀ b ∈ l1, Unsampled fs fs' pad ts b := by
          intro l l1 h1
          induction h1 with
          | nil => intro _ b hb; cases hb
          | cons hd _ ih =>
            intro hall b hb
            rcases List.mem_cons.mp hb with rfl | hb
            · cases hd with
              | wavelet _ w1 w2 => exact Or.inl (hw _ _ w2)
              | other w1 => exact hall _ List.mem_cons_self
            · exact ih (fun x hx => hall x (List.mem_cons_of_mem _ hx)) b hb
        exact this d1 (hb pc List.mem_cons_self)
      rw [ho] at d2 d2'
      obtain ⟨-, -, ha⟩ := c104_channel_partial parts.samples rnd fuel _ n n' fs fs' pad ts r r' hf hf' hun d2 d2'
      intro i j hi hj ht
      rw [List.length_map] at hi hj
      rw [List.getElem?_map, List.getElem?_map, ha i j hi hj ht]

/-- **C104**: a rendering without curves does not fail at `fs` if it does not fail at a multiple of `fs` where it is as long. -/
theorem c104_succeeds_partial (A : Arith) (samples : Effect → List ℝ) (other : Nat → List (Int × ℝ) → Except Err (List (Option ℝ)))
    (c : Channel) (n n' k : ℕ) (fs pad : ℤ) (ts : ℕ) (s' : List (Option ℝ)) (hf : 0 < fs) (hk : 0 < k) (hn : ∀ i < n, k * i < n')
    (hc : ∀ b ∈ c.bands, b.bandType ≠ BandType.Curve)
    (h' : Rounded.evaluateChannel A samples other c n' (k * fs) pad ts = .ok s') :
    ∃ s, Rounded.evaluateChannel A samples other c n fs pad ts = .ok s := by
  have key : ∀ (l : List Band) (a a' r' : List (Option ℝ)), (∀ b ∈ l, b.bandType ≠ BandType.Curve) →
      Rounded.mixBands A samples other n' (k * fs) pad ts a' l = .ok r' →
      ∃ r, Rounded.mixBands A samples other n fs pad ts a l = .ok r := by
    intro l
    induction l with
    | nil => intro a a' r' _ _; exact ⟨a, rfl⟩
    | cons b l ih =>
      intro a a' r' hl h'
      unfold Rounded.mixBands at h' ⊢
      split at h'
      · cases h'
      · rename_i v' hv'
        have hv : ∃ v, Rounded.evaluationBand A samples other b n fs pad ts = .ok v := by
          unfold Rounded.evaluationBand at hv' ⊢
          rw [if_neg (hl b List.mem_cons_self)] at hv' ⊢
          refine mapE_total _ _ fun i hi => ?_
          rw [List.mem_range] at hi
          obtain ⟨-, g⟩ := mapE_get _ _ _ hv'
          obtain ⟨y, -, hy⟩ := g (k * i) (k * i) (List.getElem?_range (hn i hi))
          refine ⟨y, ?_⟩
          have ht : SameTime fs (k * fs) i (k * i) := by
            unfold SameTime; push_cast; ring
          unfold Rounded.evaluationSample at hy ⊢
          rw [sameTime_div hf (mul_pos (by omega) hf) ht]
          exact hy
        obtain ⟨v, hv⟩ := hv
        rw [hv]
        exact ih _ _ _ (fun x hx => hl x (List.mem_cons_of_mem _ hx)) h'
  exact key c.bands _ _ s' hc h'

/-! ### Cases -/

/-- Non-vacuity of `c104_rounded_partial` and `c104_succeeds_partial`: a vibration and a click, played at 8000 and 16000 Hz. -/
example (A : Arith) (hA : A.Sound) (samples : Effect → List ℝ) (other : Nat → List (Int × ℝ) → Except Err (List (Option ℝ))) :
    let c : Channel := { bands := demoChannel.bands.take 2 }
    (∀ b ∈ c.bands, b.bandType ≠ BandType.Curve) ∧ c.bands.length = 2 ∧
      (∃ s, Rounded.evaluateChannel A samples other c 800 8000 0 1000 = .ok s) ∧
      (∃ s, Rounded.evaluateChannel A samples other c 1600 ((2 : ℕ) * 8000) 0 1000 = .ok s) ∧
      SameTime 8000 16000 100 200 ∧ ∀ i < 800, 2 * i < 1600 := by
  intro c
  have h1 : Playable 1000 c := by
    refine ⟨by decide, ?_, ?_, ?_⟩ <;> simp [c, demoChannel, buzz, click]
  have h2 : c.Positions := by
    intro b hb e he k hk p hp
    simp [c, demoChannel, buzz, click] at hb
    rcases hb with rfl | rfl <;> simp at he <;> subst he <;> simp at hk <;> (try rcases hk with rfl | rfl) <;> (try subst hk) <;> simp at hp <;> subst hp <;> norm_num
  have h3 : ∀ b ∈ c.bands, b.bandType ≠ BandType.Curve ∧ b.effects ≠ [] := by simp [c, demoChannel, buzz, click]
  obtain ⟨s, hs, -⟩ := Rounded.c32_channel_double hA samples other c 800 8000 0 1000 h1 h2 h3
  obtain ⟨s', hs', -⟩ := Rounded.c32_channel_double hA samples other c 1600 ((2 : ℕ) * 8000) 0 1000 h1 h2 h3
  exact ⟨fun b hb => (h3 b hb).1, by simp [c, demoChannel], ⟨s, hs⟩, ⟨s', hs'⟩, by unfold SameTime; norm_num, by omega⟩

/-- Non-vacuity of `c104_signals_partial`: the experience of `c102_length_negation`, at 8000 and 44100 Hz. -/
example (parts : Parts) : ∃ s s', synthesize parts (heard (some 8000)) 8000 0 = .ok [s] ∧ s.length = 2400 ∧
    synthesize parts (heard (some 8000)) 44100 0 = .ok [s'] ∧ s'.length = 13230 ∧ (heard (some 8000)).timescale = some 1000 ∧
    SameTime 8000 44100 80 441 ∧
    ∀ pc ∈ channelsOf (heard (some 8000)).linearize.perceptions, ∀ b ∈ pc.2.bands, Unsampled 8000 44100 0 1000 b := by
  obtain ⟨s, hs, hl⟩ := heard_played parts 8000 0 2400 (by unfold sampleCount; decide +kernel)
  obtain ⟨s', hs', hl'⟩ := heard_played parts 44100 0 13230 (by unfold sampleCount; decide +kernel)
  refine ⟨s, s', hs, hl, hs', hl', rfl, by unfold SameTime; norm_num, ?_⟩
  intro pc hpc b hb
  rw [heard_plain] at hpc
  simp only [channelsOf, List.flatMap_cons, List.flatMap_nil, List.append_nil, List.map_cons, List.map_nil, List.mem_singleton] at hpc
  subst hpc
  exact Or.inl ((plain_plays _).2 b hb).1

/-- A curve of three keyframes. -/
def bend : Effect := { keyframes := [⟨some 0, some 0, none⟩, ⟨some 5, some 0, none⟩, ⟨some 15, some 1, none⟩] }

/-- A channel with that curve. -/
def bendChannel : Channel := { bands := [{ bandType := BandType.Curve, curveType := some CurveType.Linear, effects := [bend] }] }

theorem bend_points : IsPoints bend [(0, 0), (5, 0), (15, 1)] := rfl

/-- Non-vacuity of `c104_channel_partial` for curves: at 8000 and 16000 Hz. -/
example : ∀ b ∈ bendChannel.bands, b.bandType = BandType.Curve ∧ Unsampled 8000 16000 0 1000 b := by
  intro b hb
  simp only [bendChannel, List.mem_singleton] at hb
  subst hb
  refine ⟨rfl, Or.inr ⟨by simp [Band.curveTypeOrDefault], ?_⟩⟩
  intro e he
  simp only [List.mem_singleton] at he
  subst he
  exact ⟨_, ⟨bend_points, by simp, by simp, by simp, ⟨8, by norm_num, by norm_num⟩, by simp [bend]⟩,
    ⟨bend_points, by simp, by simp, by simp, ⟨16, by norm_num, by norm_num⟩, by simp [bend]⟩⟩

/-- The same for an Akima curve and a Bézier curve. -/
example (ct : ℕ) (hct : ct = 3 ∨ ct = 4) (b : Band) (hb : b = { bandType := BandType.Curve, curveType := some ct, effects := [bend] }) :
    b.bandType = BandType.Curve ∧ Unsampled 8000 16000 0 1000 b := by
  subst hb
  refine ⟨rfl, Or.inr ⟨by show ct ≠ 5; omega, ?_⟩⟩
  intro e he
  simp only [List.mem_singleton] at he
  subst he
  exact ⟨_, ⟨bend_points, by simp, by simp, by simp, ⟨8, by norm_num, by norm_num⟩, by simp [bend]⟩,
    ⟨bend_points, by simp, by simp, by simp, ⟨16, by norm_num, by norm_num⟩, by simp [bend]⟩⟩

/-- The curve alone, at `fs`. -/
theorem bend_curve {other : Nat → List (Int × ℝ) → Except Err (List (Option ℝ))} {samples : Effect → List ℝ} {fs : ℤ} {n x y : ℕ}
    (hx : 0 < x) (hxy : x + 2 ≤ y) (hn : y < n) (hp : curvePoints fs 1000 bend.keyframes = .ok [(0, 0), ((x : ℤ), 0), ((y : ℤ), 1)]) (i : ℕ)
    (h1 : x < i) (h2 : i < y) :
    ∃ r, bendChannel.evaluateChannel samples other n fs 0 1000 = .ok r ∧ r[i]? = some (some (((i : ℝ) - x) / (y - x))) := by
  obtain ⟨curve, hc, hcv⟩ := c52_partial linearSegment (0, 0) ((x : ℤ), 0) [((y : ℤ), 1)] rfl
    (by simp [Increasing]; omega) (by
      intro pre a b h _
      have h' := congrArg List.reverse h
      simp at h'
      obtain ⟨rfl, rfl, -⟩ := h'
      show (x : ℤ) + 2 ≤ y
      omega)
  have hlen : (curve.length : ℤ) = y + 1 := hcv.1
  have hci : curve[i]? = some (some (((i : ℝ) - x) / (y - x))) := by
    obtain ⟨pre, q0, q1, post, e1, e2, e3, e4⟩ := hcv.2 i (by omega)
    have hq : q0 = ((x : ℤ), 0) ∧ q1 = ((y : ℤ), (1 : ℝ)) := by
      match pre, e1 with
      | [], e1 =>
        simp only [List.nil_append, List.cons.injEq] at e1
        obtain ⟨rfl, rfl, -⟩ := e1
        simp only at e3
        omega
      | [_], e1 =>
        simp only [List.cons_append, List.nil_append, List.cons.injEq] at e1
        exact ⟨e1.2.1.symm, e1.2.2.1.symm⟩
      | [_, _], e1 =>
        simp at e1
      | _ :: _ :: _ :: l, e1 =>
        have := congrArg List.length e1
        simp at this
    obtain ⟨rfl, rfl⟩ := hq
    rw [e4]
    have hne : (((y : ℤ) : ℝ) - ((x : ℤ) : ℝ)) ≠ 0 := by
      have : (x : ℝ) < y := by exact_mod_cast (by omega : x < y)
      push_cast
      linarith
    unfold linearSegment fdiv
    rw [if_neg hne]
    push_cast
    congr 2
    ring
  have hcurve : interpolateCurve other CurveType.Linear [(0, 0), ((x : ℤ), 0), ((y : ℤ), (1 : ℝ))] = .ok curve := by
    unfold interpolateCurve
    simp only
    rw [if_pos trivial]
    exact hc
  have hadd := c53_partial other CurveType.Linear fs 0 1000 (List.replicate n (some 0)) [] curve bend _ (by simp [bend]) hp (by simp) hcurve hlen
  have hb : Band.evaluationBand samples other { bandType := BandType.Curve, curveType := some CurveType.Linear, effects := [bend] } n fs 0 1000 =
      .ok ((List.range n).map (fun i => if i < curve.length then fadd ((List.replicate n (some 0)).getD i (some 0)) (curve.getD i (some 0))
        else (List.replicate n (some 0)).getD i (some 0))) := by
    unfold Band.evaluationBand
    rw [if_pos rfl]
    show foldE (addCurveEffect other CurveType.Linear fs 0 1000) _ [bend] = _
    unfold foldE
    rw [hadd, List.length_replicate]
    rfl
  refine ⟨mixBand (List.replicate n (some 0)) ((List.range n).map (fun i => if i < curve.length then
    fadd ((List.replicate n (some 0)).getD i (some 0)) (curve.getD i (some 0)) else (List.replicate n (some 0)).getD i (some 0))), ?_, ?_⟩
  · show mixBands samples other n fs 0 1000 _ [_] = _
    unfold mixBands
    rw [hb]
    rfl
  · unfold mixBand
    rw [List.getElem?_zipWith, List.getElem?_replicate_of_lt (by omega), List.getElem?_map, List.getElem?_range (by omega)]
    have hg : (List.replicate n (some (0 : ℝ))).getD i (some 0) = some 0 := by
      rw [List.getD_eq_getElem?_getD, List.getElem?_replicate_of_lt (by omega)]; rfl
    have hcg : curve.getD i (some 0) = some (((i : ℝ) - x) / (y - x)) := by
      rw [List.getD_eq_getElem?_getD, hci]; rfl
    have hy : (0 : ℝ) < (y : ℝ) - x := by
      have : (x : ℝ) < y := by exact_mod_cast (by omega : x < y)
      linarith
    have h0 : 0 ≤ ((i : ℝ) - x) / (y - x) := by
      have : (x : ℝ) < i := by exact_mod_cast h1
      exact div_nonneg (by linarith) hy.le
    have h3 : ((i : ℝ) - x) / (y - x) ≤ 1 := by
      have : (i : ℝ) < y := by exact_mod_cast h2
      rw [div_le_one hy]; linarith
    simp only [Option.map_some, if_pos (show i < curve.length by omega), hg, hcg, fadd, clamp1, zero_add]
    congr 2
    rw [if_neg (by linarith), if_neg (by linarith)]

/-- **C104** is false of the code for curves: their keyframes are moved to samples.  10 ms into the signal the curve is at 1/2 at
8000 Hz, and at 221/441 at 44100 Hz. -/
theorem c104_curve_negation (samples : Effect → List ℝ) (other : Nat → List (Int × ℝ) → Except Err (List (Option ℝ))) :
    ∃ s s', bendChannel.evaluateChannel samples other 800 8000 0 1000 = .ok s ∧
      bendChannel.evaluateChannel samples other 4410 44100 0 1000 = .ok s' ∧
      SameTime 8000 44100 80 441 ∧ s[80]? = some (some (1 / 2)) ∧ s'[441]? = some (some (221 / 441)) ∧
      ¬ AgreeInTime 8000 44100 s s' := by
  have hp : curvePoints 8000 1000 bend.keyframes = .ok [(0, 0), (((40 : ℕ) : ℤ), 0), (((120 : ℕ) : ℤ), 1)] := by
    simp [bend, curvePoints, mapE, curvePoint, u32, toSigned]
  have hp' : curvePoints 44100 1000 bend.keyframes = .ok [(0, 0), (((220 : ℕ) : ℤ), 0), (((661 : ℕ) : ℤ), 1)] := by
    simp [bend, curvePoints, mapE, curvePoint, u32, toSigned]
  obtain ⟨s, h1, h2⟩ := bend_curve (other := other) (samples := samples) (n := 800) (by norm_num) (by norm_num) (by norm_num) hp 80 (by norm_num) (by norm_num)
  obtain ⟨s', h1', h2'⟩ := bend_curve (other := other) (samples := samples) (n := 4410) (by norm_num) (by norm_num) (by norm_num) hp' 441 (by norm_num) (by norm_num)
  have e1 : s[80]? = some (some (1 / 2)) := by rw [h2]; norm_num
  have e2 : s'[441]? = some (some (221 / 441)) := by rw [h2']; norm_num
  refine ⟨s, s', h1, h1', by unfold SameTime; norm_num, e1, e2, fun ha => ?_⟩
  have l1 := (List.getElem?_eq_some_iff.mp e1).1
  have l2 := (List.getElem?_eq_some_iff.mp e2).1
  have := ha 80 441 l1 l2 (by unfold SameTime; norm_num)
  rw [e1, e2] at this
  have := Option.some.inj (Option.some.inj this)
  norm_num at this

end Haptics
