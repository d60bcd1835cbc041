import Verif.Main.SpecMove
import Verif.Main.PropsPadding

/-! ## C108: effects that are moved in time sound the same, later -/

namespace Haptics
open SynthMain Sounds

theorem vectorial_moved (e : Effect) (δ : ℤ) (position : ℝ) (low high : ℤ) (ts : ℕ) :
    (e.moved δ).evaluateVectorial (position + δ) low high ts = e.evaluateVectorial position low high ts := by
  have h1 : (position + δ) - ((e.moved δ).position : ℝ) = position - e.position := by
    simp [Effect.moved]
  have h2 : ∀ len : ℝ, ((position + δ < ((e.moved δ).position : ℝ) ∨ position + δ > ((e.moved δ).position : ℝ) + len ∨ (e.moved δ).keyframes = []) ↔
      (position < (e.position : ℝ) ∨ position > (e.position : ℝ) + len ∨ e.keyframes = [])) := by
    intro len
    have : ((e.moved δ).position : ℝ) = e.position + δ := by simp [Effect.moved]
    rw [this]
    refine or_congr ⟨fun h => by linarith, fun h => by linarith⟩ (or_congr ⟨fun h => by linarith, fun h => by linarith⟩ Iff.rfl)
  unfold Effect.evaluateVectorial
  simp only [h1, h2]
  rfl

theorem transient_moved (e : Effect) (δ : ℤ) (position duration : ℝ) :
    (e.moved δ).evaluateTransient (position + δ) duration = e.evaluateTransient position duration := by
  have h1 : (position + δ) - ((e.moved δ).position : ℝ) = position - e.position := by
    simp [Effect.moved]
  unfold Effect.evaluateTransient
  rw [h1]
  rfl

theorem switch_moved (samples : Effect → List ℝ) (b : Band) (δ : ℤ) (position : ℝ) (e : Effect) (low high : ℤ) (ts : ℕ)
    (hb : b.bandType ≠ BandType.Curve) (hs : b.bandType = BandType.WaveletWave → samples (e.moved δ) = samples e) :
    (b.moved δ).evaluationSwitch samples (position + δ) (e.moved δ) low high ts = b.evaluationSwitch samples position e low high ts := by
  have hp : ((e.moved δ).position : ℝ) = e.position + δ := by simp [Effect.moved]
  have h1 : (position + δ) - ((e.moved δ).position : ℝ) = position - e.position := by
    rw [hp]; ring
  have hl : ∀ d, (e.moved δ).timeLength BandType.Transient d = e.timeLength BandType.Transient d := fun _ => rfl
  have h2 : (((e.moved δ).position : ℝ) ≤ position + δ) ↔ (e.position : ℝ) ≤ position := by
    rw [hp]; constructor <;> intro h <;> linarith
  have h3 : ∀ len : ℝ, (position + δ ≤ ((e.moved δ).position : ℝ) + len) ↔ position ≤ (e.position : ℝ) + len := by
    intro len; rw [hp]; constructor <;> intro h <;> linarith
  have hbt : (b.moved δ).bandType = b.bandType := rfl
  unfold Band.evaluationSwitch
  rw [hbt, if_neg hb, if_neg hb, vectorial_moved]
  by_cases hbw : b.bandType = BandType.WaveletWave
  · rw [if_neg (by rw [hbw]; decide), if_pos hbw, if_neg (by rw [hbw]; decide), if_pos hbw]
    unfold evaluateWavelet
    rw [hs hbw, h1]
    rfl
  rw [if_neg hbw, if_neg hbw]
  simp only [h2, h3, hl, transient_moved]

theorem sumEffects_moved (samples : Effect → List ℝ) (b : Band) (δ : ℤ) (position : ℝ) (ts : ℕ) (hb : b.bandType ≠ BandType.Curve) :
    ∀ (l : List Effect) (acc : Option ℝ), (∀ e ∈ l, b.bandType = BandType.WaveletWave → samples (e.moved δ) = samples e) →
      sumEffects samples (b.moved δ) (position + δ) ts acc (l.map (Effect.moved δ)) = sumEffects samples b position ts acc l
  | [], _, _ => rfl
  | e :: l, acc, hs => by
    have h2 : (((e.moved δ).position : ℝ) ≤ position + δ) ↔ (e.position : ℝ) ≤ position := by
      simp [Effect.moved]
    have ih := fun acc => sumEffects_moved samples b δ position ts hb l acc (fun x hx => hs x (List.mem_cons_of_mem _ hx))
    rw [List.map_cons]
    unfold sumEffects
    have hsw := switch_moved samples b δ position e b.lowerFrequencyLimit b.upperFrequencyLimit ts hb (hs e List.mem_cons_self)
    change Band.evaluationSwitch samples (b.moved δ) (position + δ) (e.moved δ) (b.moved δ).lowerFrequencyLimit (b.moved δ).upperFrequencyLimit ts = _ at hsw
    rw [hsw, ih acc]
    simp only [h2, ih]

/-- Before the first effect a band is silent. -/
theorem sumEffects_early (samples : Effect → List ℝ) (b : Band) (position : ℝ) (ts : ℕ) (acc : Option ℝ) :
    ∀ l : List Effect, (∀ e ∈ l, position < (e.position : ℝ)) → sumEffects samples b position ts acc l = .ok acc
  | [], _ => rfl
  | e :: l, h => by
    have he := h e List.mem_cons_self
    unfold sumEffects
    rw [if_neg (by linarith)]
    exact sumEffects_early samples b position ts acc l (fun x hx => h x (List.mem_cons_of_mem _ hx))

/-- **C108 (partial)** for a channel without curves whose effects do not start before 0: if all its effects are moved by `δ` ticks,
`d` samples, it is silent for `d` samples and then plays what it played.  Wavelet effects too, if what is decoded of them does not
depend on their position.  (The full property has no exception for curves: see `c108_curve_negation`.) -/
theorem c108_channel_partial (samples : Effect → List ℝ) (other : Nat → List (Int × ℝ) → Except Err (List (Option ℝ)))
    (c : Channel) (n n' d : ℕ) (fs pad δ : ℤ) (ts : ℕ) (s s' : List (Option ℝ)) (hf : 0 < fs) (hts : 0 < ts) (hpad : 0 ≤ pad)
    (hd : δ * fs = ts * d)
    (hc : ∀ b ∈ c.bands, b.bandType ≠ BandType.Curve ∧ ∀ e ∈ b.effects, 0 ≤ e.position ∧ (b.bandType = BandType.WaveletWave → samples (e.moved δ) = samples e))
    (h : c.evaluateChannel samples other n fs pad ts = .ok s) (h' : (c.moved δ).evaluateChannel samples other n' fs pad ts = .ok s') :
    s.length = n ∧ s'.length = n' ∧ Delayed d s s' := by
  have hfs : (0 : ℝ) < fs := by exact_mod_cast hf
  have hdr : (δ : ℝ) * fs = ts * d := by exact_mod_cast hd
  have htr : (0 : ℝ) < ts := by exact_mod_cast hts
  have hpr : (0 : ℝ) ≤ pad := by exact_mod_cast hpad
  have hδ : (δ : ℝ) = ts * (d / fs) := by
    rw [mul_div_assoc', eq_div_iff hfs.ne']; exact hdr
  have key : ∀ (l : List Band) (a a' r r' : List (Option ℝ)),
      (∀ b ∈ l, b.bandType ≠ BandType.Curve ∧ ∀ e ∈ b.effects, 0 ≤ e.position ∧ (b.bandType = BandType.WaveletWave → samples (e.moved δ) = samples e)) → Shifted d n n' a a' →
      mixBands samples other n fs pad ts a l = .ok r → mixBands samples other n' fs pad ts a' (l.map (Band.moved δ)) = .ok r' →
      Shifted d n n' r r' := by
    intro l
    induction l with
    | nil => intro a a' r r' _ ha h h'; cases h; cases h'; exact ha
    | cons b l ih =>
      intro a a' r r' hl ha h h'
      rw [List.map_cons] at h'
      unfold mixBands at h h'
      split at h
      · cases h
      · rename_i v hv
        split at h'
        · cases h'
        · rename_i v' hv'
          obtain ⟨hb1, hb2⟩ := hl b List.mem_cons_self
          unfold Band.evaluationBand at hv hv'
          rw [if_neg hb1] at hv
          rw [if_neg (show (b.moved δ).bandType ≠ BandType.Curve from hb1)] at hv'
          refine ih _ _ _ _ (fun x hx => hl x (List.mem_cons_of_mem _ hx)) (mixBand_shifted ha (mapE_shifted ?_ ?_ hv hv')) h h'
          · intro i hi w hw
            unfold Band.evaluationSample at hw
            split at hw
            · cases hw
            · split at hw
              · cases hw
              · rw [sumEffects_early _ _ _ _ _ _ ?_] at hw
                · exact (Except.ok.inj hw).symm
                · intro e' he'
                  obtain ⟨e, he, rfl⟩ := List.mem_map.mp (List.mem_reverse.mp he')
                  have h0 : (0 : ℝ) ≤ e.position := by exact_mod_cast (hb2 e he).1
                  have : (i : ℝ) / fs < d / fs := by
                    rw [div_lt_div_iff_of_pos_right hfs]; exact_mod_cast hi
                  have hp : ((e.moved δ).position : ℝ) = e.position + δ := by simp [Effect.moved]
                  rw [hp, hδ]
                  nlinarith
          · intro i
            unfold Band.evaluationSample
            have hpos : (ts : ℝ) * (((i + d : ℕ) : ℝ) / fs - pad * 0.001) = ts * ((i : ℝ) / fs - pad * 0.001) + δ := by
              rw [hδ]; push_cast; ring
            have hrev : (b.moved δ).effects.reverse = b.effects.reverse.map (Effect.moved δ) := by
              show (b.effects.map (Effect.moved δ)).reverse = _
              rw [List.map_reverse]
            have hlast : (b.moved δ).effects.getLast? = b.effects.getLast?.map (Effect.moved δ) := List.getLast?_map
            rw [hpos, hrev, hlast, sumEffects_moved samples b δ _ ts hb1 _ _ (fun e he => (hb2 e (List.mem_reverse.mp he)).2)]
            cases b.effects.getLast? with
            | none => rfl
            | some e => rfl
  exact key c.bands _ _ s s' hc (shifted_silence d n n') h h'

theorem linearize_moved (h : Experience) (δ : ℤ) : (h.moved δ).linearize = h.linearize.moved δ := by
  have he : ∀ (lib : List Effect) (e : Effect), linearizeEffect lib (e.moved δ) = (linearizeEffect lib e).moved δ := by
    intro lib e
    unfold linearizeEffect
    rw [show (e.moved δ).effectType = e.effectType from rfl, show (e.moved δ).id = e.id from rfl]
    split
    · cases getEffectById lib e.id with
      | none => rfl
      | some r => rfl
    · rfl
  unfold Experience.linearize Experience.moved
  simp only [List.map_map]
  congr 1
  refine List.map_congr_left fun p _ => ?_
  have hb : ∀ (lib : List Effect) (b : Band), ({ b.moved δ with effects := (b.moved δ).effects.map (linearizeEffect lib) } : Band) =
      ({ b with effects := b.effects.map (linearizeEffect lib) } : Band).moved δ := by
    intro lib b
    simp only [Band.moved, List.map_map]
    congr 1
    exact List.map_congr_left fun e _ => he _ e
  have hc : ∀ (lib : List Effect) (c : Channel), ({ c.moved δ with bands := (c.moved δ).bands.map (fun b => { b with effects := b.effects.map (linearizeEffect lib) }) } : Channel) =
      ({ c with bands := c.bands.map (fun b => { b with effects := b.effects.map (linearizeEffect lib) }) } : Channel).moved δ := by
    intro lib c
    simp only [Channel.moved, List.map_map]
    congr 1
    exact List.map_congr_left fun b _ => hb _ b
  simp only [Function.comp_apply, Perception.linearizeLibrary, Perception.moved, List.map_map]
  congr 1
  exact List.map_congr_left fun c _ => hc _ c

theorem channelsOf_moved (ps : List Perception) (δ : ℤ) :
    channelsOf (ps.map (Perception.moved δ)) = (channelsOf ps).map (fun pc => (pc.1.moved δ, pc.2.moved δ)) := by
  unfold channelsOf
  rw [List.flatMap_map, List.map_flatMap]
  congr 1
  funext p
  simp [Perception.moved]

/-- **C108 (partial)** for the program: if all effects are moved by `δ` ticks, `d` samples, all signals are delayed by `d` samples;
for experiences without curves and wavelets, with references. -/
theorem c108_signals_partial (parts : Parts) (h : Experience) (fs pad δ : ℤ) (d ts : ℕ) (sig sig' : List (List (Option ℝ)))
    (hf : 0 < fs) (hpad : 0 ≤ pad) (hts : h.timescale = some ts) (hd : δ * fs = ts * d)
    (hb : ∀ pc ∈ channelsOf h.linearize.perceptions, ∀ b ∈ pc.2.bands,
      b.bandType ≠ BandType.Curve ∧ b.bandType ≠ BandType.WaveletWave ∧ ∀ e ∈ b.effects, 0 ≤ e.position)
    (hs : synthesize parts h fs pad = .ok sig) (hs' : synthesize parts (h.moved δ) fs pad = .ok sig') :
    List.Forall₂ (Delayed d) sig sig' := by
  obtain ⟨t1, l1, n, x1, x2, x3, x4⟩ := c82_content parts h fs pad sig hs
  obtain ⟨t2, l2, n', y1, -, -, y4⟩ := c82_content parts (h.moved δ) fs pad sig' hs'
  rw [hts] at x1
  have e1 := Option.some.inj x1
  subst e1
  rw [show (h.moved δ).timescale = h.timescale from rfl, hts] at y1
  have e2 := Option.some.inj y1
  subst e2
  have hts : 0 < ts := by
    rcases Nat.eq_zero_or_pos ts with h0 | h0
    · subst h0; unfold sampleCount at x3; rw [if_pos rfl] at x3; cases x3
    · exact h0
  rw [linearize_moved, show (h.linearize.moved δ).perceptions = h.linearize.perceptions.map (Perception.moved δ) from rfl,
    channelsOf_moved] at y4
  generalize channelsOf h.linearize.perceptions = cs at x4 y4 hb
  clear hs hs' x1 y1 x2 x3
  have hno : ∀ {l l1 : List Band}, List.Forall₂ (Decoded parts ts) l l1 → (∀ b ∈ l, b.bandType ≠ BandType.WaveletWave) → l1 = l := by
    intro l l1 h1
    induction h1 with
    | nil => intro _; rfl
    | cons hd _ ih =>
      intro hall
      rw [ih (fun x hx => hall x (List.mem_cons_of_mem _ hx))]
      cases hd with
      | wavelet _ w1 _ => exact absurd w1 (hall _ List.mem_cons_self)
      | other _ => rfl
  induction x4 generalizing sig' with
  | nil => cases y4; exact .nil
  | @cons pc s cs sig hx _ ih =>
    cases y4 with
    | @cons _ s' _ sig'' hy y4 =>
      refine .cons ?_ (ih _ y4 (fun q hq => hb q (List.mem_cons_of_mem _ hq)))
      obtain ⟨bands, r, d1, d2, rfl⟩ := hx
      obtain ⟨bands', r', d1', d2', rfl⟩ := hy
      have hpc := hb pc List.mem_cons_self
      have hb1 := hno d1 (fun b hb => (hpc b hb).2.1)
      have hb2 := hno d1' (fun b hb => by
        obtain ⟨b0, hb0, rfl⟩ := List.mem_map.mp hb
        exact (hpc b0 hb0).2.1)
      subst hb1 hb2
      obtain ⟨-, -, ha, ha'⟩ := c108_channel_partial parts.samples parts.other pc.2 n n' d fs pad δ ts r r' hf hts hpad hd
        (fun b hb => ⟨(hpc b hb).1, fun e he => ⟨(hpc b hb).2.2 e he, fun hw => absurd hw (hpc b hb).2.1⟩⟩) d2 d2'
      refine ⟨fun i hi hi' => ?_, fun i hi hi' => ?_⟩
      · rw [List.length_map] at hi'
        rw [List.getElem?_map, ha i hi hi']
        simp
      · rw [List.length_map] at hi hi'
        rw [List.getElem?_map, List.getElem?_map, ha' i hi hi']
        rfl

theorem plain_moved_plays (f : Option Nat) : Haptics.Playable 1000 ((plain f).moved 5) ∧
    ∀ b ∈ ((plain f).moved 5).bands, b.bandType ≠ BandType.Curve ∧ b.effects ≠ [] := by
  refine ⟨⟨by decide, ?_, ?_, ?_⟩, ?_⟩ <;>
    simp [plain, Channel.moved, Band.moved, Effect.moved, Sounds.sweep, tone, tick, BandType.VectorialWave, BandType.Transient, BandType.Curve]

theorem heard_moved_length : ((heard (some 8000)).moved 5).linearize.timeLength = .ok 305 := by
  have h : ((heard (some 8000)).moved 5).linearize.timeLength.toOption = some 305 := by decide +kernel
  revert h
  cases ((heard (some 8000)).moved 5).linearize.timeLength with
  | error e => intro h; cases h
  | ok v => intro h; rw [Option.some.inj h]

theorem heard_moved_played (parts : Parts) : ∃ s, synthesize parts ((heard (some 8000)).moved 5) 8000 20 = .ok [s] ∧ s.length = 2760 := by
  obtain ⟨r, hr, hl, _⟩ := c32_evaluateChannel parts.samples parts.other ((plain (some 8000)).moved 5) 2760 8000 20 1000
    (plain_moved_plays _).1 (plain_moved_plays _).2
  unfold synthesize
  rw [heard_moved_length]
  show ∃ s, playFile parts ((heard (some 8000)).moved 5).linearize 305 8000 20 = .ok [s] ∧ s.length = 2760
  unfold playFile
  have ht : ((heard (some 8000)).moved 5).linearize.timescale = some 1000 := rfl
  have hn : sampleCount 305 8000 20 1000 = .ok 2760 := by
    have h : (sampleCount 305 8000 20 1000).toOption = some 2760 := by unfold sampleCount; decide +kernel
    revert h
    cases sampleCount 305 8000 20 1000 with
    | error e => intro h; cases h
    | ok v => intro h; rw [Option.some.inj h]
  rw [show ((heard (some 8000)).moved 5).linearize.perceptions =
    [{ id := 1, avatarId := 1, effectSemanticScheme := some [], effectLibrary := [], channels := [(plain (some 8000)).moved 5] }] from rfl,
    decode_id _ _ _ (by simp [plain, Channel.moved, Band.moved, BandType.VectorialWave, BandType.Transient, BandType.WaveletWave]), ht]
  generalize (plain (some 8000)).moved 5 = c at hr
  refine ⟨r.map (Option.map (fun x => x * factor { id := 1, avatarId := 1, effectSemanticScheme := some [], channels := [c] } c)), ?_, by simpa using hl⟩
  show mapE (playChannel parts 305 8000 20 1000) [({ id := 1, avatarId := 1, effectSemanticScheme := some [], channels := [c] }, c)] >>= _ = _
  simp only [mapE, playChannel, hn, hr, bind, Except.bind, pure, Except.pure]
  rfl

/-- Non-vacuity of `c108_channel_partial` and `c108_signals_partial`: two vibrations, one of them a reference, and a click, moved by
5 ms at 8000 Hz with 20 ms of padding. -/
example (parts : Parts) : (∃ s, synthesize parts (heard (some 8000)) 8000 20 = .ok [s] ∧ s.length = 2720) ∧
    (∃ s, synthesize parts ((heard (some 8000)).moved 5) 8000 20 = .ok [s] ∧ s.length = 2760) ∧ (5 : ℤ) * 8000 = (1000 : ℕ) * (40 : ℕ) ∧
    ∀ pc ∈ channelsOf (heard (some 8000)).linearize.perceptions, ∀ b ∈ pc.2.bands,
      b.bandType ≠ BandType.Curve ∧ b.bandType ≠ BandType.WaveletWave ∧ ∀ e ∈ b.effects, 0 ≤ e.position := by
  refine ⟨heard_played parts 8000 20 2720 (by unfold sampleCount; decide +kernel), heard_moved_played parts, by norm_num, ?_⟩
  intro pc hpc b hb
  rw [heard_plain] at hpc
  simp only [channelsOf, List.flatMap_cons, List.flatMap_nil, List.append_nil, List.map_cons, List.map_nil, List.mem_singleton] at hpc
  subst hpc
  refine ⟨((plain_plays _).2 b hb).1, ?_⟩
  simp only [plain, List.mem_cons, List.not_mem_nil, or_false] at hb
  rcases hb with rfl | rfl <;> simp [Sounds.sweep, tone, tick, BandType.VectorialWave, BandType.Transient, BandType.WaveletWave]

/-- **C108** is false of the code for curves: a curve that is moved by 1 tick is delayed by 1000 seconds (its position is multiplied
by the sampling frequency and the time scale), so that shorter signals are silent. -/
theorem c108_curve_negation (samples : Effect → List ℝ) (other : Nat → List (Int × ℝ) → Except Err (List (Option ℝ))) (n : ℕ) (hn : n ≤ 8000000) :
    (bendChannel.moved 1).evaluateChannel samples other n 8000 0 1000 = .ok (List.replicate n (some 0)) ∧
    ∃ s, bendChannel.evaluateChannel samples other 800 8000 0 1000 = .ok s ∧ s[80]? = some (some (1 / 2)) := by
  obtain ⟨h1, h2⟩ := c105_curve_negation samples other n hn
  refine ⟨?_, h2⟩
  rw [← h1]
  rfl

end Haptics
