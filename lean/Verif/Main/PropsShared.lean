import Verif.Types.PropsLibrary
import Verif.Main.PropsMix

/-! ## C110: sharing repeated effects, and resolving references, does not change what is played -/

namespace Haptics
open SynthMain Sounds

theorem mem_signal {e e' : Effect} (h : e.signal = e'.signal) :
    e'.position = e.position ∧ e'.phase = e.phase ∧ e'.baseSignal = e.baseSignal ∧ e'.keyframes = e.keyframes := by
  unfold Effect.signal at h
  simp only [Prod.mk.injEq] at h
  obtain ⟨h1, -, h3, h4, h5⟩ := h
  exact ⟨h1.symm, h3.symm, h4.symm, h5.symm⟩

theorem signal_timeLength {e e' : Effect} (h : e.signal = e'.signal) (bt : Nat) (d : ℚ) : e'.timeLength bt d = e.timeLength bt d := by
  unfold Effect.timeLength
  rw [(mem_signal h).2.2.2]

theorem signal_switch (samples : Effect → List ℝ) {b b' : Band} (hb : { b with effects := [] } = { b' with effects := [] })
    (hw : b.bandType ≠ BandType.WaveletWave) {e e' : Effect} (h : e.signal = e'.signal) (position : ℝ) (low high : ℤ) (ts : ℕ) :
    b'.evaluationSwitch samples position e' low high ts = b.evaluationSwitch samples position e low high ts := by
  obtain ⟨h1, h2, h3, h4⟩ := mem_signal h
  have hbt : b'.bandType = b.bandType := (congrArg Band.bandType hb).symm
  have hct : b'.curveType = b.curveType := (congrArg Band.curveType hb).symm
  have hph : e'.phaseOrDefault = e.phaseOrDefault := by unfold Effect.phaseOrDefault; rw [h2]
  have hbs : ∀ t f p, e'.computeBaseSignal t f p = e.computeBaseSignal t f p := by
    intro t f p
    unfold Effect.computeBaseSignal Effect.baseSignalOrDefault
    rw [h3]
  have hv : e'.evaluateVectorial position low high ts = e.evaluateVectorial position low high ts := by
    unfold Effect.evaluateVectorial
    simp only [signal_timeLength h, h1, h4, hph, hbs]
  have hk : e'.evaluateKeyframes position b'.curveTypeOrDefault ts = e.evaluateKeyframes position b.curveTypeOrDefault ts := by
    unfold Effect.evaluateKeyframes Band.curveTypeOrDefault
    rw [h1, h4, hct]
  have ht : ∀ d, e'.evaluateTransient position d = e.evaluateTransient position d := by
    intro d
    unfold Effect.evaluateTransient
    rw [h1, h4]
  unfold Band.evaluationSwitch
  simp only [hbt, hv, hk, if_neg hw, signal_timeLength h, h1, ht]

theorem signal_sum (samples : Effect → List ℝ) {b b' : Band} (hb : { b with effects := [] } = { b' with effects := [] })
    (hw : b.bandType ≠ BandType.WaveletWave) (position : ℝ) (ts : ℕ) : ∀ {l l' : List Effect}, l.map Effect.signal = l'.map Effect.signal →
      ∀ acc, sumEffects samples b' position ts acc l' = sumEffects samples b position ts acc l
  | [], [], _, _ => rfl
  | [], _ :: _, h, _ => by cases h
  | _ :: _, [], h, _ => by cases h
  | e :: l, e' :: l', h, acc => by
    rw [List.map_cons, List.map_cons, List.cons.injEq] at h
    have ih := signal_sum samples hb hw position ts h.2
    unfold sumEffects
    have h1 : b'.lowerFrequencyLimit = b.lowerFrequencyLimit := (congrArg Band.lowerFrequencyLimit hb).symm
    have h2 : b'.upperFrequencyLimit = b.upperFrequencyLimit := (congrArg Band.upperFrequencyLimit hb).symm
    rw [(mem_signal h.1).1, h1, h2, signal_switch samples hb hw h.1, ih acc]
    simp only [ih]

theorem signal_last {l l' : List Effect} (h : l.map Effect.signal = l'.map Effect.signal) :
    Option.Rel (fun e e' : Effect => e.signal = e'.signal) l.getLast? l'.getLast? := by
  have := congrArg List.getLast? h
  rw [List.getLast?_map, List.getLast?_map] at this
  cases h1 : l.getLast? with
  | none => cases h2 : l'.getLast? with
    | none => exact .none
    | some _ => rw [h1, h2] at this; cases this
  | some _ => cases h2 : l'.getLast? with
    | none => rw [h1, h2] at this; cases this
    | some _ => rw [h1, h2] at this; exact .some (Option.some.inj this)

theorem same_evaluation (samples : Effect → List ℝ) (other : Nat → List (Int × ℝ) → Except Err (List (Option ℝ))) {b b' : Band}
    (h : b.SameSignal b') (n : ℕ) (fs pad : ℤ) (ts : ℕ) :
    b'.evaluationBand samples other n fs pad ts = b.evaluationBand samples other n fs pad ts := by
  obtain ⟨hb, he⟩ := h
  have hbt : b'.bandType = b.bandType := (congrArg Band.bandType hb).symm
  have hct : b'.curveType = b.curveType := (congrArg Band.curveType hb).symm
  by_cases hw : b.bandType = BandType.WaveletWave
  · rw [if_pos hw] at he
    have : b' = b := by
      cases b; cases b'
      simp only [Band.mk.injEq] at hb he ⊢
      tauto
    rw [this]
  · rw [if_neg hw] at he
    unfold Band.evaluationBand
    rw [hbt]
    split
    · unfold Band.curveTypeOrDefault
      rw [hct]
      generalize List.replicate n (some (0 : ℝ)) = a
      generalize b.effects = l at he
      generalize b'.effects = l' at he
      induction l generalizing l' a with
      | nil => cases l' with
        | nil => rfl
        | cons _ _ => cases he
      | cons e l ih => cases l' with
        | nil => cases he
        | cons e' l' =>
          rw [List.map_cons, List.map_cons, List.cons.injEq] at he
          obtain ⟨h1, -, -, h4⟩ := mem_signal he.1
          have : ∀ a, addCurveEffect other (b.curveType.getD 0) fs pad ts a e' = addCurveEffect other (b.curveType.getD 0) fs pad ts a e := by
            intro a
            unfold addCurveEffect
            rw [h1, h4]
          unfold foldE
          rw [this]
          cases addCurveEffect other (b.curveType.getD 0) fs pad ts a e with
          | error x => rfl
          | ok v => exact ih _ _ he.2
    · congr 1
      funext i
      unfold Band.evaluationSample
      have hl := signal_last he
      revert hl
      cases b.effects.getLast? with
      | none => cases b'.effects.getLast? with
        | none => intro _; rfl
        | some _ => intro h; cases h
      | some e => cases b'.effects.getLast? with
        | none => intro h; cases h
        | some e' =>
          intro hs
          cases hs with
          | some hs =>
            dsimp only
            rw [hbt, signal_timeLength hs, signal_sum samples hb hw _ _ (l := b.effects.reverse) (l' := b'.effects.reverse)
              (by rw [List.map_reverse, List.map_reverse, he])]

theorem same_mix (samples : Effect → List ℝ) (other : Nat → List (Int × ℝ) → Except Err (List (Option ℝ))) (n : ℕ) (fs pad : ℤ) (ts : ℕ)
    {l l' : List Band} (h : List.Forall₂ (fun b b' => b'.evaluationBand samples other n fs pad ts = b.evaluationBand samples other n fs pad ts) l l') :
    ∀ a, mixBands samples other n fs pad ts a l' = mixBands samples other n fs pad ts a l := by
  induction h with
  | nil => intro a; rfl
  | cons hb _ ih =>
    intro a
    unfold mixBands
    rw [hb]
    simp only [ih]

theorem same_bandLength {b b' : Band} (h : b.SameSignal b') (ts : ℕ) : b'.timeLength ts = b.timeLength ts := by
  obtain ⟨hb, he⟩ := h
  have hbt : b'.bandType = b.bandType := (congrArg Band.bandType hb).symm
  have he' : b.effects.map Effect.signal = b'.effects.map Effect.signal := by
    split at he
    · rw [he]
    · exact he
  unfold Band.timeLength
  have hl := signal_last he'
  revert hl
  cases b.effects.getLast? with
  | none => cases b'.effects.getLast? with
    | none => intro _; rfl
    | some _ => intro h; cases h
  | some e => cases b'.effects.getLast? with
    | none => intro h; cases h
    | some e' =>
      intro hs
      cases hs with
      | some hs =>
        dsimp only
        rw [hbt, signal_timeLength hs, (mem_signal hs).1]

theorem same_lengths {c c' : Channel} (h : c.SameSignal c') (ts : ℕ) : c'.lengths ts = c.lengths ts := by
  obtain ⟨hc, hb⟩ := h
  have h1 : c'.frequencySampling = c.frequencySampling := (congrArg Channel.frequencySampling hc).symm
  have h2 : c'.sampleCount = c.sampleCount := (congrArg Channel.sampleCount hc).symm
  unfold Channel.lengths
  rw [h1, h2, mapE_congr₂ hb fun b b' hbb => same_bandLength hbb ts]

/-- Two perceptions render the same signals. -/
def SamePerception (p p' : Perception) : Prop :=
  p'.perceptionUnitExponent = p.perceptionUnitExponent ∧ List.Forall₂ Channel.SameSignal p.channels p'.channels

theorem same_channels {l l' : List Perception} (h : List.Forall₂ SamePerception l l') :
    List.Forall₂ Channel.SameSignal (l.flatMap Perception.channels) (l'.flatMap Perception.channels) := by
  induction h with
  | nil => exact .nil
  | cons hp _ ih => rw [List.flatMap_cons, List.flatMap_cons]; exact List.rel_append hp.2 ih

theorem same_length {h h' : Experience} (ht : h'.timescale = h.timescale) (hp : List.Forall₂ SamePerception h.perceptions h'.perceptions) :
    h'.timeLength = h.timeLength := by
  unfold Experience.timeLength
  rw [ht]
  cases h.timescale with
  | none => rfl
  | some ts =>
    dsimp only
    rw [mapE_congr₂ (same_channels hp) fun c c' hcc => same_lengths hcc ts]

/-- After wavelet bands have been decoded: bands that give the same signals. -/
def SamePlayed (parts : Parts) (c c' : Channel) : Prop :=
  c'.gain = c.gain ∧ ∀ n fs pad ts, c'.evaluateChannel parts.samples parts.other n fs pad ts = c.evaluateChannel parts.samples parts.other n fs pad ts

theorem same_decoded (parts : Parts) (ts : ℕ) {c c' : Channel} (h : c.SameSignal c') :
    Alike (SamePlayed parts) (decodeChannel parts ts c) (decodeChannel parts ts c') := by
  obtain ⟨hc, hb⟩ := h
  have hg : c'.gain = c.gain := (congrArg Channel.gain hc).symm
  have hd : Alike (List.Forall₂ (fun b b' : Band => ∀ n fs pad ts, b'.evaluationBand parts.samples parts.other n fs pad ts =
      b.evaluationBand parts.samples parts.other n fs pad ts)) (mapE (decodeBand parts ts) c.bands) (mapE (decodeBand parts ts) c'.bands) := by
    refine alike_mapE hb fun b b' hbb => ?_
    have hbt : b'.bandType = b.bandType := (congrArg Band.bandType hbb.1).symm
    unfold decodeBand
    rw [hbt]
    by_cases hw : b.bandType = BandType.WaveletWave
    · rw [if_pos hw, if_pos hw]
      have he := hbb.2
      rw [if_pos hw] at he
      have : b' = b := by
        have hb1 := hbb.1
        cases b; cases b'
        simp only [Band.mk.injEq] at hb1 he ⊢
        tauto
      rw [this]
      cases parts.transform ts b with
      | error x => rfl
      | ok v => exact fun _ _ _ _ => rfl
    · rw [if_neg hw, if_neg hw]
      exact fun n fs pad ts => same_evaluation parts.samples parts.other hbb n fs pad ts
  unfold decodeChannel
  cases h1 : mapE (decodeBand parts ts) c.bands with
  | error x =>
    cases h2 : mapE (decodeBand parts ts) c'.bands with
    | error y => rw [h1, h2] at hd; exact hd
    | ok y => rw [h1, h2] at hd; exact absurd hd id
  | ok v =>
    rw [h1] at hd
    obtain ⟨v', h2, hv⟩ := hd.ok_left
    rw [h2]
    exact ⟨hg, fun n fs pad ts => same_mix parts.samples parts.other n fs pad ts (hv.imp fun _ _ h => h n fs pad ts) _⟩

theorem same_perceptions (parts : Parts) (ts : ℕ) {p p' : Perception} (h : SamePerception p p') :
    Alike (fun q q' : Perception => q'.perceptionUnitExponent = q.perceptionUnitExponent ∧ List.Forall₂ (SamePlayed parts) q.channels q'.channels)
      (decodePerception parts ts p) (decodePerception parts ts p') := by
  have hd := alike_mapE (R := SamePlayed parts) (f := decodeChannel parts ts) (f' := decodeChannel parts ts) h.2 fun c c' hcc => same_decoded parts ts hcc
  unfold decodePerception
  cases h1 : mapE (decodeChannel parts ts) p.channels with
  | error x =>
    cases h2 : mapE (decodeChannel parts ts) p'.channels with
    | error y => rw [h1, h2] at hd; exact hd
    | ok y => rw [h1, h2] at hd; exact absurd hd id
  | ok v =>
    rw [h1] at hd
    obtain ⟨v', h2, hv⟩ := hd.ok_left
    rw [h2]
    exact ⟨h.1, hv⟩

/-- Experiences with the same signals are played in the same way. -/
theorem same_played (parts : Parts) (h h' : Experience) (fs pad : ℤ) (ht : h'.timescale = h.timescale)
    (hp : List.Forall₂ SamePerception h.linearize.perceptions h'.linearize.perceptions) :
    synthesize parts h' fs pad = synthesize parts h fs pad := by
  unfold synthesize
  rw [same_length (h := h.linearize) (h' := h'.linearize) ht hp]
  cases h.linearize.timeLength with
  | error x => rfl
  | ok length =>
    show playFile parts h'.linearize length fs pad = playFile parts h.linearize length fs pad
    unfold playFile
    rw [show h'.linearize.timescale = h.timescale from ht, show h.linearize.timescale = h.timescale from rfl]
    have hd := alike_mapE (f := decodePerception parts (h.timescale.getD 1000)) (f' := decodePerception parts (h.timescale.getD 1000)) hp
      fun p p' hpp => same_perceptions parts _ hpp
    cases h1 : mapE (decodePerception parts (h.timescale.getD 1000)) h.linearize.perceptions with
    | error x =>
      cases h2 : mapE (decodePerception parts (h.timescale.getD 1000)) h'.linearize.perceptions with
      | error y => rw [h1, h2] at hd; rw [show x = y from hd]
      | ok y => rw [h1, h2] at hd; exact absurd hd id
    | ok ps =>
      rw [h1] at hd
      obtain ⟨ps', h2, hv⟩ := hd.ok_left
      rw [h2]
      cases h.timescale with
      | none => rfl
      | some ts =>
        show (mapE (playChannel parts length fs pad ts) (channelsOf ps')).bind _ = (mapE (playChannel parts length fs pad ts) (channelsOf ps)).bind _
        have hcs : List.Forall₂ (fun pc pc' : Perception × Channel => pc'.1.perceptionUnitExponent = pc.1.perceptionUnitExponent ∧
            SamePlayed parts pc.2 pc'.2) (channelsOf ps) (channelsOf ps') := by
          clear h1 h2 hd
          induction hv with
          | nil => exact .nil
          | cons hq _ ih =>
            unfold channelsOf at ih ⊢
            rw [List.flatMap_cons, List.flatMap_cons]
            refine List.rel_append ?_ ih
            rw [List.forall₂_map_left_iff, List.forall₂_map_right_iff]
            exact hq.2.imp fun _ _ h => ⟨hq.1, h⟩
        rw [mapE_congr₂ hcs fun pc pc' hpc => ?_]
        unfold playChannel factor
        rw [hpc.1, hpc.2.1]
        simp only [hpc.2.2]

/-- **C110** Replacing the references of an experience by the effects of its libraries does not change what is played. -/
theorem c110_linearize (parts : Parts) (h : Experience) (fs pad : ℤ) : synthesize parts h.linearize fs pad = synthesize parts h fs pad := by
  have hl : h.linearize.linearize = h.linearize := by
    have he : ∀ l : List Effect, l.map (linearizeEffect []) = l := by
      intro l
      rw [List.map_congr_left (g := id) (fun e _ => ?_), List.map_id]
      unfold linearizeEffect getEffectById
      split <;> rfl
    unfold Experience.linearize
    simp only [List.map_map]
    congr 1
    refine List.map_congr_left fun p _ => ?_
    simp only [Function.comp_apply]
    unfold Perception.linearizeLibrary
    simp only [List.map_map]
    congr 1
    refine List.map_congr_left fun c _ => ?_
    simp only [Function.comp_apply, List.map_map]
    congr 1
    refine List.map_congr_left fun b _ => ?_
    simp only [Function.comp_apply, he]
  unfold synthesize
  rw [hl]

/-- **C110 (partial)** Moving repeated effects to libraries does not change what is played, if the libraries are numbered below their size
(empty ones, say), all references resolve, and no wavelet effect looks like an effect of another band.
Missing: other libraries (`c110_collision_negation`, `c31_collision_negation`) and effects without keyframes beside wavelets
(`c31_wavelet_negation`). -/
theorem c110_refactor_partial (parts : Parts) (h : Experience) (fs pad : ℤ)
    (hp : ∀ p ∈ h.perceptions, LibraryNumbered p.effectLibrary ∧ ReferencesResolve p.effectLibrary p.channels ∧ WaveletsApart p.channels) :
    synthesize parts h.refactor fs pad = synthesize parts h fs pad := by
  refine same_played parts h h.refactor fs pad rfl ?_
  show List.Forall₂ SamePerception (h.perceptions.map Perception.linearizeLibrary) ((h.perceptions.map Perception.refactorEffects).map Perception.linearizeLibrary)
  rw [List.map_map, List.forall₂_map_left_iff, List.forall₂_map_right_iff, List.forall₂_same]
  intro p hpm
  obtain ⟨h1, h2, h3⟩ := hp p hpm
  refine ⟨?_, c31_refactor_linearize_partial p h1 h2 h3⟩
  show p.refactorEffects.perceptionUnitExponent = p.perceptionUnitExponent
  unfold Perception.refactorEffects
  generalize List.range p.channels.length = is
  clear hpm h1 h2 h3
  induction is generalizing p with
  | nil => rfl
  | cons i is ih =>
    rw [List.foldl_cons, ih]
    unfold refactorChannel
    split
    · rfl
    · rename_i channel hc
      clear hc
      generalize (channel.bands.filter (fun b => b.bandType ≠ BandType.WaveletWave)).flatMap (·.effects) = es
      induction es generalizing p with
      | nil => rfl
      | cons e es ih' =>
        rw [List.foldl_cons, ih']
        unfold refactorStep
        split <;> rfl

/-- An effect that holds the value 1/2 for an instant. -/
def instant (t : ℤ) : Effect :=
  { position := t, baseSignal := some 1, keyframes := [{ relativePosition := some 0, amplitudeModulation := some (1 / 2) }] }

/-- Two equal effects, with a library whose only effect has the identifier 1. -/
def twoInstants (library : List Effect) : Experience :=
  { timescale := some 1000
    perceptions := [{ effectLibrary := library,
                      channels := [{ bands := [{ bandType := BandType.VectorialWave, lowerFrequencyLimit := 0, upperFrequencyLimit := 100,
                                                 effects := [instant 0, instant 1] }] }] }] }

/-- A band that plays one sample. -/
theorem single_plays (parts : Parts) (h : Experience) (b : Band) (v : ℝ) (ht : h.timescale = some 1000)
    (hl : h.linearize.perceptions = [{ channels := [{ bands := [b] }] }]) (hb : b.bandType = BandType.VectorialWave) (hn : b.timeLength 1000 = .ok 1)
    (hv : b.evaluationSample parts.samples 1000 0 1000 0 = .ok (some v)) (h1 : |v| ≤ 1) :
    synthesize parts h 1000 0 = .ok [[some v]] := by
  have hlen : h.linearize.timeLength = .ok 1 := by
    unfold Experience.timeLength
    rw [hl, show h.linearize.timescale = some 1000 from ht]
    simp [mapE, Channel.lengths, hn]
  have hband : b.evaluationBand parts.samples parts.other 1 1000 0 1000 = .ok [some v] := by
    unfold Band.evaluationBand
    rw [if_neg (by rw [hb]; decide)]
    simp only [List.range_one, mapE, hv]
  have hc : sampleCount 1 1000 0 1000 = .ok 1 := by
    have : (sampleCount 1 1000 0 1000).toOption = some 1 := by decide +kernel
    revert this
    cases sampleCount 1 1000 0 1000 with
    | error x => intro h; cases h
    | ok n => intro h; rw [Option.some.inj h]
  have hch : Channel.evaluateChannel parts.samples parts.other { bands := [b] } 1 1000 0 1000 = .ok [some v] := by
    unfold Channel.evaluateChannel
    simp only [mixBands, hband, mixBand, List.replicate_one, List.zipWith_cons_cons, List.zipWith_nil_left, fadd, clamp1_clipped, zero_add]
    rw [show clipped v = v from by
      rw [abs_le] at h1
      unfold clipped
      rw [min_eq_right h1.2, max_eq_right h1.1]]
  unfold synthesize
  rw [hlen]
  show playFile parts h.linearize 1 1000 0 = _
  unfold playFile
  rw [hl, show h.linearize.timescale = some 1000 from ht]
  have hd : mapE (decodePerception parts ((some 1000 : Option ℕ).getD 1000)) [({ channels := [{ bands := [b] }] } : Perception)] =
      .ok [{ channels := [{ bands := [b] }] }] := by
    simp only [mapE, decodePerception, decodeChannel, decodeBand]
    rw [if_neg (by rw [hb]; decide)]
    rfl
  rw [hd]
  show (mapE (playChannel parts 1 1000 0 1000) [(({ channels := [{ bands := [b] }] } : Perception), ({ bands := [b] } : Channel))]).bind _ = _
  have hp : playChannel parts 1 1000 0 1000 (({ channels := [{ bands := [b] }] } : Perception), ({ bands := [b] } : Channel)) = .ok [some v] := by
    unfold playChannel
    rw [hc]
    show (Channel.evaluateChannel parts.samples parts.other { bands := [b] } 1 1000 0 1000).bind _ = _
    rw [hch]
    simp [Except.bind, factor, pure, Except.pure]
  simp only [mapE, hp]
  rfl

/-- What is left of the band of `twoInstants` when references are resolved. -/
def resolved (e e' : Effect) : Band :=
  { bandType := BandType.VectorialWave, lowerFrequencyLimit := 0, upperFrequencyLimit := 100, effects := [e, e'] }

theorem twoInstants_play (parts : Parts) (library : List Effect) : synthesize parts (twoInstants library) 1000 0 = .ok [[some (1 / 2)]] := by
  refine single_plays parts _ (resolved (instant 0) (instant 1)) _ rfl rfl rfl ?_ ?_ (by rw [abs_le]; constructor <;> norm_num)
  · simp [Band.timeLength, resolved, instant, Effect.timeLength, BandType.VectorialWave, BandType.Transient, BandType.Curve]
  · unfold Band.evaluationSample
    simp [resolved, instant, Effect.timeLength, BandType.VectorialWave, BandType.Transient, sumEffects]
    rw [if_neg (by norm_num)]
    unfold Band.evaluationSwitch
    rw [if_neg (by simp [BandType.Curve]), if_pos rfl]
    have h := hold_vectorial (1 / 2) 0 100
    rw [show ((1 / 2 : ℚ)) = 2⁻¹ from by norm_num] at h
    rw [h]
    simp [fadd]

/-- **C110** is false of the code for libraries with other numbers: the new effect gets the identifier of one that is there,
and the references to it play that one. -/
theorem c110_collision_negation (parts : Parts) :
    synthesize parts (twoInstants [{ id := 1 }]) 1000 0 = .ok [[some (1 / 2)]] ∧ synthesize parts (twoInstants [{ id := 1 }]).refactor 1000 0 = .ok [[some 0]] := by
  refine ⟨twoInstants_play parts _, ?_⟩
  refine single_plays parts _ (resolved {} { position := 1 }) _ rfl (by
    simp [twoInstants, Experience.refactor, Perception.refactorEffects, refactorChannel, refactorStep, effectsOf, Effect.isEquivalent, instant, referenceTo,
      Experience.linearize, Perception.linearizeLibrary, linearizeEffect, getEffectById, resolved, BandType.VectorialWave, BandType.WaveletWave,
      EffectType.Basis, EffectType.Reference, List.range_succ]) rfl ?_ ?_ (by norm_num)
  · simp [Band.timeLength, resolved, Effect.timeLength, BandType.VectorialWave, BandType.Transient, BandType.Curve]
  · unfold Band.evaluationSample
    simp [resolved, Effect.timeLength, BandType.VectorialWave, BandType.Transient, sumEffects]
    rw [if_neg (by norm_num)]
    unfold Band.evaluationSwitch
    rw [if_neg (by simp [BandType.Curve]), if_pos rfl]
    simp [Effect.evaluateVectorial, Effect.timeLength, fadd]

/-- Non-vacuity of `c110_refactor_partial`: with an empty library the effects of `twoInstants` are shared, and it plays the same. -/
example (parts : Parts) : (∀ p ∈ (twoInstants []).perceptions, LibraryNumbered p.effectLibrary ∧ ReferencesResolve p.effectLibrary p.channels ∧ WaveletsApart p.channels) ∧
    (twoInstants []).refactor.perceptions.map (fun p => (effectsOf p.channels).map (fun e => (e.id, e.position, e.effectType))) = [[(0, 0, 1), (0, 1, 1)]] ∧
    synthesize parts (twoInstants []).refactor 1000 0 = .ok [[some (1 / 2)]] := by
  have h : ∀ p ∈ (twoInstants []).perceptions, LibraryNumbered p.effectLibrary ∧ ReferencesResolve p.effectLibrary p.channels ∧ WaveletsApart p.channels := by
    intro p hp
    simp only [twoInstants, List.mem_singleton] at hp
    subst hp
    refine ⟨by simp [LibraryNumbered], ?_, ?_⟩
    · intro e he
      simp [effectsOf, instant] at he
      rcases he with rfl | rfl <;> simp
    · intro c hc b hb _ e he c' hc' b' hb' hw'
      simp at hc'
      subst hc'
      simp at hb'
      subst hb'
      cases hw'
  exact ⟨h, by decide +kernel, by rw [c110_refactor_partial parts _ _ _ h, twoInstants_play]⟩

end Haptics
