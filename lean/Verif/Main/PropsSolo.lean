import Verif.Main.SpecSolo
import Verif.Main.PropsShared
import Verif.Eval.PropsCurve
import Verif.Encoder.PropsPcmCurve

/-! **C115** A channel sounds the same alone as together with others. -/

namespace Haptics
open SynthMain

theorem mapE_take {α β : Type} (f : α → Except Err β) : ∀ (l : List α) (r : List β) (n : Nat), mapE f l = .ok r → mapE f (l.take n) = .ok (r.take n)
  | [], r, n, h => by
    rw [mapE] at h
    cases h
    simp [mapE]
  | a :: l, r, 0, h => by simp [mapE]
  | a :: l, r, n + 1, h => by
    rw [mapE] at h
    cases hf : f a with
    | error e => rw [hf] at h; cases h
    | ok b =>
      rw [hf] at h
      simp only at h
      cases hl : mapE f l with
      | error e => rw [hl] at h; cases h
      | ok r' =>
        rw [hl] at h
        have := Except.ok.inj h
        subst this
        rw [List.take_succ_cons, List.take_succ_cons, mapE, hf]
        simp only [mapE_take f l r' n hl]

theorem addCurve_take (amp curve : List (Option ℝ)) (last position : Int) (r : List (Option ℝ)) (n : Nat)
    (h : addCurve amp curve last position = .ok r) : addCurve (amp.take n) curve last position = .ok (r.take n) := by
  unfold addCurve at h ⊢
  simp only at h ⊢
  split at h
  · cases h
  · rename_i hu
    have := Except.ok.inj h
    subst this
    rw [if_neg]
    · congr 1
      rw [← List.map_take, List.take_range, List.length_take]
      refine List.map_congr_left fun i hi => ?_
      rw [List.mem_range] at hi
      have : (amp.take n).getD i (some 0) = amp.getD i (some 0) := by
        rw [List.getD_eq_getElem?_getD, List.getD_eq_getElem?_getD, List.getElem?_take_of_lt (by omega)]
      rw [this]
    · intro hc
      apply hu
      rw [List.any_eq_true] at hc ⊢
      obtain ⟨i, hi, hb⟩ := hc
      rw [List.mem_range, List.length_take] at hi
      exact ⟨i, List.mem_range.mpr (by omega), hb⟩

theorem addCurveEffect_take (other : Nat → List (Int × ℝ) → Except Err (List (Option ℝ))) (curveType : Nat) (fs pad : Int) (ts : Nat)
    (amp r : List (Option ℝ)) (e : Effect) (n : Nat) (h : addCurveEffect other curveType fs pad ts amp e = .ok r) :
    addCurveEffect other curveType fs pad ts (amp.take n) e = .ok (r.take n) := by
  unfold addCurveEffect at h ⊢
  cases hp : curvePoints fs ts e.keyframes with
  | error x => rw [hp] at h; cases h
  | ok points =>
    rw [hp] at h
    simp only at h ⊢
    split at h
    · rename_i h2
      rw [if_pos h2]
      cases hi : interpolation2 linearSegment (points.getLastD (0, 0)).1 0 points with
      | error x => rw [hi] at h; cases h
      | ok c => rw [hi] at h; cases h; rfl
    · rename_i h2
      rw [if_neg h2]
      cases hi : interpolateCurve other curveType points with
      | error x => rw [hi] at h; cases h
      | ok c =>
        rw [hi] at h
        exact addCurve_take _ _ _ _ _ _ h

theorem foldE_take {α : Type} (f : List (Option ℝ) → α → Except Err (List (Option ℝ))) (n : Nat)
    (hf : ∀ s a r, f s a = .ok r → f (s.take n) a = .ok (r.take n)) :
    ∀ (l : List α) (s r : List (Option ℝ)), foldE f s l = .ok r → foldE f (s.take n) l = .ok (r.take n)
  | [], s, r, h => by
    rw [foldE] at h
    cases h
    rfl
  | a :: l, s, r, h => by
    rw [foldE] at h
    cases hfa : f s a with
    | error e => rw [hfa] at h; cases h
    | ok s' =>
      rw [hfa] at h
      rw [foldE, hf s a s' hfa]
      exact foldE_take f n hf l s' r h

theorem evaluationBand_take (samples : Effect → List ℝ) (other : Nat → List (Int × ℝ) → Except Err (List (Option ℝ))) (b : Band) (fs pad : Int) (ts : Nat)
    {n n' : Nat} (hn : n ≤ n') {r : List (Option ℝ)} (h : b.evaluationBand samples other n' fs pad ts = .ok r) :
    b.evaluationBand samples other n fs pad ts = .ok (r.take n) := by
  unfold Band.evaluationBand at h ⊢
  split at h
  · rename_i hb
    rw [if_pos hb]
    have := foldE_take _ n (fun s a r => addCurveEffect_take other b.curveTypeOrDefault fs pad ts s r a n) _ _ _ h
    rwa [List.take_replicate, Nat.min_eq_left hn] at this
  · rename_i hb
    rw [if_neg hb]
    have := mapE_take _ _ _ n h
    rwa [List.take_range, Nat.min_eq_left hn] at this

theorem mixBands_take (samples : Effect → List ℝ) (other : Nat → List (Int × ℝ) → Except Err (List (Option ℝ))) (fs pad : Int) (ts : Nat)
    {n n' : Nat} (hn : n ≤ n') : ∀ (bs : List Band) (amp r : List (Option ℝ)), mixBands samples other n' fs pad ts amp bs = .ok r →
    mixBands samples other n fs pad ts (amp.take n) bs = .ok (r.take n)
  | [], amp, r, h => by
    rw [mixBands] at h
    cases h
    rfl
  | b :: bs, amp, r, h => by
    rw [mixBands] at h
    cases hb : b.evaluationBand samples other n' fs pad ts with
    | error e => rw [hb] at h; cases h
    | ok v =>
      rw [hb] at h
      rw [mixBands, evaluationBand_take samples other b fs pad ts hn hb]
      have := mixBands_take samples other fs pad ts hn bs _ r h
      unfold mixBand at this ⊢
      rwa [List.take_zipWith] at this

/-- **C115.** If fewer samples of a channel are asked for, one gets the first ones of those of more. -/
theorem c115_prefix (samples : Effect → List ℝ) (other : Nat → List (Int × ℝ) → Except Err (List (Option ℝ))) (c : Channel) (fs pad : Int) (ts : Nat)
    (n n' : Nat) (hn : n ≤ n') (r : List (Option ℝ)) (h : c.evaluateChannel samples other n' fs pad ts = .ok r) :
    c.evaluateChannel samples other n fs pad ts = .ok (r.take n) := by
  unfold Channel.evaluateChannel at h ⊢
  have := mixBands_take samples other fs pad ts hn _ _ _ h
  rwa [List.take_replicate, Nat.min_eq_left hn] at this

/-- A channel with its references replaced. -/
def linearizeChannel (library : List Effect) (c : Channel) : Channel :=
  { c with bands := c.bands.map (fun b => { b with effects := b.effects.map (linearizeEffect library) }) }

theorem channelsOf_linearize (ps : List Perception) : channelsOf (ps.map Perception.linearizeLibrary) =
    (channelsOf ps).map (fun pc => (pc.1.linearizeLibrary, linearizeChannel pc.1.effectLibrary pc.2)) := by
  unfold channelsOf
  rw [List.flatMap_map, List.map_flatMap]
  congr 1
  funext p
  show (p.channels.map _).map _ = _
  rw [List.map_map, List.map_map]
  rfl

theorem channels_of (ps : List Perception) : ps.flatMap Perception.channels = (channelsOf ps).map Prod.snd := by
  unfold channelsOf
  rw [List.map_flatMap]
  congr 1
  funext p
  rw [List.map_map]
  exact (List.map_id' _).symm

/-- A shorter experience has fewer samples. -/
theorem sampleCount_mono {length length' : ℚ} {fs pad : Int} {ts n' : Nat} (hfs : 0 < fs) (hpad : 0 ≤ pad) (h0 : 0 ≤ length) (hl : length ≤ length')
    (h : sampleCount length' fs pad ts = .ok n') : ∃ n, sampleCount length fs pad ts = .ok n ∧ n ≤ n' := by
  unfold sampleCount at h ⊢
  split at h
  · cases h
  rename_i hts
  rw [if_neg hts]
  simp only at h ⊢
  have hfs' : (0 : ℚ) < fs := by exact_mod_cast hfs
  have hpad' : (0 : ℚ) ≤ pad := by exact_mod_cast hpad
  have hz : fl64 0 = 0 := by decide +kernel
  have nn : ∀ {x : ℚ}, 0 ≤ x → 0 ≤ fl64 x := fun hx => by
    have := fl64_mono hx
    rwa [hz] at this
  have m1 : fl64 (fl64 (fs * fl64 (length + 2 * pad)) / ts) ≤ fl64 (fl64 (fs * fl64 (length' + 2 * pad)) / ts) := by
    refine fl64_mono (div_le_div_of_nonneg_right (fl64_mono (mul_le_mul_of_nonneg_left (fl64_mono ?_) hfs'.le)) (by positivity))
    linarith
  have m0 : 0 ≤ fl64 (fl64 (fs * fl64 (length + 2 * pad)) / ts) :=
    nn (div_nonneg (nn (mul_nonneg hfs'.le (nn (by linarith)))) (by positivity))
  have r1 := Pcm.roundAway_mono m1
  have r0 : 0 ≤ roundAway (fl64 (fl64 (fs * fl64 (length + 2 * pad)) / ts)) := by
    have := Pcm.roundAway_mono m0
    have hz' : roundAway 0 = 0 := by decide +kernel
    rwa [hz'] at this
  split at h
  · rename_i hb
    rw [if_pos ⟨r0, lt_of_le_of_lt r1 hb.2⟩]
    refine ⟨_, rfl, ?_⟩
    rw [← Except.ok.inj h]
    refine Int.toNat_le_toNat ?_
    unfold truncQ
    rw [if_pos r0, if_pos hb.1]
    exact Int.floor_mono r1
  · cases h

theorem decoded_forward {parts : Parts} {ts : Nat} {bs bs' : List Band} (h : List.Forall₂ (Decoded parts ts) bs bs') :
    mapE (decodeBand parts ts) bs = .ok bs' := by
  induction h with
  | nil => rfl
  | cons hb _ ih =>
    rename_i b b' l l' _
    have : decodeBand parts ts b = .ok b' := by
      unfold decodeBand
      cases hb with
      | wavelet b' h1 h2 => rw [if_pos h1]; exact h2
      | other h1 => rw [if_neg h1]
    rw [mapE, this]
    simp only [ih]

/-- **C115.** A channel sounds the same alone as together with other channels; these can only make the signal longer. -/
theorem c115_solo (parts : Parts) (h : Experience) (fs pad : Int) (hfs : 0 < fs) (hpad : 0 ≤ pad) (sig : List (List (Option ℝ)))
    (hs : synthesize parts h fs pad = .ok sig) (i : Nat) (p : Perception) (c : Channel) (hi : (channelsOf h.perceptions)[i]? = some (p, c)) :
    ∃ s s', synthesize parts (h.solo p c) fs pad = .ok [s] ∧ sig[i]? = some s' ∧ s <+: s' := by
  obtain ⟨ts, length, n', h1, h2, h3, h4⟩ := c82_content parts h fs pad sig hs
  have hci : (channelsOf h.linearize.perceptions)[i]? = some (p.linearizeLibrary, linearizeChannel p.effectLibrary c) := by
    show (channelsOf (h.perceptions.map Perception.linearizeLibrary))[i]? = _
    rw [channelsOf_linearize, List.getElem?_map, hi]
    rfl
  generalize hlc : linearizeChannel p.effectLibrary c = lc at hci
  -- its signal
  obtain ⟨s', hs', hplayed⟩ : ∃ s', sig[i]? = some s' ∧ Played parts ts n' fs pad (p.linearizeLibrary, lc) s' := by
    have hil : i < (channelsOf h.linearize.perceptions).length := (List.getElem?_eq_some_iff.mp hci).1
    have hil' : i < sig.length := by rw [← h4.length_eq]; exact hil
    refine ⟨sig[i], List.getElem?_eq_getElem hil', ?_⟩
    have := h4.get hil hil'
    rw [List.getElem?_eq_getElem hil, Option.some.injEq] at hci
    simpa [hci] using this
  obtain ⟨bands, r, hd, hev, rfl⟩ := hplayed
  -- its length
  have hts : h.linearize.timescale = some ts := h1
  obtain ⟨l0, e0, hle⟩ : ∃ l0, lc.lengths ts = .ok l0 ∧ l0.foldl max 0 ≤ length := by
    unfold Experience.timeLength at h2
    rw [hts] at h2
    simp only at h2
    cases hm : mapE (fun c : Channel => c.lengths ts) (h.linearize.perceptions.flatMap Perception.channels) with
    | error e => rw [hm] at h2; cases h2
    | ok l =>
      rw [hm] at h2
      have := Except.ok.inj h2
      subst this
      rw [channels_of] at hm
      obtain ⟨-, hg⟩ := mapE_get _ _ _ hm
      obtain ⟨l0, e1, e2⟩ := hg i lc (by rw [List.getElem?_map, hci]; rfl)
      refine ⟨l0, e2, ?_⟩
      have hmem : ∀ x ∈ l0, x ≤ l.flatten.foldl max 0 := fun x hx =>
        (foldl_max_le l.flatten 0).2 x (List.mem_flatten.mpr ⟨l0, List.mem_of_getElem? e1, hx⟩)
      have h00 : (0 : ℚ) ≤ l.flatten.foldl max 0 := (foldl_max_le l.flatten 0).1
      have : ∀ (l0 : List ℚ) (a M : ℚ), a ≤ M → (∀ x ∈ l0, x ≤ M) → l0.foldl max a ≤ M := by
        intro l0
        induction l0 with
        | nil => intro a M ha _; exact ha
        | cons x l0 ih =>
          intro a M ha hx
          exact ih _ _ (max_le ha (hx x (by simp))) (fun y hy => hx y (by simp [hy]))
      exact this l0 0 _ h00 hmem
  obtain ⟨n, hn, hnn⟩ := sampleCount_mono hfs hpad (foldl_max_le l0 0).1 hle h3
  have hl : (h.solo p c).linearize.timeLength = .ok (l0.foldl max 0) := by
    unfold Experience.timeLength
    have hts' : (h.solo p c).linearize.timescale = some ts := h1
    have hps : (h.solo p c).linearize.perceptions.flatMap Perception.channels = [lc] := by rw [← hlc]; rfl
    rw [hts', hps]
    simp only [mapE, e0, List.flatten_cons, List.flatten_nil, List.append_nil]
  refine ⟨(r.take n).map (Option.map (fun x => x * factor p.linearizeLibrary lc)), _, ?_, hs', ?_⟩
  · unfold synthesize
    rw [hl]
    show playFile parts (h.solo p c).linearize _ fs pad = _
    unfold playFile
    have hts' : (h.solo p c).linearize.timescale = some ts := h1
    have hps : (h.solo p c).linearize.perceptions = [{ p.linearizeLibrary with channels := [lc] }] := by rw [← hlc]; rfl
    have hdp : mapE (decodePerception parts ts) [{ p.linearizeLibrary with channels := [lc] }] =
        .ok [{ p.linearizeLibrary with channels := [{ lc with bands := bands }] }] := by
      simp only [mapE, decodePerception, decodeChannel, decoded_forward hd, bind, Except.bind, pure, Except.pure]
    rw [hts', hps, Option.getD_some, hdp]
    simp only [bind, Except.bind, channelsOf, List.flatMap_cons, List.flatMap_nil, List.map_cons, List.map_nil, List.append_nil, mapE, playChannel, hn]
    have hev' := c115_prefix parts.samples parts.other _ fs pad ts n n' hnn _ hev
    rw [hev']
    rfl
  · rw [List.map_take]
    exact List.take_prefix _ _

/-- Two effects, and a channel beside them that is silent. -/
def besideSilence : Experience :=
  { timescale := some 1000, perceptions := [{ channels := [{ bands := [resolved (instant 0) (instant 1)] }, {}] }] }

theorem besideSilence_play (parts : Parts) : synthesize parts besideSilence 1000 0 = .ok [[some (1 / 2)], [some 0]] := by
  have hn : (resolved (instant 0) (instant 1)).timeLength 1000 = .ok 1 := by
    simp [Band.timeLength, resolved, instant, Effect.timeLength, BandType.VectorialWave, BandType.Transient, BandType.Curve]
  have hlen : besideSilence.timeLength = .ok 1 := by
    unfold Experience.timeLength
    simp [besideSilence, mapE, Channel.lengths, hn]
  have hlin : besideSilence.linearize = besideSilence := rfl
  -- the first channel is that of `twoInstants`
  have h0 := twoInstants_play parts []
  obtain ⟨ts, length, n, e1, e2, e3, e4⟩ := c82_content parts _ 1000 0 _ h0
  have hc : sampleCount 1 1000 0 1000 = .ok 1 := by
    have : (sampleCount 1 1000 0 1000).toOption = some 1 := by decide +kernel
    revert this
    cases sampleCount 1 1000 0 1000 with
    | error x => intro h; cases h
    | ok n => intro h; rw [Option.some.inj h]
  have e1' : ts = 1000 := (Option.some.inj e1).symm
  subst e1'
  have e2' : length = 1 := by
    have : (twoInstants []).linearize.timeLength = .ok 1 := by
      unfold Experience.timeLength
      have : (twoInstants []).linearize.perceptions = [{ channels := [{ bands := [resolved (instant 0) (instant 1)] }] }] := rfl
      rw [this, show (twoInstants []).linearize.timescale = some 1000 from rfl]
      simp [mapE, Channel.lengths, hn]
    rw [this] at e2
    exact (Except.ok.inj e2).symm
  subst e2'
  rw [hc] at e3
  have e3' := Except.ok.inj e3
  subst e3'
  have hcs : channelsOf (twoInstants []).linearize.perceptions =
      [({ channels := [{ bands := [resolved (instant 0) (instant 1)] }] }, { bands := [resolved (instant 0) (instant 1)] })] := rfl
  rw [hcs] at e4
  cases e4 with
  | cons hp _ =>
    obtain ⟨bands, r, hd, hev, hr⟩ := hp
    have hb : bands = [resolved (instant 0) (instant 1)] := by
      have := decoded_forward hd
      simp only [mapE, decodeBand] at this
      rw [if_neg (by decide)] at this
      exact (Except.ok.inj this).symm
    subst hb
    have hf : r.map (Option.map (fun x => x * (((1 : ℚ) : ℝ) * (10 : ℝ) ^ ((none : Option Int).getD 0)))) = r := by
      conv_rhs => rw [← List.map_id r]
      refine List.map_congr_left fun x _ => ?_
      cases x <;> simp
    have hr' : r = [some (1 / 2)] := by
      rw [hr]
      exact hf.symm
    subst hr'
    unfold synthesize
    rw [hlin, hlen]
    show playFile parts besideSilence 1 1000 0 = _
    unfold playFile
    have hdp : mapE (decodePerception parts (besideSilence.timescale.getD 1000)) besideSilence.perceptions = .ok besideSilence.perceptions := by
      simp only [besideSilence, mapE, decodePerception, decodeChannel, decodeBand]
      rw [if_neg (by decide)]
      rfl
    rw [hdp]
    have p1 : ∀ p : Perception, p.perceptionUnitExponent = none →
        playChannel parts 1 1000 0 1000 (p, { bands := [resolved (instant 0) (instant 1)] }) = .ok [some (1 / 2)] := by
      intro p hp
      unfold playChannel
      rw [hc]
      show (Channel.evaluateChannel parts.samples parts.other { bands := [resolved (instant 0) (instant 1)] } 1 1000 0 1000).bind _ = _
      rw [hev]
      simp [Except.bind, factor, pure, Except.pure, hp]
    have p2 : ∀ p : Perception, p.perceptionUnitExponent = none → playChannel parts 1 1000 0 1000 (p, {}) = .ok [some 0] := by
      intro p hp
      unfold playChannel
      rw [hc]
      simp [Except.bind, bind, Channel.evaluateChannel, mixBands, pure, Except.pure]
    simp only [bind, Except.bind, besideSilence, channelsOf, List.flatMap_cons, List.flatMap_nil, List.map_cons, List.map_nil, List.append_nil, mapE, p1, p2]
    rfl

/-- Non-vacuity: the silent channel alone has no sample. -/
example (parts : Parts) : (∃ p c, (channelsOf besideSilence.perceptions)[1]? = some (p, c) ∧ synthesize parts (besideSilence.solo p c) 1000 0 = .ok [[]]) ∧
    synthesize parts besideSilence 1000 0 = .ok [[some (1 / 2)], [some 0]] := by
  refine ⟨⟨_, _, rfl, ?_⟩, besideSilence_play parts⟩
  have hc : sampleCount 0 1000 0 1000 = .ok 0 := by
    have : (sampleCount 0 1000 0 1000).toOption = some 0 := by decide +kernel
    revert this
    cases sampleCount 0 1000 0 1000 with
    | error x => intro h; cases h
    | ok n => intro h; rw [Option.some.inj h]
  have hl : (besideSilence.solo { channels := [{ bands := [resolved (instant 0) (instant 1)] }, {}] } {}).linearize.timeLength = .ok 0 := rfl
  unfold synthesize
  rw [hl]
  simp only [bind, Except.bind, playFile, Experience.linearize, Experience.solo, Perception.linearizeLibrary, List.map_cons, List.map_nil, besideSilence,
    Option.getD_some, mapE, decodePerception, decodeChannel, pure, Except.pure, channelsOf, List.flatMap_cons,
    List.flatMap_nil, List.append_nil, playChannel, hc]
  rfl

end Haptics
