import Verif.Main.Streamed

/-! C94: an AHAP file that is encoded to a stream. -/

namespace Haptics.Imported
open Haptics Haptics.Accepted
open Haptics.EncoderMain (blank)

/-! ### The effects of AHAP files -/

theorem at_times {kfs : List Keyframe} {xs : List Int} (h : Ahap.At kfs xs) (p : Int) :
    kfs.map (fun k => p + k.relativePosition.getD 0) = xs.map (p + ·) := by
  have := congrArg (List.map (fun o : Option Int => p + o.getD 0)) h.1
  simpa [List.map_map, Function.comp_def] using this

theorem continuous_fresh {ts : Nat} (hts : ts < 2 ^ 32) {items : List Ahap.Item} (h : ∀ i ∈ items, i.Valid ts)
    (hst : Ahap.Streamable ts items) {x : ℚ × ℚ × List Ahap.Parameter} (hx : x ∈ Ahap.continuous items) {e : Effect}
    (he : Ahap.ContinuousOf (Ahap.intensityPoints ts items) (Ahap.sharpnessPoints ts items) ts x e) :
    FreshEffect BandType.VectorialWave e ∧ e.eventTimes.Pairwise (· < ·) := by
  have gA := Ahap.good_intensity ts hts items h
  have gF := Ahap.good_sharpness ts hts items h
  have hv := Ahap.continuous_valid h x hx
  have hs := Ahap.continuousOf_sound gA hts hv he
  obtain ⟨-, hlen, -, -⟩ := continuous_facts he
  obtain ⟨am, sh, fr, -, -, kfs, hm, rfl⟩ := Ahap.continuous_of hst.intensity hst.sharpness gA gF hts hv he
  obtain ⟨xs, hat, hxs⟩ := hm.times
  have hxl := hst.short x hx
  have hend := hst.last x hx
  obtain ⟨t1, -⟩ := eventTick_range ts hv.1 hv.2.1 hts
  have hL := Ahap.eventTick_pos ts hv.2.2.2.1 hv.2.2.1 hts
  have hr : ∀ y ∈ xs, 0 ≤ y ∧ y ≤ Ahap.eventTick ts x.2.1 := by
    intro y hy
    rcases (hxs y).mp hy with rfl | rfl | ⟨p, -, -, h1, h2⟩ <;> omega
  have hcount : kfs.length = xs.length := by
    have := congrArg List.length hat.1
    simpa using this
  have htimes : ∀ (e : Effect), e.effectType = EffectType.Basis → e.keyframes = kfs →
      e.eventTimes = xs.map (e.position + ·) := by
    intro e h1 h2
    unfold Effect.eventTimes
    rw [if_pos h1, h2, ← at_times hat]
    rfl
  have htm := htimes { position := Ahap.eventTick ts x.1, phase := some 0, baseSignal := some 0, keyframes := kfs } rfl rfl
  have hrise : ({ position := Ahap.eventTick ts x.1, phase := some 0, baseSignal := some 0, keyframes := kfs } :
      Effect).eventTimes.Pairwise (· < ·) := by
    rw [htm, List.pairwise_map]
    exact hat.2.imp (fun h => by omega)
  refine ⟨⟨rfl, rfl, ⟨⟨by show (0 : Int) ≤ 0; decide, by show (0 : Int) < 2 ^ 16; decide⟩, .inl rfl, fun s hs => (by cases hs),
    fun v hv => ?_, ?_, fun k hk => ?_⟩, hrise.imp (fun h => h.le), ?_, fun k hk => ?_, fun t ht => ?_⟩, hrise⟩
  · obtain rfl := Option.some.inj hv
    decide
  · show kfs.length < 65536
    have := rising_length hat.2 hr (by omega)
    omega
  · obtain ⟨⟨y, y1, y2, y3⟩, -, y4⟩ := hs k hk
    refine ⟨⟨y, y1, y2, ?_⟩, fun v hv => ?_, fun ht => (by cases ht), fun ht => (by cases ht)⟩
    · show y < 2 ^ 16
      omega
    · have := y4 v hv
      exact ⟨by omega, by omega⟩
  · intro hk
    have h0 : (0 : Int) ∈ xs := (hxs 0).mpr (.inl rfl)
    have hk : kfs = [] := hk
    rw [hk] at hcount
    have := List.eq_nil_of_length_eq_zero hcount.symm
    rw [this] at h0
    cases h0
  · obtain ⟨⟨y, y1, -⟩, -⟩ := hs k hk
    rw [y1]
    rfl
  · rw [htm] at ht
    obtain ⟨y, hy, rfl⟩ := List.mem_map.mp ht
    obtain ⟨y1, y2⟩ := hr y hy
    rw [hlen]
    show Ahap.eventTick ts x.1 ≤ Ahap.eventTick ts x.1 + y ∧ Ahap.eventTick ts x.1 + y ≤ Ahap.eventTick ts x.1 + _ ∧ 0 ≤ Ahap.eventTick ts x.1 + y ∧ Ahap.eventTick ts x.1 + y < _
    omega

theorem continuous_count {ts : Nat} (hts : ts < 2 ^ 32) {items : List Ahap.Item} (h : ∀ i ∈ items, i.Valid ts)
    (hst : Ahap.Streamable ts items) {x : ℚ × ℚ × List Ahap.Parameter} (hx : x ∈ Ahap.continuous items) {e : Effect}
    (he : Ahap.ContinuousOf (Ahap.intensityPoints ts items) (Ahap.sharpnessPoints ts items) ts x e) :
    e.eventTimes.length ≤ 2 + (Ahap.intensityPoints ts items).length + (Ahap.sharpnessPoints ts items).length := by
  have gA := Ahap.good_intensity ts hts items h
  have gF := Ahap.good_sharpness ts hts items h
  have hv := Ahap.continuous_valid h x hx
  obtain ⟨am, sh, fr, -, -, kfs, hm, rfl⟩ := Ahap.continuous_of hst.intensity hst.sharpness gA gF hts hv he
  obtain ⟨xs, hat, hxs⟩ := hm.times
  have hcount : kfs.length = xs.length := by
    have := congrArg List.length hat.1
    simpa using this
  have h1 : xs ⊆ 0 :: Ahap.eventTick ts x.2.1 :: (Ahap.intensityPoints ts items ++ Ahap.sharpnessPoints ts items).map
      (fun p => p.1 - Ahap.eventTick ts x.1) := by
    intro y hy
    rcases (hxs y).mp hy with rfl | rfl | ⟨p, hp, hp2, -⟩
    · exact List.mem_cons_self
    · exact List.mem_cons_of_mem _ List.mem_cons_self
    · exact List.mem_cons_of_mem _ (List.mem_cons_of_mem _ (List.mem_map.mpr ⟨p, hp, by omega⟩))
  have h2 := (List.subperm_of_subset (hat.2.imp (fun h => ne_of_lt h)) h1).length_le
  show (kfs.map _).length ≤ _
  simp only [List.length_cons, List.length_map, List.length_append] at h2 ⊢
  omega

theorem transient_times {ts : Nat} (hts : ts < 2 ^ 32) {items : List Ahap.Item} (h : ∀ i ∈ items, i.Valid ts) {T : List Effect}
    (hT : List.Forall₂ (Ahap.TransientOf (Ahap.intensityPoints ts items) (Ahap.sharpnessPoints ts items) ts)
      (Ahap.transients items) T) :
    (Ahap.transientEffect T).eventTimes = (Ahap.transients items).map (fun x => Ahap.eventTick ts x.1) := by
  have gA := Ahap.good_intensity ts hts items h
  have gF := Ahap.good_sharpness ts hts items h
  have hk := transient_keyframes gA gF (Ahap.transients_valid h) hT
  have htime : ∀ {l : List (ℚ × List Ahap.Parameter)} {kfs : List Keyframe}, List.Forall₂ (fun x k => ∃ a f,
      k = (⟨some (Ahap.eventTick ts x.1), some a, some f⟩ : Keyframe) ∧ Ahap.UnitFloat a ∧ -80 ≤ f ∧ f ≤ 390 ∧
      ((∀ p ∈ Ahap.sharpnessPoints ts items, 0 ≤ p.2) → 0 ≤ f)) l kfs →
      kfs.map (fun k => 0 + k.relativePosition.getD 0) = l.map (fun x => Ahap.eventTick ts x.1) := by
    intro l kfs hl
    induction hl with
    | nil => rfl
    | cons hh _ ih =>
      obtain ⟨a, f, rfl, -⟩ := hh
      rw [List.map_cons, List.map_cons, ih]
      simp
  rw [← htime hk]
  rfl

theorem transients_fresh {ts : Nat} (hts : ts < 2 ^ 32) {items : List Ahap.Item} (h : ∀ i ∈ items, i.Valid ts)
    (hst : Ahap.Streamable ts items) {T : List Effect}
    (hT : List.Forall₂ (Ahap.TransientOf (Ahap.intensityPoints ts items) (Ahap.sharpnessPoints ts items) ts)
      (Ahap.transients items) T) (hne : (Ahap.transientEffect T).keyframes ≠ []) : Fresh (Ahap.transientBand T) := by
  have gA := Ahap.good_intensity ts hts items h
  have gF := Ahap.good_sharpness ts hts items h
  have hk := transient_keyframes gA gF (Ahap.transients_valid h) hT
  have het : (Ahap.transientEffect T).eventTimes = (Ahap.transients items).map (fun x => Ahap.eventTick ts x.1) :=
    transient_times hts h hT
  have heff : (Ahap.transientBand T).effects = [Ahap.transientEffect T] := rfl
  have hmem : ∀ e ∈ (Ahap.transientBand T).effects, e = Ahap.transientEffect T := fun e he =>
    List.mem_singleton.mp he
  refine ⟨⟨by show BandType.Transient < 8; decide, fun ht => (by cases ht), fun ht => (by cases ht), fun v hv => (by cases hv),
    ⟨by show (0 : Int) ≤ 65; decide, by show (65 : Int) < 2 ^ 16; decide⟩,
    ⟨by show (0 : Int) ≤ 300; decide, by show (300 : Int) < 2 ^ 16; decide⟩⟩, .inl rfl,
    ⟨?_, List.pairwise_singleton _ _, fun e he => ?_, fun e he _ => ?_, fun e he k hk' => ?_⟩, fun e he => ?_, fun e he t ht => ?_,
    List.cons_ne_nil _ _⟩
  · rw [heff, List.flatMap_cons, List.flatMap_nil, List.append_nil, het, List.pairwise_map]
    exact hst.order.imp (fun hxy => eventTick_mono ts hxy)
  · rw [hmem e he]; exact .inl rfl
  · rw [hmem e he]; exact hne
  · rw [hmem e he] at hk'
    obtain ⟨x, -, a, f, rfl, -⟩ := forall₂_right hk k hk'
    rfl
  · rw [hmem e he]
    refine ⟨rfl, rfl, ⟨by show (0 : Int) ≤ 0; decide, by show (0 : Int) < 2 ^ 16; decide⟩, .inl rfl, fun s hs => (by cases hs),
      fun v hv => (by cases hv), ?_, fun k hk' => ?_⟩
    · show (Ahap.transientEffect T).keyframes.length < 65536
      rw [← hk.length_eq]
      exact hst.transientCount
    · obtain ⟨x, hx, a, f, rfl, -, h2, h3, h4⟩ := forall₂_right hk k hk'
      have hv := Ahap.transients_valid h x hx
      obtain ⟨t1, -⟩ := eventTick_range ts hv.1 hv.2.1 hts
      have t2 := hst.early x hx
      refine ⟨⟨_, rfl, t1, by show _ < 2 ^ 16; omega⟩, fun v hv => ?_, fun _ => ⟨rfl, rfl⟩, fun ht => (by cases ht)⟩
      obtain rfl := Option.some.inj hv
      exact ⟨h4 hst.positive, by show f < 2 ^ 16; omega⟩
  · rw [hmem e he, het] at ht
    obtain ⟨x, hx, rfl⟩ := List.mem_map.mp ht
    have hv := Ahap.transients_valid h x hx
    obtain ⟨t1, -⟩ := eventTick_range ts hv.1 hv.2.1 hts
    have t2 := hst.early x hx
    exact ⟨t1, by omega⟩

/-! ### What is void -/

/-- The bands that are not void. -/
theorem prune_bands (T : List Effect) (rest : List Band) (hr : ∀ b ∈ rest, b.effects ≠ [] ∧ ∀ e ∈ b.effects, e.keyframes ≠ []) :
    (textChannel Ahap.placeholder (Ahap.transientBand T :: rest)).prune =
      textChannel Ahap.placeholder (if (Ahap.transientEffect T).keyframes = [] then rest else Ahap.transientBand T :: rest) := by
  have h1 : rest.map Band.prune = rest := by
    conv_rhs => rw [← List.map_id rest]
    exact List.map_congr_left (fun b hb => prune_same (hr b hb).2)
  have h2 : rest.filter (fun b => !b.effects.isEmpty) = rest := List.filter_eq_self.mpr (fun b hb => by
    simp [(hr b hb).1])
  unfold Channel.prune textChannel
  simp only [List.map_cons, h1]
  by_cases hk : (Ahap.transientEffect T).keyframes = []
  · rw [if_pos hk]
    have : (Ahap.transientBand T).prune.effects = [] := by
      show List.filter (fun e : Effect => decide (¬ e.Void BandType.Transient)) [Ahap.transientEffect T] = []
      refine List.filter_eq_nil_iff.mpr (fun e he => ?_)
      rw [List.mem_singleton.mp he]
      simp only [decide_eq_true_eq, not_not]
      exact ⟨by show BandType.Transient ≠ _; decide, rfl, hk⟩
    rw [List.filter_cons_of_neg (by simp [this]), h2]
  · rw [if_neg hk]
    have : (Ahap.transientBand T).prune = Ahap.transientBand T := prune_same (fun e he => by
      rw [List.mem_singleton.mp (show e ∈ [Ahap.transientEffect T] from he)]; exact hk)
    rw [this, List.filter_cons_of_pos (by simp [Ahap.transientBand, Band.addEffect, insertEffect]), h2]

theorem spaced_one (ts : Nat) (T : List Effect) (rest : List Band)
    (hr : ∀ b ∈ rest, b.effects ≠ [] ∧ ∀ e ∈ b.effects, e.keyframes ≠ []) :
    (oneChannel ts Ahap.placeholder (Ahap.transientBand T :: rest)).Spaced := by
  have hbs : ∀ b ∈ rest, b.Spaced := fun b hb => ⟨by
    rw [List.isChain_iff_getElem]
    intro i hi hv
    exact absurd hv.2.2 ((hr b hb).2 _ (List.getElem_mem _))⟩
  refine ⟨fun p hp => ?_, List.isChain_singleton _⟩
  rw [List.mem_singleton.mp hp]
  refine ⟨fun c hc => ?_, List.isChain_singleton _⟩
  rw [List.mem_singleton.mp hc]
  refine ⟨fun b hb => ?_, ?_⟩
  · rcases List.mem_cons.mp (show b ∈ Ahap.transientBand T :: rest from hb) with rfl | hb
    · exact ⟨List.isChain_singleton _⟩
    · exact hbs b hb
  · show (Ahap.transientBand T :: rest).IsChain _
    rw [List.isChain_iff_getElem]
    intro i hi _
    have hm : (Ahap.transientBand T :: rest)[i + 1] = rest[i]'(by simpa using hi) := rfl
    rw [hm]
    have := hr _ (List.getElem_mem (l := rest) (n := i) (by simpa using hi))
    exact ⟨prune_same this.2, this.1⟩

/-! ### The file -/

/-- **C94 (partial).** A valid AHAP file that is `Streamable`, encoded, written as a stream and read back, is received
with all its events at their times, and nothing else.
Missing: the files that do not survive (`c94_late_negation`,
`c94_frequency_negation`, `c94_order_negation`), and those with curves that are
not in the order of time. -/
theorem c94_ahap_partial (ts d : Nat) (hts : ts < 2 ^ 32) (hd : 0 < d) (hd2 : d < 2 ^ 24) (items : List Ahap.Item)
    (h : ∀ i ∈ items, i.Valid ts) (hc : Ahap.Covered ts items) (hst : Ahap.Streamable ts items)
    (hmo : Ahap.Modest ts d items) :
    ∃ q file r, Ahap.encode (Ahap.fileOf items) ts blank = .ok (some q) ∧ writeStream (imported ts q) d = .ok file ∧
      readStream file = .ok (true, some r) ∧ Ahap.Received ts items r := by
  obtain ⟨T, C, rest, e1, e2, e3, e4, e5, e6⟩ := ahap_bands ts hts items h hc
  have gA := Ahap.good_intensity ts hts items h
  have gF := Ahap.good_sharpness ts hts items h
  obtain ⟨kfs, k1, k2⟩ := Ahap.transients_of hst.intensity hst.sharpness gA gF (Ahap.transients_valid h) e2
  have hkfs : (Ahap.transientEffect T).keyframes = kfs := by
    have h1 : [Ahap.transientEffect T] = [({ keyframes := kfs } : Effect)] := congrArg Band.effects k2
    rw [List.singleton_inj.mp h1]
  have hlen : (Ahap.transientBand T :: rest).length ≤ 256 := by
    obtain ⟨c, f1, -, -, -, -, f5⟩ := ahap_facts ts hts items h hc
    have hcc : [c] = [ahapChannel (Ahap.transientBand T :: rest)] :=
      congrArg Perception.channels (Option.some.inj (Except.ok.inj (f1.symm.trans e1)))
    have := (f5 (hst.continuousOrder.imp (fun hxy => eventTick_mono ts hxy)) 255).mpr hst.together
    rw [List.singleton_inj.mp hcc] at this
    exact this
  have hin : ∀ b ∈ rest, ∀ e ∈ b.effects, e ∈ C := fun b hb e he =>
    e5.mem_iff.mp (List.mem_flatMap.mpr ⟨b, hb, he⟩)
  have hfe : ∀ b ∈ rest, ∀ e ∈ b.effects, FreshEffect BandType.VectorialWave e ∧ e.eventTimes.Pairwise (· < ·) := by
    intro b hb e he
    obtain ⟨x, hx, hxe⟩ := forall₂_right e3 e (hin b hb e he)
    exact continuous_fresh hts h hst hx hxe
  have htype : ∀ b ∈ rest, b.bandType = BandType.VectorialWave := fun b hb => congrArg Band.bandType (e6 b hb).1
  have hfr : ∀ b ∈ rest, Fresh b := by
    intro b hb
    obtain ⟨r1, r2, r3⟩ := e6 b hb
    have hh : b.HeaderFits := by
      rw [r1]
      exact ⟨by show BandType.VectorialWave < 8; decide, fun ht => (by cases ht), fun ht => (by cases ht),
        fun v hv => (by cases hv), ⟨by show (0 : Int) ≤ 65; decide, by show (65 : Int) < 2 ^ 16; decide⟩,
        ⟨by show (0 : Int) ≤ 300; decide, by show (300 : Int) < 2 ^ 16; decide⟩⟩
    exact fresh_band hh (.inr (.inr (htype b hb))) r2 (fun e he => htype b hb ▸ (hfe b hb e he).1) r3
      (fun e he => (timed_last (e4 e (hin b hb e he))).2.1)
  have hnv : ∀ b ∈ rest, b.effects ≠ [] ∧ ∀ e ∈ b.effects, e.keyframes ≠ [] := fun b hb =>
    ⟨(e6 b hb).2.2, fun e he => (hfe b hb e he).1.filled⟩
  have hCl := e3.length_eq
  have hrl : (rest.flatMap (·.effects)).length = C.length := e5.length_eq
  have hpr := prune_bands T rest hnv
  rw [hkfs] at hpr
  set bands := (if kfs = [] then rest else Ahap.transientBand T :: rest) with hbands
  -- what is received
  have hrec : ∀ r : Experience, r.timescale = some ts → List.Forall₂ (fun b b' : Band => b'.bandType = b.bandType ∧
      ∃ m, b'.effects = (withIds m b.effects).map (Effect.receivedIn b.bandType)) bands r.allBands →
      Ahap.Received ts items r := by
    intro r hr hf
    have hft : bands.filter (fun b => b.bandType = BandType.Transient) = if kfs = [] then [] else [Ahap.transientBand T] := by
      have h0 : rest.filter (fun b => b.bandType = BandType.Transient) = [] :=
        List.filter_eq_nil_iff.mpr (fun b hb => by rw [htype b hb]; decide)
      rw [hbands]
      split
      · exact h0
      · rw [List.filter_cons_of_pos (by simp [Ahap.transientBand, Band.addEffect]), h0]
    have hfv : bands.filter (fun b => b.bandType = BandType.VectorialWave) = rest := by
      have h0 : rest.filter (fun b => b.bandType = BandType.VectorialWave) = rest :=
        List.filter_eq_self.mpr (fun b hb => by rw [htype b hb]; decide)
      rw [hbands]
      split
      · exact h0
      · rw [List.filter_cons_of_neg (by simp [Ahap.transientBand, Band.addEffect, BandType.Transient, BandType.VectorialWave]), h0]
    have ht := effects_received hf BandType.Transient
    have hv := effects_received hf BandType.VectorialWave
    rw [hft] at ht
    rw [hfv] at hv
    change (r.effectsIn BandType.Transient).map _ = _ at ht
    change (r.effectsIn BandType.VectorialWave).map _ = _ at hv
    refine ⟨hr, ?_, fun e he => ?_, ⟨C, ?_, ?_⟩, fun b hb => ?_⟩
    · have hk : (r.effectsIn BandType.Transient).flatMap (·.keyframes) = kfs.map (Keyframe.receivedIn BandType.Transient) := by
        have h1 : (r.effectsIn BandType.Transient).flatMap (·.keyframes) =
            ((r.effectsIn BandType.Transient).map Effect.anonymous).flatMap (·.keyframes) := by
          rw [List.flatMap_map]
          rfl
        rw [h1, ht]
        split
        · rename_i hk
          rw [hk]
          rfl
        · show List.flatMap _ [((Ahap.transientEffect T).receivedIn _).anonymous] = _
          rw [List.flatMap_cons, List.flatMap_nil, List.append_nil]
          show (Ahap.transientEffect T).keyframes.map _ = _
          rw [hkfs]
      rw [hk, List.forall₂_map_right_iff]
      exact k1.imp (fun x k hx => ⟨k, rfl, hx⟩)
    · have hm : e.anonymous ∈ (r.effectsIn BandType.Transient).map Effect.anonymous := List.mem_map_of_mem he
      rw [ht] at hm
      split at hm
      · cases hm
      · have hm : e.anonymous = ((Ahap.transientEffect T).receivedIn BandType.Transient).anonymous :=
          List.mem_singleton.mp hm
        exact congrArg Effect.position hm
    · exact Ahap.forall₂_valid e3 (fun x hx y hy => Ahap.continuous_of hst.intensity hst.sharpness gA gF hts
        (Ahap.continuous_valid h x hx) hy)
    · rw [hv]
      exact e5.map _
    · obtain ⟨x, hx, hxb, -⟩ := forall₂_right hf b hb
      rw [hxb]
      rw [hbands] at hx
      split at hx
      · exact .inr (htype x hx)
      · rcases List.mem_cons.mp hx with rfl | hx
        · exact .inl rfl
        · exact .inr (htype x hx)
  have hsp := spaced_one ts T rest hnv
  by_cases hne : bands = []
  · rw [hne] at hpr
    have hvoid := oneChannel_void ts Ahap.placeholder _ hpr
    obtain ⟨file, r, f1, f2, f3, f4⟩ := streamed_void ts d _ hts hd hd2 hsp hvoid
    exact ⟨_, file, r, e1, f1, f2, hrec r f3 (by rw [f4, hne]; exact .nil)⟩
  · have hp := oneChannel_prune ts Ahap.placeholder _ _ hpr hne
    have g1 : ∀ b ∈ bands, Fresh b := fun b hb => by
      rw [hbands] at hb
      split at hb
      · exact hfr b hb
      · rename_i hk
        rcases List.mem_cons.mp hb with rfl | hb
        · exact transients_fresh hts h hst e2 (by rw [hkfs]; exact hk)
        · exact hfr b hb
    have hcount := hst.continuousCount
    have g2 : (bands.flatMap (·.effects)).length ≤ 65536 := by
      rw [hbands]
      split
      · omega
      · rw [List.flatMap_cons, List.length_append, show (Ahap.transientBand T).effects.length = 1 from rfl]
        omega
    have g3 : ∀ b ∈ bands, b.effects.length < 65536 := fun b hb => by
      have hr : b ∈ rest → b.effects.length ≤ C.length := fun hb => by
        rw [← hrl, List.length_flatMap]
        exact List.single_le_sum (fun _ _ => Nat.zero_le _) _ (List.mem_map_of_mem (f := fun b : Band => b.effects.length) hb)
      rw [hbands] at hb
      split at hb
      · have := hr hb; omega
      · rcases List.mem_cons.mp hb with rfl | hb
        · show 1 < 65536; decide
        · have := hr hb; omega
    have g4 : bands.length ≤ 256 := by
      rw [hbands]
      simp only [List.length_cons] at hlen
      split
      · omega
      · exact hlen
    have htt := transient_times hts h e2
    have hte : (Ahap.transientBand T).effects.flatMap Effect.eventTimes = (Ahap.transientEffect T).eventTimes := by
      show List.flatMap _ [Ahap.transientEffect T] = _
      rw [List.flatMap_cons, List.flatMap_nil, List.append_nil]
    have g5 : ∀ b ∈ bands, ∀ t, eventsIn t (t + d) b.effects ≤ 7000 := fun b hb t => by
      have hr : b ∈ rest → eventsIn t (t + d) b.effects ≤ 7000 := fun hb =>
        (fresh_dense (e6 b hb).2.1 (fun e he => htype b hb ▸ (hfe b hb e he).1) (fun e he => (hfe b hb e he).2) d t).trans hmo.packet
      rw [hbands] at hb
      split at hb
      · exact hr hb
      · rcases List.mem_cons.mp hb with rfl | hb
        · refine le_trans (le_of_eq ?_) (hmo.dense t)
          unfold eventsIn
          rw [hte, htt, List.countP_eq_length_filter, List.filter_map, List.length_map]
          rfl
        · exact hr hb
    have hrest : ((rest.flatMap (·.effects)).flatMap Effect.eventTimes).length ≤ (Ahap.continuous items).length *
        (2 + (Ahap.intensityPoints ts items).length + (Ahap.sharpnessPoints ts items).length) := by
      have := flatMap_length_le (f := Effect.eventTimes) (l := rest.flatMap (·.effects)) (fun e he => by
        obtain ⟨x, hx, hxe⟩ := forall₂_right e3 e (e5.mem_iff.mp he)
        exact continuous_count hts h hst hx hxe)
      rw [hrl, ← hCl] at this
      rw [Nat.mul_comm]
      exact this
    have hme := hmo.events
    have g6 : ((bands.flatMap (·.effects)).flatMap Effect.eventTimes).length ≤ 4000000 := by
      rw [hbands]
      split
      · omega
      · rw [List.flatMap_cons, List.flatMap_append, List.length_append, hte, htt, List.length_map]
        omega
    obtain ⟨file, r, f1, f2, f3, f4⟩ := streamed ts d Ahap.placeholder (by decide +kernel) (oneChannel ts Ahap.placeholder (Ahap.transientBand T :: rest)) bands hts hd hd2 hsp hp
      g1 g2 g3 g4 g5 g6
    exact ⟨_, file, r, e1, f1, f2, hrec r f3 f4⟩

/-! ### Concrete files -/

/-- Two transients, and a continuous event with curves. -/
def streamFile : List Ahap.Item :=
  [.intensityCurve (1 / 10) [(0, 1), (1 / 5, 1 / 2)], .sharpnessCurve 0 [(1 / 5, 0), (2, 1 / 2)],
   .transient (1 / 10) [.intensity 1], .continuous (1 / 10) 1 [.sharpness (1 / 4), .intensity (1 / 2)],
   .transient (3 / 10) []]

theorem streamFile_valid : ∀ i ∈ streamFile, i.Valid 1000 := by
  intro i hi
  simp only [streamFile, List.mem_cons, List.not_mem_nil, or_false] at hi
  rcases hi with rfl | rfl | rfl | rfl | rfl
  · refine ⟨by norm_num, fun p hp => ?_⟩
    simp only [List.mem_cons, List.not_mem_nil, or_false] at hp
    rcases hp with rfl | rfl <;> norm_num
  · refine ⟨by norm_num, fun p hp => ?_⟩
    simp only [List.mem_cons, List.not_mem_nil, or_false] at hp
    rcases hp with rfl | rfl <;> norm_num
  · refine ⟨by norm_num, by norm_num, fun p hp => ?_⟩
    simp only [List.mem_cons, List.not_mem_nil, or_false] at hp
    subst hp
    norm_num [Ahap.Parameter.Valid]
  · refine ⟨by norm_num, by norm_num, by norm_num, by norm_num, fun p hp => ?_⟩
    simp only [List.mem_cons, List.not_mem_nil, or_false] at hp
    rcases hp with rfl | rfl <;> norm_num [Ahap.Parameter.Valid]
  · exact ⟨by norm_num, by norm_num, fun p hp => by cases hp⟩

/-- It meets the hypotheses of `c94_ahap_partial`. -/
example : Ahap.Covered 1000 streamFile ∧ Ahap.Streamable 1000 streamFile ∧ Ahap.Modest 1000 128 streamFile := by
  refine ⟨by decide +kernel, ⟨by decide +kernel, by decide +kernel, by decide +kernel, by decide +kernel, by decide +kernel,
    by decide +kernel, by decide +kernel, by decide +kernel, by decide +kernel, by decide +kernel, fun t => ?_⟩,
    ⟨by decide, fun t => ?_, by decide +kernel⟩⟩
  · exact List.countP_le_length.trans (by decide)
  · exact List.countP_le_length.trans (by decide)

/-- The times and frequencies of the transients that are received of a file that is encoded and written as units. -/
def heard (ts d : Nat) (items : List Ahap.Item) : Option (List (Option Int × Option Int)) :=
  match Ahap.encode (Ahap.fileOf items) ts blank with
  | .ok (some q) => match writeUnits (imported ts q) d with
    | .ok units => match readUnits dispatch units units {} with
      | .ok (true, r) => some ((r.haptic.effectsIn BandType.Transient).flatMap (fun e => e.keyframes.map (fun k =>
          (k.relativePosition.map (e.position + ·), k.frequencyModulation))))
      | _ => none
    | .error _ => none
  | _ => none

example : heard 1000 128 [.transient 1 [], .transient 65 []] = some [(some 1000, some 90), (some 65000, some 90)] := by
  decide +kernel

theorem transient_valid {t : ℚ} (h0 : 0 ≤ t) (h1 : t ≤ 100) : (Ahap.Item.transient t []).Valid 1000 :=
  ⟨h0, by push_cast; linarith, fun p hp => by cases hp⟩

/-- **C94, what does not hold.** All transients are keyframes of one effect at the start, and a stream has 16 bits for
the position of a keyframe in its effect.  At 1000 ticks a second, a transient after 70 seconds is received at 4.464
seconds. -/
theorem c94_late_negation : ∃ items, (∀ i ∈ items, i.Valid 1000) ∧ Ahap.Covered 1000 items ∧
    Ahap.transients items = [(1, []), (70, [])] ∧
    heard 1000 128 items = some [(some 1000, some 90), (some 4464, some 90)] := by
  refine ⟨[.transient 1 [], .transient 70 []], fun i hi => ?_, fun x hx => (by cases hx), rfl, by decide +kernel⟩
  simp only [List.mem_cons, List.not_mem_nil, or_false] at hi
  rcases hi with rfl | rfl <;> exact transient_valid (by norm_num) (by norm_num)

/-- **C94, what does not hold.** Under a negative sharpness curve the frequency of a transient is negative, here -80 Hz;
it is received as 65456 Hz. -/
theorem c94_frequency_negation : ∃ items, (∀ i ∈ items, i.Valid 1000) ∧ Ahap.Covered 1000 items ∧
    heard 1000 128 items = some [(some 1000, some 65456)] := by
  refine ⟨[.transient 1 [], .sharpnessCurve 0 [(0, -1), (2, -1)]], fun i hi => ?_, fun x hx => (by cases hx),
    by decide +kernel⟩
  simp only [List.mem_cons, List.not_mem_nil, or_false] at hi
  rcases hi with rfl | rfl
  · exact transient_valid (by norm_num) (by norm_num)
  · refine ⟨le_refl _, fun p hp => ?_⟩
    simp only [List.mem_cons, List.not_mem_nil, or_false] at hp
    rcases hp with rfl | rfl <;> norm_num

/-- **C94, what does not hold.** A transient that comes in the file after a later one is not received. -/
theorem c94_order_negation : ∃ items, (∀ i ∈ items, i.Valid 1000) ∧ Ahap.Covered 1000 items ∧
    Ahap.transients items = [(1, []), (0, []), (2, [])] ∧
    heard 1000 128 items = some [(some 1000, some 90), (some 2000, some 90)] := by
  refine ⟨[.transient 1 [], .transient 0 [], .transient 2 []], fun i hi => ?_, fun x hx => (by cases hx), rfl,
    by decide +kernel⟩
  simp only [List.mem_cons, List.not_mem_nil, or_false] at hi
  rcases hi with rfl | rfl | rfl <;> exact transient_valid (by norm_num) (by norm_num)

end Haptics.Imported
