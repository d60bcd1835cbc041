import Verif.Stream.PropsSizes
import Verif.Stream.PropsWavelet
import Verif.Stream.SpecComposite

/-
C57: an experience with composite effects written to a stream and read back.
-/
namespace Haptics

/-! ### Sorting -/

/-- Two lists in the order of time with the same effects at every time are equal. -/
theorem timeOrdered_unique : ∀ (l m : List Effect), TimeOrdered l → TimeOrdered m →
    (∀ t, l.filter (fun e => e.position == t) = m.filter (fun e => e.position == t)) → l = m := by
  intro l
  induction l with
  | nil =>
    intro m _ _ h
    cases m with
    | nil => rfl
    | cons y m => have := h y.position; simp at this
  | cons x l ih =>
    intro m hl hm h
    cases m with
    | nil => have := h x.position; simp at this
    | cons y m =>
      have hxy : x.position = y.position := by
        have h1 : y ∈ x :: l := by
          have := h y.position
          have hy : y ∈ (y :: m).filter (fun e => e.position == y.position) := by simp
          rw [← this] at hy
          exact (List.mem_filter.mp hy).1
        have h2 : x ∈ y :: m := by
          have := h x.position
          have hx : x ∈ (x :: l).filter (fun e => e.position == x.position) := by simp
          rw [this] at hx
          exact (List.mem_filter.mp hx).1
        have h3 : x.position ≤ y.position := by
          rcases List.mem_cons.mp h1 with rfl | h1
          · exact le_refl _
          · exact (List.pairwise_cons.mp hl).1 y h1
        have h4 : y.position ≤ x.position := by
          rcases List.mem_cons.mp h2 with rfl | h2
          · exact le_refl _
          · exact (List.pairwise_cons.mp hm).1 x h2
        omega
      have he : x = y := by
        have := h x.position
        simp only [List.filter_cons, beq_self_eq_true, if_true, hxy] at this
        exact (List.cons.inj this).1
      subst he
      rw [ih m (List.pairwise_cons.mp hl).2 (List.pairwise_cons.mp hm).2 ?_]
      intro t
      have := h t
      simp only [List.filter_cons] at this
      split at this
      · exact (List.cons.inj this).2
      · exact this

theorem insertionSort_time (l : List Effect) :
    TimeOrdered (l.insertionSort NotAfter) ∧
    ∀ t, (l.insertionSort NotAfter).filter (fun e => e.position == t) = l.filter (fun e => e.position == t) := by
  haveI : Std.Total NotAfter := ⟨fun a b => le_total a.position b.position⟩
  haveI : IsTrans Effect NotAfter := ⟨fun a b c h1 h2 => le_trans (a := a.position) h1 h2⟩
  refine ⟨List.pairwise_insertionSort NotAfter l, fun t => ?_⟩
  have h1 : (l.filter (fun e => e.position == t)).Sublist (l.insertionSort NotAfter) := by
    refine List.sublist_insertionSort ?_ List.filter_sublist
    rw [List.pairwise_iff_forall_sublist]
    intro a b hab
    have ha := (List.mem_filter.mp (hab.subset (show a ∈ [a, b] by simp))).2
    have hb := (List.mem_filter.mp (hab.subset (show b ∈ [a, b] by simp))).2
    simp only [beq_iff_eq] at ha hb
    unfold NotAfter
    omega
  have h2 := h1.filter (fun e => e.position == t)
  rw [List.filter_filter] at h2
  simp only [Bool.and_self] at h2
  have h3 := ((List.perm_insertionSort NotAfter l).filter (fun e => e.position == t)).length_eq
  exact (h2.eq_of_length h3.symm).symm

/-- The code dissolves composite effects as it should, if they start at 0. -/
theorem linearizeTimeline_dissolved (b : Band) (h : flatStartAll b.effects) :
    b.linearizeTimeline = b.dissolved := by
  obtain ⟨-, h2, h3⟩ := c59_partial b h
  obtain ⟨-, -, h4⟩ := c59_parts b
  obtain ⟨h5, h6⟩ := insertionSort_time (placedAll 0 b.effects)
  have he : b.linearizeTimeline.effects = b.dissolved.effects :=
    timeOrdered_unique _ _ h2 h5 (fun t => (h3 t).trans (h6 t).symm)
  generalize b.linearizeTimeline = x at h4 he
  cases x
  cases b
  simp only [Band.dissolved, Band.mk.injEq] at h4 he ⊢
  simp_all

/-! ### Everything but the effects -/

def Band.strip (b : Band) : Band := { b with effects := [] }
def Channel.strip (c : Channel) : Channel := { c with bands := c.bands.map Band.strip }
def Perception.strip (p : Perception) : Perception := { p with channels := p.channels.map Channel.strip }
def Experience.strip (h : Experience) : Experience := { h with perceptions := h.perceptions.map Perception.strip }

theorem strip_dissolved (h : Experience) : h.dissolved.strip = h.strip := by
  unfold Experience.dissolved Experience.strip
  simp only [List.map_map]
  congr 1
  apply List.map_congr_left
  intro p _
  simp only [Function.comp, Perception.strip, Perception.dissolved, List.map_map]
  congr 1
  apply List.map_congr_left
  intro c _
  simp only [Function.comp, Channel.strip, Channel.dissolved, List.map_map]
  congr 1

theorem strip_assignFrom (ids : List Int) (h : Experience) : (h.assignFrom ids).strip = h.strip := by
  have e : (mapAccum Perception.assignIds ids h.perceptions).1.map Perception.strip
      = h.perceptions.map Perception.strip := by
    refine mapAccum_map _ _ _ (fun s p => ?_) _ _
    have e : (mapAccum Channel.assignIds s p.channels).1.map Channel.strip
        = p.channels.map Channel.strip := by
      refine mapAccum_map _ _ _ (fun s c => ?_) _ _
      have e : (mapAccum Band.assignIds s c.bands).1.map Band.strip
          = c.bands.map Band.strip := mapAccum_map Band.assignIds _ _ (fun s b => rfl) _ _
      unfold Channel.strip Channel.assignIds
      dsimp only
      rw [e]
    unfold Perception.strip Perception.assignIds
    dsimp only
    rw [e]
  unfold Experience.strip Experience.assignFrom
  dsimp only
  rw [e]

theorem strip_withBands (h old : Experience) : h.strip.withBands old = h.withBands old := by
  unfold Experience.withBands Experience.strip
  simp only [List.map_map]
  have e : h.perceptions.map (Perception.withBands ∘ Perception.strip) = h.perceptions.map Perception.withBands := by
    apply List.map_congr_left
    intro p _
    unfold Function.comp Perception.withBands Perception.strip
    simp only [List.map_map]
    have e : p.channels.map (Channel.withBands ∘ Channel.strip) = p.channels.map Channel.withBands := by
      apply List.map_congr_left
      intro c _
      unfold Function.comp Channel.withBands Channel.strip
      simp only [List.map_map]
      have e : c.bands.map (Band.receivedHeader ∘ Band.strip) = c.bands.map Band.receivedHeader := by
        apply List.map_congr_left
        intro b _
        rfl
      rw [e]
      rfl
    rw [e]
    rfl
  rw [e]
  rfl

theorem strip_streams (h : Experience) : h.strip.streams = h.streams := by
  unfold Experience.streams Experience.strip
  simp only [List.flatMap_map, Perception.strip, Channel.strip, List.length_map]

/-- Two experiences that are equal up to effects have corresponding perceptions and channels. -/
theorem strip_perception {g s : Experience} (h : s.strip = g.strip) {p : Perception} (hp : p ∈ g.perceptions) :
    ∃ q ∈ s.perceptions, q.strip = p.strip := by
  have : p.strip ∈ g.strip.perceptions := List.mem_map_of_mem hp
  rw [← h] at this
  obtain ⟨q, hq, e⟩ := List.mem_map.mp this
  exact ⟨q, hq, e⟩

theorem strip_channel {p q : Perception} (h : q.strip = p.strip) {c : Channel} (hc : c ∈ p.channels) :
    ∃ x ∈ q.channels, x.strip = c.strip := by
  have : c.strip ∈ p.strip.channels := List.mem_map_of_mem hc
  rw [← h] at this
  obtain ⟨x, hx, e⟩ := List.mem_map.mp this
  exact ⟨x, hx, e⟩

theorem strip_band {c x : Channel} (h : x.strip = c.strip) {b : Band} (hb : b ∈ c.bands) :
    ∃ y ∈ x.bands, y.strip = b.strip := by
  have : b.strip ∈ c.strip.bands := List.mem_map_of_mem hb
  rw [← h] at this
  obtain ⟨y, hy, e⟩ := List.mem_map.mp this
  exact ⟨y, hy, e⟩

theorem Band.HeaderFits.strip {b : Band} (h : b.HeaderFits) : b.strip.HeaderFits := by
  obtain ⟨h1, h2, h3, h4, h5, h6⟩ := h
  exact ⟨h1, h2, h3, h4, h5, h6⟩

theorem Band.HeaderFits.of_strip {b : Band} (h : b.strip.HeaderFits) : b.HeaderFits := by
  obtain ⟨h1, h2, h3, h4, h5, h6⟩ := h
  exact ⟨h1, h2, h3, h4, h5, h6⟩

theorem Channel.HeaderFits.strip {c : Channel} (this : c.HeaderFits) : c.strip.HeaderFits := by
  constructor
  all_goals first
    | exact this.id | exact this.priority | exact this.description | exact this.referenceDeviceId
    | exact this.bodyPartMask | exact this.resolution | exact this.bodyPartTargetCount
    | exact this.bodyPartTarget | exact this.actuatorTargetCount | exact this.actuatorTarget
    | exact this.frequencySampling | exact this.sampleCount | exact this.direction | exact this.vertexCount
    | exact this.vertices

theorem Channel.HeaderFits.of_strip {c : Channel} (this : c.strip.HeaderFits) : c.HeaderFits := by
  constructor
  all_goals first
    | exact this.id | exact this.priority | exact this.description | exact this.referenceDeviceId
    | exact this.bodyPartMask | exact this.resolution | exact this.bodyPartTargetCount
    | exact this.bodyPartTarget | exact this.actuatorTargetCount | exact this.actuatorTarget
    | exact this.frequencySampling | exact this.sampleCount | exact this.direction | exact this.vertexCount
    | exact this.vertices

theorem Perception.HeaderFits.of_strip {p q : Perception} (e : q.strip = p.strip) (h : q.HeaderFits) :
    p.HeaderFits := by
  have hq : q = { p with channels := q.channels } := by
    cases p; cases q
    simp only [Perception.strip, Perception.mk.injEq] at e ⊢
    tauto
  have hl : q.channels.length = p.channels.length := by
    have := congrArg (fun p => p.channels.length) e
    simpa [Perception.strip] using this
  rw [hq] at h
  constructor
  all_goals first
    | exact h.id | exact h.priority | exact h.description | exact h.modality
    | exact h.avatarId | exact h.scheme | exact h.unitExponent | exact h.perceptionUnitExponent
    | exact h.libraryCount | exact h.deviceCount | exact h.devices
    | (have := h.channelCount; simp only at this; rw [hl] at this; exact this)
    | exact h.channelCount

theorem strip_initFits {d : Nat} {g s : Experience} (e : s.strip = g.strip) (hf : s.StreamFits d) : g.InitFits := by
  have e' : s.perceptions.map Perception.strip = g.perceptions.map Perception.strip :=
    congrArg Experience.perceptions e
  have hs : s = { g with perceptions := s.perceptions } := by
    cases g; cases s
    simp only [Experience.strip, Experience.mk.injEq] at e ⊢
    tauto
  refine ⟨?_, ?_, ?_, ?_, ?_, ⟨?_, ?_⟩, ?_⟩
  · have h := hf.header
    have hl : s.perceptions.length = g.perceptions.length := by
      have := congrArg List.length e'
      simpa using this
    rw [hs] at h
    obtain ⟨h1, h2, h3, h4, h5, h6, h7⟩ := h
    first
      | exact ⟨h1, h2, h3, h4, h5, h6, h7⟩
      | (simp only at h1 h2 h3 h4 h5 h6 h7; rw [hl] at *; exact ⟨h1, h2, h3, h4, h5, h6, h7⟩)
  · intro p hp
    obtain ⟨q, hq, eq⟩ := strip_perception e hp
    exact ((hf.perceptions q hq).header).of_strip eq
  · intro p hp
    obtain ⟨q, hq, eq⟩ := strip_perception e hp
    have h1 := (hf.perceptions q hq).libraryCount
    have h2 := (hf.perceptions q hq).library
    have : q.effectLibrary = p.effectLibrary := by
      simpa [Perception.strip] using congrArg (fun p : Perception => p.effectLibrary) eq
    rw [this] at h1 h2
    exact ⟨h1, h2⟩
  · intro p hp c hc
    obtain ⟨q, hq, eq⟩ := strip_perception e hp
    obtain ⟨x, hx, ex⟩ := strip_channel eq hc
    have := ((hf.perceptions q hq).channels x hx).header.strip
    rw [ex] at this
    exact this.of_strip
  · intro p hp c hc b hb
    obtain ⟨q, hq, eq⟩ := strip_perception e hp
    obtain ⟨x, hx, ex⟩ := strip_channel eq hc
    obtain ⟨y, hy, ey⟩ := strip_band ex hb
    have := (((hf.perceptions q hq).channels x hx).bands y hy).1.strip
    rw [ey] at this
    exact this.of_strip
  · have := hf.perceptionIds
    have h1 := congrArg (List.map Perception.id) e'
    simp only [List.map_map] at h1
    have h2 : s.perceptions.map (·.id) = g.perceptions.map (·.id) := h1
    rw [h2] at this
    exact this
  · have := hf.channelIds
    have h1 := congrArg (List.flatMap (fun p : Perception => p.channels.map (·.id))) e'
    simp only [List.flatMap_map, Perception.strip, List.map_map] at h1
    have h2 : s.channelIds = g.channelIds := h1
    rw [h2] at this
    exact this
  · have := hf.bandCount
    have h1 := congrArg (List.flatMap (fun p : Perception => p.channels.flatMap (fun c => c.bands.map (fun _ => ())))) e'
    simp only [List.flatMap_map, Perception.strip, Channel.strip, List.map_map] at h1
    have h2 := congrArg List.length h1
    unfold Experience.allBands at this ⊢
    simp only [List.length_flatMap, List.length_map] at h2 this ⊢
    omega

/-! ### What is sent -/

theorem bandsOf_assignFrom (ids : List Int) (h : Experience) :
    (mapAccum AddressedBand.assign ids (bandsOf h)).1 = bandsOf (h.assignFrom ids) := by
  rw [bandsOf_eq, bandsOf_eq, numbered_perceptions]
  rfl

theorem bandsOf_dissolved (h : Experience) :
    bandsOf h.dissolved = (bandsOf h).map (fun x => { x with band := x.band.dissolved }) := by
  have key : ∀ (l : List (Perception × Channel × Band)) (n : Nat),
      numbered n (l.map (fun x => (x.1.dissolved, x.2.1.dissolved, x.2.2.dissolved)))
        = (numbered n l).map (fun x => { x with band := x.band.dissolved }) := by
    intro l
    induction l with
    | nil => intro n; rfl
    | cons x l ih => intro n; simp only [List.map_cons, numbered, ih]; rfl
  rw [bandsOf_eq, bandsOf_eq, ← key]
  congr 1
  unfold triples Experience.dissolved
  simp only [List.flatMap_map, List.map_flatMap, List.map_map, Perception.dissolved, Channel.dissolved]
  rfl

theorem bandsOf_band (h : Experience) (x : AddressedBand) (hx : x ∈ bandsOf h) : x.band ∈ h.allBands := by
  have := bandsOf_flat h
  have h1 : x.band ∈ (bandsOf h).map (·.band) := List.mem_map_of_mem hx
  rw [this] at h1
  exact h1

theorem dataLoop_dissolved (d : Int) (xs : List AddressedBand) (buf : List Bits) (ids : List Int)
    (h : ∀ x ∈ xs, x.spatial = false ∧ flatStartAll x.band.effects ∧ x.band.dissolved.linearizeTimeline = x.band.dissolved) :
    dataLoop d xs buf ids = dataLoop d (xs.map (fun x => { x with band := x.band.dissolved })) buf ids := by
  induction xs generalizing buf ids with
  | nil => rfl
  | cons x xs ih =>
    obtain ⟨h1, h2, h3⟩ := h x (by simp)
    rw [List.map_cons, dataLoop, dataLoop, h1]
    simp only [Bool.false_eq_true, if_false]
    rw [linearizeTimeline_dissolved _ h2, h3]
    split
    · rfl
    · rw [ih _ _ (fun y hy => h y (by simp [hy]))]

/-- What identifiers change. -/
theorem assign_spatial (xs : List AddressedBand) (ids : List Int) :
    (mapAccum AddressedBand.assign ids xs).1.map (·.spatial) = xs.map (·.spatial) :=
  mapAccum_map AddressedBand.assign _ _ (fun _ _ => rfl) _ _

theorem fits_plain {ts d : Nat} {b : Band} {ids : List Int}
    (h : (b.assignIds ids).1.EffectsFit d ∨ (b.assignIds ids).1.BlocksFit ts d) :
    ∀ e ∈ b.effects, e.effectType ≠ EffectType.Composite := by
  intro e he hc
  obtain ⟨x, hx, hex, -⟩ := forall₂_mem (identified_forall₂ b.bandType b.effects ids) he
  have hx' : x ∈ (b.assignIds ids).1.effects := hx
  have hxt : x.effectType = EffectType.Composite := by rw [← hc, hex]
  rcases h with h | h
  · rcases (h.sendable x hx').type with h' | h' <;> rw [hxt] at h' <;> exact absurd h' (by decide)
  · have h' := h.basis x hx'
    rw [hxt] at h'
    exact absurd h' (by decide)

/-- The packets of an experience with composite effects are those of their parts. -/
theorem composite_sent {d : Nat} (hd : 0 < d) (hd2 : d < 2 ^ 24) (g : Experience) (hf : g.sent.StreamFits d)
    (hi : g.AllIdentified) (hs : g.FlatStarts) :
    ∃ out ops, writeData d g = .ok out ∧ List.Forall₂ SentFor out ops ∧
      ops.Perm (allSendings d (bandsOf g.sent)) ∧ ops.Pairwise (fun a b => a.2.1 ≤ b.2.1) := by
  have hids : ∀ i ∈ getEffectsId g, 0 ≤ i := by
    intro i hi'
    unfold getEffectsId at hi'
    simp only [List.mem_filter, List.mem_flatMap, List.mem_map] at hi'
    obtain ⟨⟨p, hp, c, hc, b, hb, e, he, rfl⟩, hne⟩ := hi'
    have hne : e.id ≠ -1 := by simpa using hne
    have := hi b (List.mem_flatMap.mpr ⟨p, hp, List.mem_flatMap.mpr ⟨c, hc, hb⟩⟩) e he
    omega
  have hfit := bandsOf_fits hf
  have hb : bandsOf g.sent = (mapAccum AddressedBand.assign (getEffectsId g) (bandsOf g.dissolved)).1 :=
    (bandsOf_assignFrom _ _).symm
  obtain ⟨L, h1, h2⟩ := dataLoop_spec _ d hd hd2 (bandsOf g.dissolved) (getEffectsId g) hids
    (by rw [← hb]; exact hfit)
  rw [← hb] at h2
  refine writeData_of _ d g _ hfit L ?_ h2
  rw [bandsOf_dissolved] at h1
  rw [dataLoop_dissolved _ _ _ _ ?_, h1]
  intro x hx
  have hx' : ({ x with band := x.band.dissolved } : AddressedBand) ∈ bandsOf g.dissolved := by
    rw [bandsOf_dissolved]; exact List.mem_map_of_mem hx
  obtain ⟨ids, hm⟩ := mapAccum_mem AddressedBand.assign hx' (getEffectsId g)
  rw [← hb] at hm
  have hfx := hfit _ hm
  refine ⟨hfx.temporal, hs _ (bandsOf_band g x hx), ?_⟩
  exact linearizeTimeline_eq _ (fits_plain hfx.effects) (insertionSort_time _).1

/-- **C57 (partial)** The same with composite effects: what is received is their parts, each at its time, in
the order of time.  Missing: composite effects that do not start together with what contains them, of which the
parts arrive at other times (`c59_negation`); otherwise the conditions of `c57_streamed_partial`, on the parts. -/
theorem c57_composite_partial (h : Experience) (d : Nat) (hd : 0 < d) (hd2 : d < 2 ^ 24) (hs : h.Spaced)
    (hstart : h.prune.FlatStarts) (hi : h.prune.AllIdentified)
    (hf : h.prune.sent.StreamFits d) (hm : h.prune.sent.Modest d) :
    ∃ file, writeStream h d = .ok file ∧
      readStream file = .ok (true, some h.prune.sent.receivedStream) := by
  have hstrip : h.prune.sent.strip = h.prune.strip := (strip_assignFrom _ _).trans (strip_dissolved _)
  have hwd := composite_sent hd hd2 _ hf hi hstart
  have hinit := strip_initFits hstrip hf
  refine streamed_of h d hd hd2 hs _ hinit hf ?_ ?_ rfl rfl hwd
    (modest_small_of h d hs _ hinit hf hwd ?_ ?_ hm)
  · intro old
    rw [← strip_withBands, hstrip, strip_withBands]
  · rw [← strip_streams, hstrip, strip_streams]
  · intro p hp c hc
    obtain ⟨q, hq, eq⟩ := strip_perception hstrip hp
    obtain ⟨x, hx, ex⟩ := strip_channel eq hc
    have h1 := hm.vertices q hq x hx
    have : x.vertices = c.vertices := by
      simpa [Channel.strip] using congrArg (fun c : Channel => c.vertices) ex
    rw [this] at h1
    exact h1
  · intro p hp
    obtain ⟨q, hq, eq⟩ := strip_perception hstrip hp
    have h1 := hm.libraries q hq
    have : q.effectLibrary = p.effectLibrary := by
      simpa [Perception.strip] using congrArg (fun p : Perception => p.effectLibrary) eq
    rw [this] at h1
    exact h1

/-- An experience with a composite effect of two parts and one of those again composite, before an effect of its
own. -/
def exampleComposite : Experience :=
  { version := [49], timescale := some 2000, avatars := [{ id := 3, lod := 2, type := 1 }]
    perceptions :=
      [{ id := 1, avatarId := 3
         channels :=
           [{ id := 4
              bands := [{ effects := [
                  { id := 7, effectType := EffectType.Composite, timeline := [
                    { position := 310, keyframes := [{ relativePosition := some 5 }] },
                    { effectType := EffectType.Composite, timeline := [
                      { id := 3, position := 10
                        keyframes := [{ relativePosition := some 0 }, { relativePosition := some 130 },
                          { relativePosition := some 300, frequencyModulation := some 60 }] }] }] },
                  { id := 8, position := 400, effectType := EffectType.Reference }] }, {}] },
            { id := 2, bands := [{ effects := [
                  { position := 100, keyframes := [{ relativePosition := some 5 }] }] }] }] },
       { id := 0, avatarId := 0
         channels := [{ id := 7, bands := [{ upperFrequencyLimit := 300, effects := [
                  { id := 3, keyframes := [{ relativePosition := some 1000 }] }] }, exampleWavelet (-1) 4] }] }] }

/-- Non-vacuity: the hypotheses of `c57_composite_partial` are met, and what is received is as it should be. -/
example : exampleComposite.Spaced ∧ exampleComposite.prune.FlatStarts ∧ exampleComposite.prune.AllIdentified ∧
    exampleComposite.prune.sent.StreamFits 128 ∧ exampleComposite.prune.sent.Modest 128 := by
  obtain ⟨-, h2, h3⟩ := exampleStreamed_fits
  have e : exampleComposite.prune.sent = exampleAssigned := rfl
  rw [e]
  rw [h3] at h2
  refine ⟨⟨?_, ?_⟩, ?_, ?_, h2, ?_⟩
  · intro p hp
    simp only [exampleComposite, List.mem_cons, List.not_mem_nil, or_false] at hp
    rcases hp with rfl | rfl
    · refine ⟨?_, ?_⟩
      · intro c hc
        simp only [List.mem_cons, List.not_mem_nil, or_false] at hc
        rcases hc with rfl | rfl
        · refine ⟨?_, ?_⟩
          · intro b hb
            simp only [List.mem_cons, List.not_mem_nil, or_false] at hb
            rcases hb with rfl | rfl
            · exact ⟨by decide +kernel⟩
            · exact ⟨by decide +kernel⟩
          · simp only [List.isChain_cons_cons]
            exact ⟨fun h => absurd (congrArg List.isEmpty h) (by decide +kernel), by simp⟩
        · refine ⟨?_, by simp⟩
          intro b hb
          simp only [List.mem_cons, List.not_mem_nil, or_false] at hb
          subst hb
          exact ⟨by decide +kernel⟩
      · simp only [List.isChain_cons_cons]
        exact ⟨fun h => absurd (congrArg List.isEmpty h) (by decide +kernel), by simp⟩
    · refine ⟨?_, by simp⟩
      intro c hc
      simp only [List.mem_cons, List.not_mem_nil, or_false] at hc
      subst hc
      refine ⟨?_, ?_⟩
      · intro b hb
        simp only [List.mem_cons, List.not_mem_nil, or_false] at hb
        rcases hb with rfl | rfl <;> exact ⟨by decide +kernel⟩
      · simp only [List.isChain_cons_cons]
        exact ⟨fun h => absurd (congrArg List.isEmpty h) (by decide +kernel), by simp⟩
  · simp only [exampleComposite, List.isChain_cons_cons]
    exact ⟨fun h => absurd (congrArg List.isEmpty h) (by decide +kernel), by simp⟩
  · intro b hb
    have hb : b ∈ (exampleComposite.prune.allBands) := hb
    have e : exampleComposite.prune.allBands = [{ effects := [
                  { id := 7, effectType := EffectType.Composite, timeline := [
                    { position := 310, keyframes := [{ relativePosition := some 5 }] },
                    { effectType := EffectType.Composite, timeline := [
                      { id := 3, position := 10
                        keyframes := [{ relativePosition := some 0 }, { relativePosition := some 130 },
                          { relativePosition := some 300, frequencyModulation := some 60 }] }] }] },
                  { id := 8, position := 400, effectType := EffectType.Reference }] },
        { effects := [{ position := 100, keyframes := [{ relativePosition := some 5 }] }] },
        { upperFrequencyLimit := 300, effects := [{ id := 3, keyframes := [{ relativePosition := some 1000 }] }] },
        exampleWavelet (-1) 4] := rfl
    rw [e] at hb
    simp only [List.mem_cons, List.not_mem_nil, or_false] at hb
    rcases hb with rfl | rfl | rfl | rfl <;>
      simp [flatStartAll, Effect.FlatStart, exampleWavelet, EffectType.Composite, EffectType.Basis, EffectType.Reference]
  · intro b hb e he
    have := List.all_eq_true.mp (show exampleComposite.prune.allBands.all
      (fun b => b.effects.all (fun e => decide (-1 ≤ e.id))) = true by decide +kernel) b hb
    exact of_decide_eq_true (List.all_eq_true.mp this e he)
  · have e : exampleAssigned.allBands.all (fun b => (b.effects.flatMap Effect.eventTimes).length ≤ 7000) = true := by
      decide +kernel
    refine ⟨?_, ?_, fun b hb t => eventsIn_small (of_decide_eq_true (List.all_eq_true.mp e b hb)) _ _, by decide +kernel,
      by decide +kernel⟩
    · intro p hp c hc
      simp only [exampleAssigned, List.mem_cons, List.not_mem_nil, or_false] at hp
      rcases hp with rfl | rfl <;> simp only [List.mem_cons, List.not_mem_nil, or_false] at hc
      · rcases hc with rfl | rfl <;> exact Nat.zero_le _
      · subst hc; exact Nat.zero_le _
    · intro p hp
      simp only [exampleAssigned, List.mem_cons, List.not_mem_nil, or_false] at hp
      rcases hp with rfl | rfl <;> exact Nat.zero_le _

end Haptics
