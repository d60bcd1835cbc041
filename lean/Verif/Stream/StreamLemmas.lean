import Verif.Stream.PropsInit
import Verif.Stream.PropsTransmit
import Verif.Stream.WaveletPacket

/-
Lemmas for C57: identifiers, bands by their number in the stream, and packets of all bands in order of time.
-/
namespace Haptics

/-! ### Identifiers -/

theorem mapAccum_append {α β σ : Type} (f : σ → α → β × σ) (l m : List α) (s : σ) :
    mapAccum f s (l ++ m) = ((mapAccum f s l).1 ++ (mapAccum f (mapAccum f s l).2 m).1,
      (mapAccum f (mapAccum f s l).2 m).2) := by
  induction l generalizing s with
  | nil => rfl
  | cons x l ih => simp only [List.cons_append, mapAccum, ih]

theorem mapAccum_map {α β σ γ : Type} (f : σ → α → β × σ) (F : α → γ) (G : β → γ)
    (h : ∀ s x, G (f s x).1 = F x) (l : List α) (s : σ) : (mapAccum f s l).1.map G = l.map F := by
  induction l generalizing s with
  | nil => rfl
  | cons x l ih => simp only [mapAccum, List.map_cons, h, ih]

theorem mapAccum_flatMap {α β σ γ : Type} (f : σ → α → β × σ) (F : α → List γ) (G : β → List γ)
    (h : ∀ s x, G (f s x).1 = F x) (l : List α) (s : σ) : (mapAccum f s l).1.flatMap G = l.flatMap F := by
  rw [List.flatMap_def, List.flatMap_def, mapAccum_map f F G h]

theorem mapAccum_forall₂ {α β σ : Type} (f : σ → α → β × σ) (l : List α) (s : σ) :
    List.Forall₂ (fun x y => ∃ s, y = (f s x).1) l (mapAccum f s l).1 := by
  induction l generalizing s with
  | nil => exact .nil
  | cons x l ih => exact .cons ⟨s, rfl⟩ (ih _)

theorem mapAccum_mem {α β σ : Type} (f : σ → α → β × σ) {l : List α} {x : α} (h : x ∈ l) (s : σ) :
    ∃ s', (f s' x).1 ∈ (mapAccum f s l).1 := by
  induction l generalizing s with
  | nil => simp at h
  | cons y l ih =>
    rcases List.mem_cons.1 h with rfl | h
    · exact ⟨s, by simp [mapAccum]⟩
    · obtain ⟨s', h'⟩ := ih h (f s y).2
      exact ⟨s', by simp [mapAccum, h']⟩

theorem assignIds_withBands (h old : Experience) : h.assignIds.withBands old = h.withBands old := by
  have e : (mapAccum Perception.assignIds (getEffectsId h) h.perceptions).1.map Perception.withBands
      = h.perceptions.map Perception.withBands := by
    refine mapAccum_map _ _ _ (fun s p => ?_) _ _
    have e : (mapAccum Channel.assignIds s p.channels).1.map Channel.withBands
        = p.channels.map Channel.withBands := by
      refine mapAccum_map _ _ _ (fun s c => ?_) _ _
      have e : (mapAccum Band.assignIds s c.bands).1.map Band.receivedHeader
          = c.bands.map Band.receivedHeader := mapAccum_map Band.assignIds _ _ (fun s b => rfl) _ _
      unfold Channel.withBands Channel.assignIds
      dsimp only
      rw [e]
      rfl
    unfold Perception.withBands Perception.assignIds
    dsimp only
    rw [e]
    rfl
  unfold Experience.withBands Experience.assignIds
  dsimp only
  rw [e]
  rfl

theorem assignIds_streams (h : Experience) : h.assignIds.streams = h.streams := by
  unfold Experience.streams Experience.assignIds
  dsimp only
  congr 1
  refine mapAccum_flatMap _ _ _ (fun s p => ?_) _ _
  refine mapAccum_flatMap _ _ _ (fun s c => ?_) _ _
  unfold Channel.assignIds
  dsimp only
  have := congrArg List.length (mapAccum_map Band.assignIds (fun _ => ()) (fun _ => ()) (fun _ _ => rfl) c.bands s)
  rw [List.length_map, List.length_map] at this
  rw [this]

theorem assignIds_channelIds (h : Experience) : h.assignIds.channelIds = h.channelIds := by
  unfold Experience.channelIds Experience.assignIds
  refine mapAccum_flatMap _ _ _ (fun s p => ?_) _ _
  exact mapAccum_map Channel.assignIds _ _ (fun s c => rfl) _ _

theorem assignIds_initFits {d : Nat} {h : Experience} (hf : h.assignIds.StreamFits d) : h.InitFits := by
  generalize hts : h.timescale.getD 1000 = ts
  have hp : ∀ p ∈ h.perceptions, ∃ s, (p.assignIds s).1.StreamFits ts d := by
    intro p hp
    obtain ⟨s, hs⟩ := mapAccum_mem Perception.assignIds hp (getEffectsId h)
    have := hf.perceptions _ hs
    rw [show h.assignIds.timescale = h.timescale from rfl, hts] at this
    exact ⟨s, this⟩
  have hc : ∀ p ∈ h.perceptions, ∀ c ∈ p.channels, ∃ s, (c.assignIds s).1.StreamFits ts d := by
    intro p hp' c hc
    obtain ⟨s, hs⟩ := hp p hp'
    obtain ⟨s', hs'⟩ := mapAccum_mem Channel.assignIds hc s
    exact ⟨s', hs.channels _ hs'⟩
  have hb : ∀ p ∈ h.perceptions, ∀ c ∈ p.channels, ∀ b ∈ c.bands, ∃ s, (b.assignIds s).1.HeaderFits := by
    intro p hp' c hc' b hb
    obtain ⟨s, hs⟩ := hc p hp' c hc'
    obtain ⟨s', hs'⟩ := mapAccum_mem Band.assignIds hb s
    exact ⟨s', (hs.bands _ hs').1⟩
  refine ⟨?_, ?_, ?_, ?_, ?_, ⟨?_, ?_⟩, ?_⟩
  · obtain ⟨h1, h2, h3, h4, h5, h6, h7⟩ := hf.header
    exact ⟨h1, h2, h3, h4, h5, h6, h7⟩
  · intro p hp'
    obtain ⟨s, hs⟩ := hp p hp'
    have := hs.header
    constructor
    all_goals first
      | exact this.id | exact this.priority | exact this.description | exact this.modality
      | exact this.avatarId | exact this.scheme | exact this.unitExponent | exact this.perceptionUnitExponent
      | exact this.libraryCount | exact this.deviceCount | exact this.devices | exact this.channelCount
  · intro p hp'
    obtain ⟨s, hs⟩ := hp p hp'
    exact ⟨hs.libraryCount, hs.library⟩
  · intro p hp' c hc'
    obtain ⟨s, hs⟩ := hc p hp' c hc'
    have := hs.header
    constructor
    all_goals first
      | exact this.id | exact this.priority | exact this.description | exact this.referenceDeviceId
      | exact this.bodyPartMask | exact this.resolution | exact this.bodyPartTargetCount
      | exact this.bodyPartTarget | exact this.actuatorTargetCount | exact this.actuatorTarget
      | exact this.frequencySampling | exact this.sampleCount | exact this.direction | exact this.vertexCount
      | exact this.vertices
  · intro p hp' c hc' b hb'
    obtain ⟨s, hs⟩ := hb p hp' c hc' b hb'
    obtain ⟨h1, h2, h3, h4, h5, h6⟩ := hs
    exact ⟨h1, h2, h3, h4, h5, h6⟩
  · have := hf.perceptionIds
    have e : h.assignIds.perceptions.map (·.id) = h.perceptions.map (·.id) :=
      mapAccum_map Perception.assignIds _ _ (fun s p => rfl) _ _
    rw [e] at this; exact this
  · have := hf.channelIds
    rw [assignIds_channelIds] at this; exact this
  · have := hf.bandCount
    have e : h.assignIds.allBands.map (fun _ => ()) = h.allBands.map (fun _ => ()) := by
      unfold Experience.allBands Experience.assignIds
      simp only [List.map_flatMap]
      refine mapAccum_flatMap _ _ _ (fun s p => ?_) _ _
      refine mapAccum_flatMap _ _ _ (fun s c => ?_) _ _
      exact mapAccum_map Band.assignIds _ _ (fun _ _ => rfl) _ _
    have := congrArg List.length e
    rw [List.length_map, List.length_map] at this
    omega

/-! ### Numbering -/

/-- Identifiers for the effects of a band with an address. -/
def AddressedBand.assign (ids : List Int) (x : AddressedBand) : AddressedBand × List Int :=
  ({ x with band := (x.band.assignIds ids).1 }, (x.band.assignIds ids).2)

theorem numbered_bands (p p' : Perception) (hp : p'.id = p.id) (hm : p'.perceptionModality = p.perceptionModality)
    (c c' : Channel) (hc : c'.id = c.id) (bs : List Band) : ∀ (n : Nat) (s : List Int),
    mapAccum AddressedBand.assign s (numbered n (bs.map (fun b => (p, c, b))))
      = (numbered n ((mapAccum Band.assignIds s bs).1.map (fun b => (p', c', b))),
          (mapAccum Band.assignIds s bs).2) := by
  induction bs with
  | nil => intro n s; rfl
  | cons b bs ih =>
    intro n s
    simp only [List.map_cons, numbered, mapAccum, AddressedBand.assign, ih, hp, hm, hc]

theorem numbered_channels (p p' : Perception) (hp : p'.id = p.id)
    (hm : p'.perceptionModality = p.perceptionModality) (cs : List Channel) : ∀ (n : Nat) (s : List Int),
    mapAccum AddressedBand.assign s (numbered n (cs.flatMap (fun c => c.bands.map (fun b => (p, c, b)))))
      = (numbered n ((mapAccum Channel.assignIds s cs).1.flatMap (fun c => c.bands.map (fun b => (p', c, b)))),
          (mapAccum Channel.assignIds s cs).2) := by
  induction cs with
  | nil => intro n s; rfl
  | cons c cs ih =>
    intro n s
    have h1 := numbered_bands p p' hp hm c (c.assignIds s).1 rfl c.bands n s
    have hl : ((mapAccum Band.assignIds s c.bands).1.map (fun b => (p', (c.assignIds s).1, b))).length
        = (c.bands.map (fun b => (p, c, b))).length := by
      have := congrArg List.length (mapAccum_map Band.assignIds (fun _ => ()) (fun _ => ()) (fun _ _ => rfl) c.bands s)
      simpa using this
    simp only [List.flatMap_cons, numbered_append, mapAccum_append, h1, ih, mapAccum]
    rw [← hl]
    rfl

theorem numbered_perceptions (ps : List Perception) : ∀ (n : Nat) (s : List Int),
    mapAccum AddressedBand.assign s (numbered n (triples ps))
      = (numbered n (triples (mapAccum Perception.assignIds s ps).1),
          (mapAccum Perception.assignIds s ps).2) := by
  induction ps with
  | nil => intro n s; rfl
  | cons p ps ih =>
    intro n s
    have h1 := numbered_channels p (p.assignIds s).1 rfl rfl p.channels n s
    have hl : ∀ (x : Perception) (cs : List Channel) (s : List Int),
        ((mapAccum Channel.assignIds s cs).1.flatMap (fun c => c.bands.map (fun b => (x, c, b)))).length
        = (cs.flatMap (fun c => c.bands.map (fun b => (p, c, b)))).length := by
      intro x cs s
      have e : ((mapAccum Channel.assignIds s cs).1.flatMap (fun c => c.bands.map (fun b => (x, c, b)))).map
          (fun _ => ()) = (cs.flatMap (fun c => c.bands.map (fun b => (p, c, b)))).map (fun _ => ()) := by
        simp only [List.map_flatMap, List.map_map]
        refine mapAccum_flatMap _ _ _ (fun s c => ?_) _ _
        exact mapAccum_map Band.assignIds _ _ (fun _ _ => rfl) _ _
      simpa using congrArg List.length e
    have hl := hl (p.assignIds s).1 p.channels s
    have e1 : triples (p :: ps) = p.channels.flatMap (fun c => c.bands.map (fun b => (p, c, b)))
      ++ triples ps := rfl
    have e2 : triples (mapAccum Perception.assignIds s (p :: ps)).1
      = (mapAccum Channel.assignIds s p.channels).1.flatMap (fun c => c.bands.map (fun b =>
          ((p.assignIds s).1, c, b)))
        ++ triples (mapAccum Perception.assignIds (p.assignIds s).2 ps).1 := rfl
    rw [e1, e2, numbered_append, numbered_append, mapAccum_append, h1, hl, ih]
    rfl

theorem bandsOf_assignIds (h : Experience) :
    (mapAccum AddressedBand.assign (getEffectsId h) (bandsOf h)).1 = bandsOf h.assignIds := by
  rw [bandsOf_eq, bandsOf_eq, numbered_perceptions]
  rfl

/-! ### Composite effects -/

theorem leaves_eq (l : List Effect) (h : ∀ e ∈ l, e.effectType ≠ EffectType.Composite) : leaves l = l := by
  induction l with
  | nil => simp [leaves]
  | cons e l ih =>
    rw [leaves, if_neg (h e (by simp)), ih (fun x hx => h x (by simp [hx]))]
    rfl

theorem foldl_addEffect (l : List Effect) : ∀ (b : Band), TimeOrdered (b.effects ++ l) →
    l.foldl Band.addEffect b = { b with effects := b.effects ++ l } := by
  induction l with
  | nil => intro b _; cases b; simp
  | cons e l ih =>
    intro b hb
    have h1 : b.addEffect e = { b with effects := b.effects ++ [e] } := by
      unfold Band.addEffect
      congr 1
      apply insertEffect_append
      intro x hx
      have := (List.pairwise_append.1 hb).2.2 x hx e (by simp)
      exact this
    rw [List.foldl_cons, h1, ih]
    · simp
    · simpa using hb

theorem linearizeTimeline_eq (b : Band) (h1 : ∀ e ∈ b.effects, e.effectType ≠ EffectType.Composite)
    (h2 : TimeOrdered b.effects) : b.linearizeTimeline = b := by
  unfold Band.linearizeTimeline
  rw [leaves_eq _ h1, foldl_addEffect _ _ (by simpa using h2)]
  cases b; simp

/-! ### Identifiers change nothing else -/

theorem assignAll_forall₂ (es : List Effect) : ∀ ids : List Int,
    List.Forall₂ (fun e x => x = { e with id := x.id } ∧ (e.id ≠ -1 → x = e)) es (assignAll ids es).1 := by
  induction es with
  | nil => intro ids; exact .nil
  | cons e es ih =>
    intro ids
    refine .cons ⟨assignId_same ids e, fun h => ?_⟩ (ih _)
    unfold assignId
    rw [if_neg h]

theorem assignAll_positions (es : List Effect) (ids : List Int) :
    (assignAll ids es).1.map (fun e => (e.effectType, e.position)) = es.map (fun e => (e.effectType, e.position)) := by
  have := assignAll_forall₂ es ids
  generalize (assignAll ids es).1 = fs at this
  induction this with
  | nil => rfl
  | cons h _ ih =>
    rw [List.map_cons, List.map_cons, ih, h.1]

/-- The blocks of a wavelet band are numbered anew, other effects keep their identifiers. -/
theorem identified_forall₂ (bt : Nat) (es : List Effect) (ids : List Int) :
    List.Forall₂ (fun e x => x = { e with id := x.id } ∧ (bt ≠ BandType.WaveletWave → e.id ≠ -1 → x = e)) es
      (identified bt ids es).1 := by
  unfold identified
  split
  · rename_i h
    refine (mapAccum_forall₂ renumber es ids).imp ?_
    rintro e x ⟨s, rfl⟩
    exact ⟨rfl, fun h' => absurd h h'⟩
  · exact (assignAll_forall₂ es ids).imp (fun e x hx => ⟨hx.1, fun _ => hx.2⟩)

theorem identified_nonneg (bt : Nat) (es : List Effect) (ids : List Int) (hids : ∀ i ∈ ids, 0 ≤ i) :
    ∀ i ∈ (identified bt ids es).2, 0 ≤ i := by
  unfold identified
  split
  · induction es generalizing ids with
    | nil => exact hids
    | cons e es ih =>
      refine ih _ (fun i hi => ?_)
      rcases List.mem_append.mp hi with hi | hi
      · exact hids i hi
      · rw [List.mem_singleton.mp hi]; exact nextEffectId_nonneg hids
  · induction es generalizing ids with
    | nil => exact hids
    | cons e es ih => exact ih _ (assignId_ids_nonneg hids)

/-! ### The packets of all bands -/

theorem packetsOf_succ (d : Int) (F : List Effect) (n : Nat) (time : Int) :
    packetsOf d F (n + 1) time = packetsOf d F n time
      ++ (if (windowOf (time + n * d) (time + n * d + d) F).isEmpty then []
          else [(time + n * d, windowOf (time + n * d) (time + n * d + d) F)]) := by
  induction n generalizing time with
  | zero =>
    simp only [packetsOf, windows, List.filter_cons, List.filter_nil, Nat.cast_zero, zero_mul, add_zero,
      List.nil_append]
    cases windowOf time (time + d) F <;> rfl
  | succ n ih =>
    have e : time + d + (n : Int) * d = time + ((n + 1 : Nat) : Int) * d := by push_cast; ring
    have h := ih (time + d)
    unfold packetsOf at h ⊢
    rw [windows, List.filter_cons, h, e]
    conv_rhs => rw [windows, List.filter_cons]
    split <;> rfl

theorem packetsOf_stable {d : Int} (hd : 0 ≤ d) {F : List Effect} {n : Nat}
    (h : ∀ e ∈ F, ∀ t ∈ e.eventTimes, t < n * d) : ∀ k, packetsOf d F (n + k) 0 = packetsOf d F n 0 := by
  intro k
  induction k with
  | zero => rfl
  | succ k ih =>
    have e : windowOf (0 + ((n + k : Nat) : Int) * d) (0 + ((n + k : Nat) : Int) * d + d) F = [] := by
      apply windowOf_eq_nil
      intro e he t ht
      rintro ⟨h1, -⟩
      have := h e he t ht
      push_cast at h1
      nlinarith
    rw [← Nat.add_assoc, packetsOf_succ, e, ih]
    simp

/-- All windows of a band in which there is something to send. -/
def sendings (d : Nat) (F : List Effect) : List (Int × List Effect) := packetsOf d F (2 ^ 24) 0

theorem sendings_eq {d : Nat} (hd : 0 < d) {F : List Effect}
    (hev : ∀ e ∈ F, ∀ t ∈ e.eventTimes, 0 ≤ t ∧ t < 2 ^ 24) {n : Nat}
    (h : ∀ e ∈ F, ∀ t ∈ e.eventTimes, t < n * (d : Int)) : packetsOf d F n 0 = sendings d F := by
  unfold sendings
  generalize hN : 2 ^ 24 = N
  have hev' : ∀ e ∈ F, ∀ t ∈ e.eventTimes, t < (N : Int) * (d : Int) := by
    intro e he t ht
    have h1 := (hev e he t ht).2
    have h3 : (N : Int) = 2 ^ 24 := by rw [← hN]; norm_num
    rw [← h3] at h1
    nlinarith
  rcases le_total n N with hn | hn
  · rw [← packetsOf_stable (by omega) h (N - n), Nat.add_sub_cancel' hn]
  · rw [← packetsOf_stable (by omega) hev' (n - N), Nat.add_sub_cancel' hn]

/-- The payload of a block of a wavelet band. -/
def SentBlock (addr : Address) (b : Bits) (w : Int × List Effect) : Prop :=
  ∃ e, w = (e.position, [e]) ∧ writeWaveletPayloadPacket addr e.position e.id e.semantic e = .ok b

/-- The payload `b` is what band `o.1` sends for the window `o.2`. -/
def SentFor (b : Bits) (o : AddressedBand × (Int × List Effect)) : Prop :=
  if o.1.band.bandType = BandType.WaveletWave then SentBlock o.1.addr b o.2
  else SentAs o.1.band.bandType o.1.addr b o.2

theorem sentFor_keyframes {b : Bits} {o : AddressedBand × (Int × List Effect)}
    (h : o.1.band.bandType ≠ BandType.WaveletWave) : SentFor b o ↔ SentAs o.1.band.bandType o.1.addr b o.2 := by
  unfold SentFor
  rw [if_neg h]

theorem sentFor_blocks {b : Bits} {o : AddressedBand × (Int × List Effect)}
    (h : o.1.band.bandType = BandType.WaveletWave) : SentFor b o ↔ SentBlock o.1.addr b o.2 := by
  unfold SentFor
  rw [if_pos h]

/-- What a band sends: windows with something in them, or blocks. -/
def bandSendings (d : Nat) (b : Band) : List (Int × List Effect) :=
  if b.bandType = BandType.WaveletWave then b.effects.map (fun e => (e.position, [e])) else sendings d b.effects

/-- What all bands send. -/
def allSendings (d : Nat) (xs : List AddressedBand) : List (AddressedBand × (Int × List Effect)) :=
  xs.flatMap (fun x => (bandSendings d x.band).map (fun w => (x, w)))

theorem keyframeBand_ne {bt : Nat} (h : KeyframeBand bt) : bt ≠ BandType.WaveletWave := by
  rcases h with rfl | rfl | rfl <;> decide

/-- The packets of the blocks of a wavelet band. -/
theorem waveletPackets_sent (addr : Address) (semantic : Option String)
    (hsem : ∀ s ∈ semantic, (semanticCode s).isSome) (bl : Int) (es : List Effect) :
    ∀ (ids : List Int) (j : Nat), (∀ (i : Nat) (e : Effect), es[i]? = some e → e.position = (j + i : Nat) * bl) →
      (∀ e ∈ es, e.semantic = semantic) →
      ∃ bs, waveletPackets addr semantic bl (j * bl) es ids = .ok (bs, (mapAccum renumber ids es).2) ∧
        List.Forall₂ (SentBlock addr) bs ((mapAccum renumber ids es).1.map (fun e => (e.position, [e]))) := by
  induction es with
  | nil => intro ids j _ _; exact ⟨[], rfl, .nil⟩
  | cons e es ih =>
    intro ids j hpos hse
    have hep : e.position = j * bl := by simpa using hpos 0 e rfl
    obtain ⟨sem, hs1, -⟩ := writeSemantic_w semantic hsem
    obtain ⟨bs, h1, h2⟩ := ih (ids ++ [nextEffectId ids]) (j + 1)
      (fun i x hx => by rw [hpos (i + 1) x (by simpa using hx)]; push_cast; ring)
      (fun x hx => hse x (by simp [hx]))
    have htime : ((j + 1 : Nat) : Int) * bl = j * bl + bl := by push_cast; ring
    rw [htime] at h1
    have hw : ∃ b, writeWaveletPayloadPacket addr (j * bl) (nextEffectId ids) semantic e = .ok b := by
      unfold writeWaveletPayloadPacket
      rw [hs1]
      exact ⟨_, rfl⟩
    obtain ⟨b, hw⟩ := hw
    refine ⟨b :: bs, by simp only [waveletPackets, hw, h1]; rfl, .cons ⟨_, rfl, ?_⟩ h2⟩
    rw [← hep, ← hse e (by simp)] at hw
    exact hw

/-- A band that can be streamed. -/
structure AddressedBand.Fits (ts d : Nat) (x : AddressedBand) : Prop where
  temporal : x.spatial = false
  perceId : U 8 x.addr.perceId
  channelId : U 16 x.addr.channelId
  bandId : U 8 x.addr.bandId
  effects : x.band.EffectsFit d ∨ x.band.BlocksFit ts d

theorem forall₂_getLast? {α β : Type} {R : α → β → Prop} {l : List α} {m : List β} (h : List.Forall₂ R l m)
    {a : α} (ha : a ∈ l.getLast?) : ∃ b ∈ m.getLast?, R a b := by
  induction h with
  | nil => simp at ha
  | @cons x y l m hxy hlm ih =>
    cases hlm with
    | nil =>
      simp only [List.getLast?_singleton, Option.mem_def, Option.some.injEq] at ha ⊢
      subst ha
      exact ⟨y, rfl, hxy⟩
    | cons h1 h2 =>
      rw [List.getLast?_cons_cons] at ha
      rw [List.getLast?_cons_cons]
      exact ih ha

theorem forall₂_mem {α β : Type} {R : α → β → Prop} {l : List α} {m : List β} (h : List.Forall₂ R l m)
    {a : α} (ha : a ∈ l) : ∃ b ∈ m, R a b := by
  induction h with
  | nil => simp at ha
  | cons hxy _ ih =>
    rcases List.mem_cons.1 ha with rfl | ha
    · exact ⟨_, by simp, hxy⟩
    · obtain ⟨b, hb, hr⟩ := ih ha
      exact ⟨b, by simp [hb], hr⟩

theorem dataLoop_spec (ts d : Nat) (hd : 0 < d) (hd2 : d < 2 ^ 24) (xs : List AddressedBand) :
    ∀ (ids : List Int), (∀ i ∈ ids, 0 ≤ i) → (∀ x ∈ (mapAccum AddressedBand.assign ids xs).1, x.Fits ts d) →
    ∃ L, dataLoop d xs [] ids = .ok L ∧
      List.Forall₂ SentFor L.flatten (allSendings d (mapAccum AddressedBand.assign ids xs).1) := by
  induction xs with
  | nil => intro ids _ _; exact ⟨[], rfl, .nil⟩
  | cons x xs ih =>
    intro ids hids hf
    have hx := hf (x.assign ids).1 (by simp [mapAccum])
    have hF := identified_forall₂ x.band.bandType x.band.effects ids
    have hE : (x.assign ids).1.band.effects = (identified x.band.bandType ids x.band.effects).1 := rfl
    have hpos : (identified x.band.bandType ids x.band.effects).1.map (fun e => (e.effectType, e.position))
        = x.band.effects.map (fun e => (e.effectType, e.position)) := by
      clear * - hF
      generalize (identified x.band.bandType ids x.band.effects).1 = fs at hF
      generalize x.band.effects = es at hF
      induction hF with
      | nil => rfl
      | cons h _ ih => rw [List.map_cons, List.map_cons, ih, h.1]
    have hids' := identified_nonneg x.band.bandType x.band.effects ids hids
    obtain ⟨L, hL1, hL2⟩ := ih (identified x.band.bandType ids x.band.effects).2 hids'
      (fun y hy => hf y (by simp only [mapAccum, List.mem_cons]; right; exact hy))
    have hsp : x.spatial = false := hx.temporal
    have hcore : (∀ e ∈ x.band.effects, e.effectType ≠ EffectType.Composite) ∧ TimeOrdered x.band.effects ∧
        ∃ bs, packetizeBand d x.addr x.band ids = .ok (bs, (identified x.band.bandType ids x.band.effects).2) ∧
          List.Forall₂ (fun b w => SentFor b ((x.assign ids).1, w)) bs (bandSendings d (x.assign ids).1.band) := by
      have order : TimeOrdered (x.assign ids).1.band.effects → TimeOrdered x.band.effects := by
        intro h
        rw [hE] at h
        unfold TimeOrdered at h ⊢
        have h3 : ((identified x.band.bandType ids x.band.effects).1.map (fun e => (e.effectType, e.position))).Pairwise
            (fun a b => a.2 ≤ b.2) := by rw [List.pairwise_map]; exact h
        rw [hpos, List.pairwise_map] at h3
        exact h3
      have types : (∀ e ∈ (x.assign ids).1.band.effects, e.effectType ≠ EffectType.Composite) →
          ∀ e ∈ x.band.effects, e.effectType ≠ EffectType.Composite := by
        intro h e he hc
        obtain ⟨y, hy, hey⟩ := forall₂_mem hF he
        have e2 : y.effectType = e.effectType := by rw [hey.1]
        exact h y (by rw [hE]; exact hy) (by rw [e2]; exact hc)
      rcases hx.effects with hEf | hBf
      · have hne : x.band.bandType ≠ BandType.WaveletWave := keyframeBand_ne hEf.bandType
        have hI : identified x.band.bandType ids x.band.effects = assignAll ids x.band.effects := by
          unfold identified; rw [if_neg hne]
        rw [hI] at hF hE ⊢
        obtain ⟨bs, n, hp1, hp2, hp3⟩ := c19_packets_partial x.band hEf.bandType x.addr hx.perceId hx.channelId
          hx.bandId d (by omega) (by omega) ids hids (by rw [← hE]; exact hEf.sequential)
          (by rw [← hE]; exact hEf.sendable)
          (by have := hEf.count; rw [hE, assignAll_length] at this; exact this)
          (by
            intro e he hr m hm
            obtain ⟨y, hy, hey⟩ := forall₂_getLast? hF he
            have e1 : y.effectType = e.effectType := by rw [hey.1]
            have e2 : y.position = e.position := by rw [hey.1]
            rw [← e2]
            exact hEf.last y (by rw [hE]; exact hy) (by rw [e1]; exact hr) m hm)
        refine ⟨types ?_, order hEf.sequential.ordered, bs, hp1, ?_⟩
        · intro y hy hc
          rcases hEf.sequential.types y hy with h | h <;> rw [h] at hc <;> exact absurd hc (by decide)
        · rw [← hE] at hp2 hp3
          rw [sendings_eq hd hEf.events hp2] at hp3
          have e1 : bandSendings d (x.assign ids).1.band = sendings d (x.assign ids).1.band.effects := if_neg hne
          rw [e1]
          exact hp3.imp (fun b w h => (sentFor_keyframes (o := ((x.assign ids).1, w)) hne).mpr h)
      · have hbt : x.band.bandType = BandType.WaveletWave := hBf.bandType
        have hI : identified x.band.bandType ids x.band.effects = mapAccum renumber ids x.band.effects := by
          unfold identified; rw [if_pos hbt]
        obtain ⟨semantic, hsem, hwb⟩ := hBf.blocks
        have hget : ∀ (i : Nat) (e : Effect), x.band.effects[i]? = some e →
            ∃ y, (x.assign ids).1.band.effects[i]? = some y ∧ y = { e with id := y.id } := by
          intro i e he
          obtain ⟨hi, he⟩ := List.getElem?_eq_some_iff.mp he
          have h2 := List.forall₂_iff_get.mp hF
          have hi2 : i < (x.assign ids).1.band.effects.length := by rw [hE, ← h2.1]; exact hi
          refine ⟨_, List.getElem?_eq_getElem hi2, ?_⟩
          have := (h2.2 i hi hi2).1
          simp only [List.get_eq_getElem, he] at this
          exact this
        have hposn : ∀ (i : Nat) (e : Effect), x.band.effects[i]? = some e → e.position = i * (d : Int) := by
          intro i e he
          obtain ⟨y, hy, hey⟩ := hget i e he
          have := hwb.position i y hy
          rw [hey] at this
          exact this
        have hsemn : ∀ e ∈ x.band.effects, e.semantic = semantic := by
          intro e he
          obtain ⟨y, hy, hey⟩ := forall₂_mem hF he
          have := hwb.semantic y (by rw [hE]; exact hy)
          rw [hey.1] at this
          exact this
        obtain ⟨bs, hb1, hb2⟩ := waveletPackets_sent x.addr semantic hsem d x.band.effects ids 0
          (by simpa using hposn) hsemn
        obtain ⟨sent, hs, hk⟩ := wavelet_sent x.band d d hBf.blockLength hd le_rfl
        have hse : sent = x.band.effects := List.ext_getElem? (fun k => by rw [hk, Nat.div_self hd, Nat.one_mul])
        have hhead : waveletPackets x.addr (x.band.effects.head?.bind (·.semantic)) x.band.blockLengthOrDefault 0
            x.band.effects ids = .ok (bs, (mapAccum renumber ids x.band.effects).2) := by
          have hbl : x.band.blockLengthOrDefault = d := by
            have : x.band.blockLength = some (d : Int) := hBf.blockLength
            simp [Band.blockLengthOrDefault, this]
          rw [hbl]
          rw [Nat.cast_zero, zero_mul] at hb1
          cases hes : x.band.effects with
          | nil => rw [hes] at hb1; exact hb1
          | cons e l =>
            have h1 := hsemn e (by rw [hes]; simp)
            rw [hes] at hb1
            rw [List.head?_cons, Option.bind_some, h1]
            exact hb1
        refine ⟨types ?_, order ?_, bs, ?_, ?_⟩
        · intro y hy hc
          rw [hBf.basis y hy] at hc
          exact absurd hc (by decide)
        · unfold TimeOrdered
          rw [List.pairwise_iff_getElem]
          intro i k hi hk' hik
          rw [hwb.position i _ (List.getElem?_eq_getElem hi), hwb.position k _ (List.getElem?_eq_getElem hk')]
          have : (i : Int) ≤ k := by omega
          exact mul_le_mul_of_nonneg_right this (by omega)
        · unfold packetizeBand
          rw [if_pos hbt, hs, hse, hI]
          exact hhead
        · have e1 : bandSendings d (x.assign ids).1.band
              = (mapAccum renumber ids x.band.effects).1.map (fun e => (e.position, [e])) := by
            unfold bandSendings
            rw [if_pos hBf.bandType, hE, hI]
          rw [e1]
          exact hb2.imp (fun b w h => (sentFor_blocks (o := ((x.assign ids).1, w)) hBf.bandType).mpr h)
    obtain ⟨h1, h2, bs, hp1, hp3⟩ := hcore
    refine ⟨bs :: L, ?_, ?_⟩
    · unfold dataLoop
      rw [hsp, if_neg (by simp), linearizeTimeline_eq _ h1 h2, hp1]
      dsimp only
      rw [hL1]
      rfl
    · rw [List.flatten_cons]
      unfold allSendings
      rw [mapAccum, List.flatMap_cons]
      refine List.rel_append ?_ hL2
      rw [List.forall₂_map_right_iff]
      exact hp3

theorem sendings_mem {d : Nat} {F : List Effect} (hev : ∀ e ∈ F, ∀ t ∈ e.eventTimes, 0 ≤ t ∧ t < 2 ^ 24)
    {w : Int × List Effect} (h : w ∈ sendings d F) :
    0 ≤ w.1 ∧ w.1 < 2 ^ 24 ∧ w.2 ≠ [] ∧ w.2 = windowOf w.1 (w.1 + d) F ∧ ∃ k : Nat, w.1 = k * d := by
  unfold sendings at h
  obtain ⟨h1, h2⟩ := packetsOf_time (by omega) (fun e he t ht => (hev e he t ht).2) h
  obtain ⟨h3, h4, k, h5⟩ := packetsOf_mem h
  exact ⟨h1, h2, h3, h4, k, by rw [h5]; ring⟩

/-- What a band sends. -/
theorem bandSendings_mem {ts d : Nat} {b : Band} (hf : b.EffectsFit d ∨ b.BlocksFit ts d)
    {w : Int × List Effect} (h : w ∈ bandSendings d b) : 0 ≤ w.1 ∧ w.1 < 2 ^ 24 ∧ ∃ k : Nat, w.1 = k * d := by
  rcases hf with hf | hf
  · rw [bandSendings, if_neg (keyframeBand_ne hf.bandType)] at h
    obtain ⟨h1, h2, -, -, h3⟩ := sendings_mem hf.events h
    exact ⟨h1, h2, h3⟩
  · rw [bandSendings, if_pos hf.bandType] at h
    obtain ⟨e, he, rfl⟩ := List.mem_map.mp h
    obtain ⟨semantic, -, hw⟩ := hf.blocks
    obtain ⟨j, hj⟩ := List.getElem?_of_mem he
    have hp := hw.position j e hj
    refine ⟨?_, hf.events e he, j, hp⟩
    show 0 ≤ e.position
    rw [hp]
    positivity

theorem SentBlock.timestamp {addr : Address} {b : Bits} {w : Int × List Effect} (h : SentBlock addr b w)
    (h0 : 0 ≤ w.1) (h1 : w.1 < 2 ^ 32) : 81 ≤ b.length ∧ timestampOf b = w.1 := by
  obtain ⟨e, rfl, hw⟩ := h
  unfold writeWaveletPayloadPacket at hw
  split at hw
  · cases hw
  · rename_i sem _
    rw [← Except.ok.inj hw]
    constructor
    · simp only [List.length_append, writeNBits_length, writeEffectHeader]
      simp only [DB_DURATION, DB_AU_TYPE, MDPERCE_ID, MDCHANNEL_ID, MDBAND_ID, DB_EFFECT_COUNT]
      omega
    · unfold timestampOf writeEffectHeader
      simp only [List.append_assoc, DB_DURATION]
      rw [List.take_append_of_le_length (by simp), List.take_of_length_le (by simp), bitsVal_writeNBits]
      dsimp only at h0 h1 ⊢
      omega

theorem SentAs.length {bandType : Nat} {addr : Address} {b : Bits} {w : Int × List Effect}
    (h : SentAs bandType addr b w) : 81 ≤ b.length := by
  obtain ⟨a, -, -, hw⟩ := h
  unfold writePayloadPacket at hw
  split at hw
  · simp at hw
  · simp only [Except.ok.injEq] at hw
    rw [← hw]
    simp only [List.length_append, writeNBits_length, writeEffectHeader]
    simp only [DB_DURATION, DB_AU_TYPE, MDPERCE_ID, MDCHANNEL_ID, MDBAND_ID, DB_EFFECT_COUNT]
    omega

/-- Every payload is long enough and starts with its time. -/
theorem SentFor.timestamp {b : Bits} {o : AddressedBand × (Int × List Effect)} (h : SentFor b o)
    (h0 : 0 ≤ o.2.1) (h1 : o.2.1 < 2 ^ 24) : 81 ≤ b.length ∧ timestampOf b = o.2.1 := by
  unfold SentFor at h
  split at h
  · exact h.timestamp h0 (lt_trans h1 (by norm_num))
  · exact ⟨SentAs.length h, (SentAs.timestamp h h0 (lt_trans h1 (by norm_num))).2⟩

theorem packetsOf_sorted {d : Int} (hd : 0 < d) (F : List Effect) (n : Nat) : ∀ time : Int,
    (packetsOf d F n time).Pairwise (fun a b => a.1 < b.1) := by
  induction n with
  | zero => intro time; exact .nil
  | succ n ih =>
    intro time
    have h := ih (time + d)
    have hm : ∀ w ∈ packetsOf d F n (time + d), time < w.1 := by
      intro w hw
      obtain ⟨-, -, k, hk⟩ := packetsOf_mem hw
      rw [hk]
      have : (0 : Int) ≤ k * d := by positivity
      linarith
    unfold packetsOf at h hm ⊢
    rw [windows, List.filter_cons]
    split
    · exact List.pairwise_cons.2 ⟨hm, h⟩
    · exact h

/-- If the bands send what the bands `xs` send one by one, all packets are sent in order of time. -/
theorem writeData_of (ts d : Nat) (g : Experience) (xs : List AddressedBand) (hf : ∀ x ∈ xs, x.Fits ts d)
    (L : List (List Bits)) (h1 : dataLoop d (bandsOf g) [] (getEffectsId g) = .ok L)
    (h2 : List.Forall₂ SentFor L.flatten (allSendings d xs)) :
    ∃ out ops, writeData d g = .ok out ∧ List.Forall₂ SentFor out ops ∧
      ops.Perm (allSendings d xs) ∧ ops.Pairwise (fun a b => a.2.1 ≤ b.2.1) := by
  have hts : ∀ b o, SentFor b o → o ∈ allSendings d xs →
      32 ≤ b.length ∧ timestampOf b = o.2.1 ∧ o.2.1 < 2 ^ 24 := by
    intro b o hbo ho
    simp only [allSendings, List.mem_flatMap, List.mem_map] at ho
    obtain ⟨x, hx, w, hw, rfl⟩ := ho
    obtain ⟨q1, q2, -⟩ := bandSendings_mem (hf x hx).effects hw
    obtain ⟨q3, q4⟩ := hbo.timestamp q1 q2
    exact ⟨by omega, q4, q2⟩
  obtain ⟨out, ho1, ho2, ho3, -⟩ := c18_timestamps L (fun b hb x hx => by
    obtain ⟨o, ho, hxo⟩ := forall₂_mem h2 (List.mem_flatten.2 ⟨b, hb, hx⟩)
    obtain ⟨q1, q2, q3⟩ := hts x o hxo ho
    exact ⟨q1, by rw [q2]; omega⟩)
  obtain ⟨ops, hr, hperm⟩ := List.perm_comp_forall₂ ho2 h2
  refine ⟨out, ops, ?_, hr, hperm, ?_⟩
  · unfold writeData
    rw [h1]
    exact ho1
  · have hmem : ∀ o ∈ ops, o ∈ allSendings d xs := fun o ho => hperm.mem_iff.1 ho
    clear hperm ho2 ho1 h2
    induction hr with
    | nil => exact .nil
    | @cons b o out ops hbo hrest ih =>
      rw [List.pairwise_cons] at ho3 ⊢
      refine ⟨fun o' ho' => ?_, ih ho3.2 (fun x hx => hmem x (by simp [hx]))⟩
      obtain ⟨b', hb', hbo'⟩ := forall₂_mem hrest.flip ho'
      have e1 := (hts b o hbo (hmem o (by simp))).2.1
      have e2 := (hts b' o' hbo' (hmem o' (by simp [ho']))).2.1
      rw [← e1, ← e2]
      exact ho3.1 b' hb'

/-- Everything that is sent, in the order in which it is sent. -/
theorem writeData_spec (ts d : Nat) (hd : 0 < d) (hd2 : d < 2 ^ 24) (g : Experience)
    (hids : ∀ i ∈ getEffectsId g, 0 ≤ i) (hf : ∀ x ∈ bandsOf g.assignIds, x.Fits ts d) :
    ∃ out ops, writeData d g = .ok out ∧ List.Forall₂ SentFor out ops ∧
      ops.Perm (allSendings d (bandsOf g.assignIds)) ∧ ops.Pairwise (fun a b => a.2.1 ≤ b.2.1) := by
  obtain ⟨L, h1, h2⟩ := dataLoop_spec ts d hd hd2 (bandsOf g) (getEffectsId g) hids
    (by rw [bandsOf_assignIds]; exact hf)
  rw [bandsOf_assignIds] at h2
  exact writeData_of ts d g _ hf L h1 h2

end Haptics
