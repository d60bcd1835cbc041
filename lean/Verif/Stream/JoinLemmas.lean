import Verif.Stream.SpecJoin
import Verif.Stream.PropsSizes

/-
Lemmas for C103 and C106: what is sent at some times is what an experience would send in which only that happens.
-/
namespace Haptics

/-! ### Effects -/

theorem during_effectType (live : Int → Bool) (e : Effect) : (e.during live).effectType = e.effectType := by
  unfold Effect.during; split <;> rfl

theorem during_position (live : Int → Bool) (e : Effect) : (e.during live).position = e.position := by
  unfold Effect.during; split <;> rfl

theorem during_id (live : Int → Bool) (e : Effect) : (e.during live).id = e.id := by
  unfold Effect.during; split <;> rfl

theorem during_mem (live : Int → Bool) (e : Effect) : ∀ k ∈ (e.during live).keyframes, k ∈ e.keyframes := by
  intro k hk
  unfold Effect.during at hk
  split at hk
  · exact List.mem_of_mem_filter hk
  · exact hk

theorem during_eventTimes (live : Int → Bool) (e : Effect) (h : e.eventTimes.any live = true) :
    (e.during live).eventTimes = e.eventTimes.filter live := by
  unfold Effect.during Effect.eventTimes at *
  by_cases he : e.effectType = EffectType.Basis
  · simp only [if_pos he] at h ⊢
    rw [List.filter_map]
    rfl
  · simp only [if_neg he] at h ⊢
    simp only [List.any_cons, List.any_nil, Bool.or_false] at h
    rw [List.filter_cons, if_pos h]
    rfl

theorem during_occursIn {live : Int → Bool} {lo hi : Int} (hlo : ∀ x, lo ≤ x → x < hi → live x = true) (e : Effect) (h : e.eventTimes.any live = true) :
    Effect.occursIn lo hi (e.during live) = Effect.occursIn lo hi e := by
  unfold Effect.occursIn
  rw [during_eventTimes live e h, List.any_filter]
  congr 1
  funext x
  by_cases hx : lo ≤ x ∧ x < hi
  · simp [hx, hlo x hx.1 hx.2]
  · simp [hx]

theorem during_slice {live : Int → Bool} {lo hi : Int} (hlo : ∀ x, lo ≤ x → x < hi → live x = true) (e : Effect) : Effect.slice lo hi (e.during live) = Effect.slice lo hi e := by
  unfold Effect.slice Effect.during
  by_cases he : e.effectType = EffectType.Basis
  · simp only [if_pos he, List.filter_filter]
    congr 1
    refine List.filter_congr fun k _ => ?_
    have e1 : Effect.timeOf { e with keyframes := e.keyframes.filter (fun k => live (e.timeOf k)) } k = e.timeOf k := rfl
    rw [e1]
    by_cases hx : lo ≤ e.timeOf k ∧ e.timeOf k < hi
    · simp [hx, hlo _ hx.1 hx.2]
    · simp [hx]
  · simp only [if_neg he]

theorem occursIn_during {live : Int → Bool} {lo hi : Int} (hlo : ∀ x, lo ≤ x → x < hi → live x = true) (e : Effect) (h : Effect.occursIn lo hi e = true) :
    e.eventTimes.any live = true := by
  unfold Effect.occursIn at h
  rw [List.any_eq_true] at h ⊢
  obtain ⟨x, hx, h⟩ := h
  rw [decide_eq_true_eq] at h
  exact ⟨x, hx, hlo x h.1 h.2⟩

/-- What happens at the times `live` in a keyframe band. -/
def effectsDuring (live : Int → Bool) (F : List Effect) : List Effect :=
  (F.filter (fun e => e.eventTimes.any live)).map (Effect.during live)

theorem effectsDuring_events {live : Int → Bool} {F : List Effect} : (effectsDuring live F).flatMap Effect.eventTimes =
    (F.flatMap Effect.eventTimes).filter live := by
  unfold effectsDuring
  induction F with
  | nil => rfl
  | cons e F ih =>
    rw [List.flatMap_cons, List.filter_append, ← ih, List.filter_cons]
    split
    · rename_i h
      rw [List.map_cons, List.flatMap_cons, during_eventTimes live e h]
    · rename_i h
      have : e.eventTimes.filter live = [] := by
        rw [List.filter_eq_nil_iff]
        intro x hx hd
        exact h (List.any_eq_true.mpr ⟨x, hx, hd⟩)
      rw [this, List.nil_append]

theorem windowOf_during {live : Int → Bool} {lo hi : Int} (hlo : ∀ x, lo ≤ x → x < hi → live x = true) (F : List Effect) :
    windowOf lo hi (effectsDuring live F) = windowOf lo hi F := by
  unfold windowOf effectsDuring
  induction F with
  | nil => rfl
  | cons e F ih =>
    rw [List.filter_cons (p := fun e : Effect => e.eventTimes.any live), List.filter_cons (p := Effect.occursIn lo hi)]
    by_cases h : e.eventTimes.any live = true
    · rw [if_pos h, List.map_cons, List.filter_cons, during_occursIn hlo e h]
      split
      · rw [List.map_cons, List.map_cons, ih, during_slice hlo]
      · exact ih
    · rw [if_neg h, if_neg (fun h' => h (occursIn_during hlo e h'))]
      exact ih

theorem windowOf_before {live : Int → Bool} {lo hi : Int} (hhi : ∀ x, lo ≤ x → x < hi → live x = false) (F : List Effect) : windowOf lo hi (effectsDuring live F) = [] := by
  apply windowOf_eq_nil
  intro e he x hx
  have : x ∈ (effectsDuring live F).flatMap Effect.eventTimes := List.mem_flatMap.mpr ⟨e, he, hx⟩
  rw [effectsDuring_events, List.mem_filter] at this
  rintro ⟨h1, h2⟩
  rw [hhi x h1 h2] at this
  exact absurd this.2 (by decide)

theorem windowOf_nil_iff {lo hi : Int} {l : List Effect} :
    windowOf lo hi l = [] ↔ ∀ x ∈ l.flatMap Effect.eventTimes, ¬ (lo ≤ x ∧ x < hi) := by
  constructor
  · intro h x hx hc
    obtain ⟨e, he, hx⟩ := List.mem_flatMap.mp hx
    unfold windowOf at h
    rw [List.map_eq_nil_iff, List.filter_eq_nil_iff] at h
    exact h e he (List.any_eq_true.mpr ⟨x, hx, decide_eq_true hc⟩)
  · intro h
    exact windowOf_eq_nil (fun e he x hx => h x (List.mem_flatMap.mpr ⟨e, he, hx⟩))

theorem windowOf_nil_during {live : Int → Bool} {lo hi : Int} {F : List Effect} (h : windowOf lo hi F = []) :
    windowOf lo hi (effectsDuring live F) = [] := by
  rw [windowOf_nil_iff] at h ⊢
  intro x hx
  rw [effectsDuring_events] at hx
  exact h x (List.mem_of_mem_filter hx)

/-- What the rest of a band sends. -/
theorem packetsOf_during (d : Int) (live : Int → Bool) (F : List Effect) (n : Nat) : ∀ time : Int,
    (∀ w ∈ packetsOf d F n time, (∀ x, w.1 ≤ x → x < w.1 + d → live x = false) ∨
      ∀ x, w.1 ≤ x → x < w.1 + d → live x = true) →
    packetsOf d (effectsDuring live F) n time = (packetsOf d F n time).filter (fun w => live w.1) := by
  induction n with
  | zero => intro time _; rfl
  | succ n ih =>
    intro time h
    unfold packetsOf at h ih ⊢
    rw [windows, windows, List.filter_cons]
    conv_rhs => rw [List.filter_cons (p := fun w : Int × List Effect => !w.2.isEmpty)]
    rw [windows, List.filter_cons] at h
    dsimp only at h ⊢
    by_cases hw : windowOf time (time + d) F = []
    · have hw1 : ¬ (!(windowOf time (time + d) F).isEmpty) = true := by rw [hw]; decide
      have hw2 : ¬ (!(windowOf time (time + d) (effectsDuring live F)).isEmpty) = true := by
        rw [windowOf_nil_during hw]; decide
      rw [if_neg hw1] at h
      rw [if_neg hw1, if_neg hw2]
      exact ih _ h
    · have hw' : (!(windowOf time (time + d) F).isEmpty) = true := by simpa using hw
      rw [if_pos hw'] at h
      have h2 := ih (time + d) (fun w hwm => h w (List.mem_cons_of_mem _ hwm))
      rw [if_pos hw', List.filter_cons (p := fun w : Int × List Effect => live w.1)]
      obtain ⟨x, hx, hx1, hx2⟩ : ∃ x ∈ F.flatMap Effect.eventTimes, time ≤ x ∧ x < time + d := by
        by_contra hcon
        push Not at hcon
        exact hw (windowOf_nil_iff.mpr fun x hx hc => absurd (hcon x hx hc.1) (not_le.mpr hc.2))
      rcases h (time, windowOf time (time + d) F) (by simp) with hb | hb <;> dsimp only at hb
      · rw [windowOf_before hb]
        simp only [List.isEmpty_nil, Bool.not_true, Bool.false_eq_true, if_false]
        rw [if_neg (by rw [hb time le_rfl (by omega)]; decide)]
        exact h2
      · rw [windowOf_during hb, if_pos hw', if_pos (hb time le_rfl (by omega)), h2]

/-! ### Bands -/

theorem effectsDuring_pairwise {R : Effect → Effect → Prop} {live : Int → Bool} {F : List Effect} (h : F.Pairwise R)
    (hR : ∀ a b, R a b → R (a.during live) (b.during live)) : (effectsDuring live F).Pairwise R :=
  (List.pairwise_map.mpr ((h.filter _).imp (hR _ _)))

theorem effectsDuring_mem {live : Int → Bool} {F : List Effect} {x : Effect} (h : x ∈ effectsDuring live F) :
    ∃ e ∈ F, x = e.during live ∧ e.eventTimes.any live = true := by
  unfold effectsDuring at h
  obtain ⟨e, he, rfl⟩ := List.mem_map.mp h
  rw [List.mem_filter] at he
  exact ⟨e, he.1, rfl, he.2⟩

theorem effectsDuring_sequential {live : Int → Bool} {F : List Effect} (h : Sequential F) : Sequential (effectsDuring live F) := by
  refine ⟨?_, ?_, ?_, ?_, ?_⟩
  · rw [effectsDuring_events]
    exact h.times.filter _
  · refine effectsDuring_pairwise h.ordered ?_
    intro a b hab
    rw [during_position, during_position]
    exact hab
  · intro x hx
    obtain ⟨e, he, rfl, -⟩ := effectsDuring_mem hx
    rw [during_effectType]
    exact h.types e he
  · intro x hx hxt hnil
    obtain ⟨e, he, rfl, h2⟩ := effectsDuring_mem hx
    have h3 := during_eventTimes live e h2
    unfold Effect.eventTimes at h3
    rw [if_pos hxt, hnil, List.map_nil] at h3
    have h4 : e.eventTimes.filter live = [] := h3.symm
    rw [List.filter_eq_nil_iff] at h4
    obtain ⟨x, hx, hd⟩ := List.any_eq_true.mp h2
    exact h4 x hx hd
  · intro x hx k hk
    obtain ⟨e, he, rfl, -⟩ := effectsDuring_mem hx
    exact h.positioned e he k (during_mem live e k hk)

theorem effectsDuring_last {live : Int → Bool} (hlive : ∀ x y, x ≤ y → live x = true → live y = true)
    {F : List Effect} (h : Sequential F) {x : Effect} (hx : x ∈ (effectsDuring live F).getLast?) : ∃ e ∈ F.getLast?, x = e.during live := by
  have hne : ∀ e ∈ F, e.eventTimes ≠ [] := by
    intro e he hnil
    unfold Effect.eventTimes at hnil
    split at hnil
    · rename_i hb
      exact h.keyframes e he hb (List.map_eq_nil_iff.mp hnil)
    · cases hnil
  have htimes := h.times
  clear h
  cases hF : F.getLast? with
  | none =>
    rw [List.getLast?_eq_none_iff] at hF
    subst hF
    simp [effectsDuring] at hx
  | some l =>
    obtain ⟨F', rfl⟩ := List.getLast?_eq_some_iff.mp hF
    refine ⟨l, rfl, ?_⟩
    have hl : l.eventTimes.any live = true := by
      have hm : x ∈ effectsDuring live (F' ++ [l]) := List.mem_of_getLast? hx
      obtain ⟨e, he, -, hev⟩ := effectsDuring_mem hm
      rcases List.mem_append.mp he with he | he
      · obtain ⟨y, hy, hd⟩ := List.any_eq_true.mp hev
        obtain ⟨z, hz⟩ := List.exists_mem_of_ne_nil _ (hne l (by simp))
        refine List.any_eq_true.mpr ⟨z, hz, ?_⟩
        rw [List.flatMap_append, List.pairwise_append] at htimes
        have := htimes.2.2 y (List.mem_flatMap.mpr ⟨e, he, hy⟩) z (by simpa using hz)
        exact hlive y z this hd
      · rw [List.mem_singleton] at he
        subst he
        exact hev
    unfold effectsDuring at hx
    rw [List.filter_append, List.filter_cons, if_pos hl, List.filter_nil, List.map_append, List.map_cons, List.map_nil,
      List.getLast?_append] at hx
    simpa using hx.symm

theorem Band.during_of_keyframes {b : Band} (h : b.bandType ≠ BandType.WaveletWave) (live : Int → Bool) :
    b.during live = { b with effects := effectsDuring live b.effects } := by
  unfold Band.during
  rw [if_neg h]
  rfl

theorem Band.EffectsFit.during {d : Nat} {b : Band} (h : b.EffectsFit d) (live : Int → Bool)
    (hlast : ∀ e ∈ (effectsDuring live b.effects).getLast?, e.effectType = EffectType.Reference →
      ∀ m : Int, 0 < m → e.position ≠ m * d) : (b.during live).EffectsFit d := by
  have hne := keyframeBand_ne h.bandType
  rw [Band.during_of_keyframes hne]
  refine ⟨h.bandType, effectsDuring_sequential h.sequential, ?_, ?_, ?_, ?_, ?_⟩
  · refine effectsDuring_pairwise h.distinct ?_
    intro a b hab
    rw [during_effectType, during_id, during_id]
    exact hab
  · intro x hx
    obtain ⟨e, he, rfl, -⟩ := effectsDuring_mem hx
    have hs := h.sendable e he
    refine ⟨by rw [during_id]; exact hs.id, by rw [during_effectType]; exact hs.type, ?_, ?_, ?_,
      fun k hk => hs.keyframes k (during_mem live e k hk)⟩
    · unfold Effect.during; split <;> exact hs.semantic
    · unfold Effect.during; split <;> exact hs.baseSignal
    · refine lt_of_le_of_lt ?_ hs.keyframeCount
      unfold Effect.during
      split
      · exact List.length_filter_le _ _
      · exact le_refl _
  · intro x hx y hy
    have : y ∈ (effectsDuring live b.effects).flatMap Effect.eventTimes := List.mem_flatMap.mpr ⟨x, hx, hy⟩
    rw [effectsDuring_events] at this
    obtain ⟨e, he, hy⟩ := List.mem_flatMap.mp (List.mem_of_mem_filter this)
    exact h.events e he y hy
  · refine lt_of_le_of_lt ?_ h.count
    show (effectsDuring live b.effects).length ≤ _
    unfold effectsDuring
    rw [List.length_map]
    exact List.length_filter_le _ _
  · exact hlast

/-! ### Experiences -/

theorem during_withBands (g old : Experience) (live : Int → Bool) : (g.during live).withBands old = g.withBands old := by
  unfold Experience.withBands Experience.during
  have : (g.perceptions.map (Perception.during live)).map Perception.withBands = g.perceptions.map Perception.withBands := by
    rw [List.map_map]
    refine List.map_congr_left fun p _ => ?_
    simp only [Function.comp, Perception.withBands, Perception.during, List.map_map]
    have : (Channel.withBands ∘ Channel.during live) = Channel.withBands := by
      funext c
      simp only [Function.comp, Channel.withBands, Channel.during, List.map_map]
      rfl
    rw [this]
    rfl
  dsimp only
  rw [this]
  rfl

theorem during_streams (g : Experience) (live : Int → Bool) : (g.during live).streams = g.streams := by
  unfold Experience.streams Experience.during
  congr 1
  simp only [List.flatMap_map, Perception.during, Channel.during, List.length_map]

/-- What happens at the times `live` in a band with an address. -/
def AddressedBand.during (live : Int → Bool) (x : AddressedBand) : AddressedBand := { x with band := x.band.during live }

theorem during_bandsOf (g : Experience) (live : Int → Bool) : bandsOf (g.during live) = (bandsOf g).map (AddressedBand.during live) := by
  rw [bandsOf_eq, bandsOf_eq]
  have h1 : triples (g.during live).perceptions = (triples g.perceptions).map
      (fun x => (x.1.during live, x.2.1.during live, x.2.2.during live)) := by
    simp only [triples, Experience.during, Perception.during, Channel.during, List.flatMap_map, List.map_flatMap, List.map_map]
    rfl
  rw [h1]
  generalize triples g.perceptions = l
  generalize 0 = n
  induction l generalizing n with
  | nil => rfl
  | cons x l ih =>
    rw [List.map_cons, numbered, numbered, List.map_cons, ih]
    rfl

theorem during_allBands (g : Experience) (live : Int → Bool) : (g.during live).allBands = g.allBands.map (Band.during live) := by
  simp only [Experience.allBands, Experience.during, Perception.during, Channel.during, List.flatMap_map, List.map_flatMap]

theorem StreamFits.during {d : Nat} {g : Experience} (hf : g.StreamFits d) (hk : g.Keyframed) (live : Int → Bool)
    (hlast : ∀ b ∈ g.allBands, ∀ e ∈ (effectsDuring live b.effects).getLast?, e.effectType = EffectType.Reference →
      ∀ m : Int, 0 < m → e.position ≠ m * d) : (g.during live).StreamFits d := by
  have hh := hf.header
  refine ⟨⟨hh.version, hh.profile, hh.level, hh.date, hh.description, hh.avatarCount, hh.avatars⟩, hf.timescale, hf.syncs,
    ?_, ?_, ?_, ?_⟩
  · intro q hq
    obtain ⟨p, hp, rfl⟩ := List.mem_map.mp hq
    have h := hf.perceptions p hp
    have hh := h.header
    refine ⟨⟨hh.id, hh.priority, hh.description, hh.modality, hh.avatarId, hh.scheme, hh.unitExponent,
      hh.perceptionUnitExponent, hh.deviceCount, hh.devices⟩, h.modality, h.libraryCount, h.library, ?_⟩
    intro x hx
    obtain ⟨c, hc, rfl⟩ := List.mem_map.mp hx
    have h2 := h.channels c hc
    have hh := h2.header
    refine ⟨⟨hh.id, hh.priority, hh.description, hh.referenceDeviceId, hh.bodyPartMask, hh.resolution,
      hh.bodyPartTargetCount, hh.bodyPartTarget, hh.actuatorTargetCount, hh.actuatorTarget, hh.frequencySampling,
      hh.sampleCount, hh.direction, hh.vertexCount, hh.vertices⟩, ?_⟩
    intro y hy
    obtain ⟨b, hb, rfl⟩ := List.mem_map.mp hy
    obtain ⟨h3, h4⟩ := h2.bands b hb
    refine ⟨⟨h3.bandType, h3.curveType, h3.blockLength, h3.priority, h3.low, h3.up⟩, .inl ?_⟩
    have hmem : b ∈ g.allBands := List.mem_flatMap.mpr ⟨p, hp, List.mem_flatMap.mpr ⟨c, hc, hb⟩⟩
    have hbt := hk b hmem
    rcases h4 with h4 | h4
    · exact h4.during live (hlast b hmem)
    · exact absurd h4.bandType hbt
  · have := hf.perceptionIds
    simp only [Experience.during, List.map_map] at this ⊢
    exact this
  · have := hf.channelIds
    simp only [Experience.channelIds, Experience.during, Perception.during, List.flatMap_map, List.map_map] at this ⊢
    exact this
  · have := hf.bandCount
    rw [during_allBands, List.length_map]
    exact this

theorem StreamFits.during_mono {d : Nat} {g : Experience} (hf : g.StreamFits d) (hk : g.Keyframed) {live : Int → Bool}
    (hlive : ∀ x y, x ≤ y → live x = true → live y = true) : (g.during live).StreamFits d := by
  refine StreamFits.during hf hk live fun b hb x hx hxt => ?_
  simp only [Experience.allBands, List.mem_flatMap] at hb
  obtain ⟨p, hp, c, hc, hb⟩ := hb
  rcases (((hf.perceptions p hp).channels c hc).bands b hb).2 with h | h
  · obtain ⟨e, he, rfl⟩ := effectsDuring_last hlive h.sequential hx
    rw [during_effectType] at hxt
    rw [during_position]
    exact h.last e he hxt
  · exact absurd h.bandType (hk b (List.mem_flatMap.mpr ⟨p, hp, List.mem_flatMap.mpr ⟨c, hc, hb⟩⟩))

theorem StreamFits.during_offGrid {d : Nat} {g : Experience} (hf : g.StreamFits d) (hk : g.Keyframed) (ho : g.OffGrid d)
    (live : Int → Bool) : (g.during live).StreamFits d := by
  refine StreamFits.during hf hk live fun b hb x hx hxt => ?_
  obtain ⟨e, he, rfl, -⟩ := effectsDuring_mem (List.mem_of_getLast? hx)
  rw [during_effectType] at hxt
  rw [during_position]
  exact ho b hb e he hxt

theorem allSendings_during {d : Nat} {live : Int → Bool} {xs : List AddressedBand}
    (hk : ∀ x ∈ xs, x.band.bandType ≠ BandType.WaveletWave)
    (h : ∀ o ∈ allSendings d xs, (∀ x, o.2.1 ≤ x → x < o.2.1 + d → live x = false) ∨
      ∀ x, o.2.1 ≤ x → x < o.2.1 + d → live x = true) :
    allSendings d (xs.map (AddressedBand.during live)) =
      ((allSendings d xs).filter (fun o => live o.2.1)).map (fun o => (o.1.during live, o.2)) := by
  unfold allSendings at *
  induction xs with
  | nil => rfl
  | cons x xs ih =>
    rw [List.map_cons, List.flatMap_cons, List.flatMap_cons, List.filter_append, List.map_append,
      ih (fun y hy => hk y (List.mem_cons_of_mem _ hy)) (fun o ho => h o (by
        rw [List.flatMap_cons]; exact List.mem_append_right _ ho))]
    congr 1
    have hx := hk x (by simp)
    have hx' : (AddressedBand.during live x).band.bandType ≠ BandType.WaveletWave := hx
    have hw : ∀ w ∈ sendings d x.band.effects, (∀ x, w.1 ≤ x → x < w.1 + (d : Int) → live x = false) ∨
        ∀ x, w.1 ≤ x → x < w.1 + (d : Int) → live x = true := by
      intro w hw
      refine h (x, w) ?_
      rw [List.flatMap_cons]
      refine List.mem_append_left _ (List.mem_map_of_mem ?_)
      rw [bandSendings, if_neg hx]
      exact hw
    rw [bandSendings, if_neg hx', bandSendings, if_neg hx, List.filter_map, List.map_map]
    have e1 : (AddressedBand.during live x).band.effects = effectsDuring live x.band.effects := by
      unfold AddressedBand.during
      dsimp only
      rw [Band.during_of_keyframes hx]
    rw [e1]
    unfold sendings at hw ⊢
    rw [packetsOf_during _ _ _ _ _ hw]
    rfl

end Haptics
