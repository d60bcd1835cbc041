import Verif.Json.FileLemmas

/-!
C71: what comes back from a `.hjif` file.
-/

namespace Haptics.Json
open Haptics

/-! ### What is kept is everything if and only if the experience is storable -/

theorem map_fix {α : Type} (f : α → α) (l : List α) : l.map f = l ↔ ∀ a ∈ l, f a = a := by
  induction l with
  | nil => simp
  | cons a l ih => simp [ih]

theorem takeWhile_fix {α : Type} (p : α → Bool) (l : List α) : l.takeWhile p = l ↔ ∀ a ∈ l, p a = true := by
  induction l with
  | nil => simp
  | cons a l ih =>
    rw [List.takeWhile_cons]
    by_cases h : p a = true
    · rw [if_pos h]; simp [h, ih]
    · rw [if_neg h]; simp [h]

theorem keptText_iff (s : Str) : keptText s = s ↔ NoZero s := by
  unfold keptText NoZero
  rw [takeWhile_fix]
  constructor
  · intro h h0; simpa using h 0 h0
  · intro h a ha; simp only [ne_eq, decide_not, Bool.not_eq_eq_eq_not, Bool.not_true, decide_eq_false_iff_not]
    rintro rfl; exact h ha

theorem keptText_opt (o : Option Str) : o.map keptText = o ↔ ∀ s ∈ o, NoZero s := by
  cases o with
  | none => simp
  | some s => simp [keptText_iff]

theorem keptKeyword_iff (s : String) : keptKeyword s = s ↔ Char.ofNat 0 ∉ s.toList := by
  unfold keptKeyword
  have : String.ofList (s.toList.takeWhile (fun c => decide (c ≠ Char.ofNat 0))) = s ↔
      s.toList.takeWhile (fun c => decide (c ≠ Char.ofNat 0)) = s.toList := by
    constructor
    · intro h
      have := congrArg String.toList h
      simpa using this
    · intro h; rw [h]; simp
  rw [this, takeWhile_fix]
  constructor
  · intro h h0; simpa using h _ h0
  · intro h a ha; simp only [ne_eq, decide_not, Bool.not_eq_eq_eq_not, Bool.not_true, decide_eq_false_iff_not]
    rintro rfl; exact h ha

theorem keptKeyword_opt (o : Option String) : o.map keptKeyword = o ↔ ∀ s ∈ o, Char.ofNat 0 ∉ s.toList := by
  cases o with
  | none => simp
  | some s => simp [keptKeyword_iff]

theorem withoutFinalZeros_iff (l : List UInt8) : withoutFinalZeros l = l ↔ l.getLast? ≠ some 0 := by
  unfold withoutFinalZeros
  have h : (l.reverse.dropWhile (· == 0)).reverse = l ↔ l.reverse.dropWhile (· == 0) = l.reverse := by
    constructor
    · intro h; rw [← List.reverse_reverse (List.dropWhile _ _), h]
    · intro h; rw [h, List.reverse_reverse]
  rw [h, List.getLast?_eq_head?_reverse]
  cases l.reverse with
  | nil => simp
  | cons a r =>
    rw [List.dropWhile_cons]
    by_cases ha : a = 0
    · subst ha
      simp only [beq_self_eq_true, if_true, List.head?_cons, ne_eq, not_true, iff_false]
      intro hc
      have := congrArg List.length hc
      have h2 := (List.dropWhile_sublist (· == (0 : UInt8)) (l := r)).length_le
      rw [List.length_cons] at this
      omega
    · simp [ha]

theorem keptLibraryEffect_iff (f : Effect) : keptLibraryEffect f = f ↔ StorableLibraryEffect f := by
  have hs := keptKeyword_opt f.semantic
  cases f with
  | mk id position phase semantic keyframes baseSignal effectType timeline payload =>
    simp only [keptLibraryEffect, Effect.mk.injEq, true_and, and_true] at hs ⊢
    rw [hs]
    constructor
    · rintro ⟨h1, h2, h3⟩; exact ⟨h1, h2.symm, h3.symm⟩
    · rintro ⟨h1, h2, h3⟩; exact ⟨h1, h2.symm, h3.symm⟩

theorem keptEffect_iff {n : Nat} (hn : n < 4) (f : Effect) (hf : f.effectType < 3) :
    keptEffect n f = f ↔ StorableEffect n f := by
  have hs := keptKeyword_opt f.semantic
  have hw := withoutFinalZeros_iff f.waveletBitstream
  cases f with
  | mk id position phase semantic keyframes baseSignal effectType timeline payload =>
    simp only at hs hw hf
    have hty : effectType = 0 ∨ effectType = 1 ∨ effectType = 2 := by omega
    have hb : n = 0 ∨ n = 1 ∨ n = 2 ∨ n = 3 := by omega
    have key : StorableEffect n ⟨id, position, phase, semantic, keyframes, baseSignal, effectType, timeline, payload⟩ ↔
        (semantic.map keptKeyword = semantic ∧ (effectType ≠ 1 → id = -1) ∧ timeline = [] ∧
        (¬ (effectType = 0 ∧ (n = 0 ∨ n = 2)) → phase = none ∧ baseSignal = none) ∧
        (¬ (effectType = 0 ∧ n ≠ 3) → keyframes = []) ∧ (¬ (effectType = 0 ∧ n = 3) → payload = []) ∧
        withoutFinalZeros payload = payload) := by
      rw [hs, hw]
      constructor
      · rintro ⟨a, b, c, d, e, f, g⟩; exact ⟨a, b, c, d, e, f, g⟩
      · rintro ⟨a, b, c, d, e, f, g⟩; exact ⟨a, b, c, d, e, f, g⟩
    rw [key]
    have hnil : withoutFinalZeros [] = [] := rfl
    rcases hty with rfl | rfl | rfl <;> rcases hb with rfl | rfl | rfl | rfl <;>
      simp only [keptEffect, EffectType.Basis, EffectType.Reference, EffectType.Composite, BandType.WaveletWave,
        BandType.Curve, Effect.mk.injEq] <;> simp <;> grind

theorem keptBand_iff {b : Band} (h : BandTyped b) : keptBand b = b ↔ StorableBand b := by
  have he : b.effects.map (keptEffect b.bandType) = b.effects ↔ ∀ f ∈ b.effects, StorableEffect b.bandType f := by
    rw [map_fix]
    exact forall₂_congr (fun f hf => keptEffect_iff h.bandType f (h.effects f hf).effectType)
  have key : StorableBand b ↔ ((b.bandType ≠ 1 → b.curveType = none) ∧
      (b.blockLength.isSome ∧ (b.bandType ≠ 3 → b.blockLength = some 0)) ∧
      b.effects.map (keptEffect b.bandType) = b.effects) := by
    rw [he]
    constructor
    · rintro ⟨a, b, c⟩; exact ⟨a, b, c⟩
    · rintro ⟨a, b, c⟩; exact ⟨a, b, c⟩
  rw [key]
  clear key he h
  cases b with
  | mk bandType curveType blockLength lower upper effects priority =>
    simp only [keptBand, BandType.Curve, BandType.WaveletWave, Band.mk.injEq, true_and, and_true]
    cases blockLength <;> grind

theorem keptChannel_iff {c : Channel} (h : ChannelTyped c) : keptChannel c = c ↔ StorableChannel c := by
  have he : c.bands.map keptBand = c.bands ↔ ∀ b ∈ c.bands, StorableBand b := by
    rw [map_fix]
    exact forall₂_congr (fun b hb => keptBand_iff (h.bands b hb))
  have key : keptChannel c = c ↔ (keptText c.description = c.description ∧ c.bands.map keptBand = c.bands) := by
    cases c; simp [keptChannel]
  rw [key, he, keptText_iff]
  exact ⟨fun h => ⟨h.1, h.2⟩, fun h => ⟨h.1, h.2⟩⟩

theorem keptPerception_iff {p : Perception} (h : PerceptionTyped p) : keptPerception p = p ↔ StorablePerception p := by
  have hc : p.channels.map keptChannel = p.channels ↔ ∀ c ∈ p.channels, StorableChannel c := by
    rw [map_fix]
    exact forall₂_congr (fun c hc => keptChannel_iff (h.channels c hc))
  have hd : p.referenceDevices.map keptDevice = p.referenceDevices ↔ ∀ d ∈ p.referenceDevices, NoZero d.name := by
    rw [map_fix]
    refine forall₂_congr (fun d _ => ?_)
    rw [← keptText_iff]
    cases d; simp [keptDevice]
  have hl : p.effectLibrary.map keptLibraryEffect = p.effectLibrary ↔
      ∀ f ∈ p.effectLibrary, StorableLibraryEffect f := by
    rw [map_fix]
    exact forall₂_congr (fun f _ => keptLibraryEffect_iff f)
  have key : keptPerception p = p ↔ (keptText p.description = p.description ∧
      p.effectSemanticScheme.map keptText = p.effectSemanticScheme ∧ p.channels.map keptChannel = p.channels ∧
      p.referenceDevices.map keptDevice = p.referenceDevices ∧
      p.effectLibrary.map keptLibraryEffect = p.effectLibrary) := by
    cases p; simp [keptPerception]
  rw [key, hc, hd, hl, keptText_iff, keptText_opt]
  exact ⟨fun ⟨a, b, c, d, e⟩ => ⟨a, b, c, d, e⟩, fun ⟨a, b, c, d, e⟩ => ⟨a, b, c, d, e⟩⟩

theorem keptAvatar_iff (a : Avatar) :
    keptAvatar a = a ↔ (a.type ≠ 0 → a.mesh = none) ∧ ∀ m ∈ a.mesh, NoZero m := by
  rw [← keptText_opt]
  cases a with
  | mk id lod type mesh =>
    simp only [keptAvatar, Avatar.mk.injEq, true_and]
    by_cases h : type = 0
    · simp [h]
    · rw [if_neg h]
      constructor
      · rintro rfl; simp
      · rintro ⟨h1, -⟩; exact (h1 h).symm

theorem keptSync_iff (s : Sync) : keptSync s = s ↔ s.timescale.isSome := by
  cases s with
  | mk a b => cases b <;> simp [keptSync]

/-- For a conformant experience. -/
theorem kept_iff (now : Str) {e : Experience} (h : Typed e) (hc : Conformant e) (ht : e.timescale.isSome) :
    kept now e = e ↔ Storable e := by
  have ha : e.avatars.map keptAvatar = e.avatars ↔
      ∀ a ∈ e.avatars, (a.type ≠ 0 → a.mesh = none) ∧ ∀ m ∈ a.mesh, NoZero m := by
    rw [map_fix]
    exact forall₂_congr (fun a _ => keptAvatar_iff a)
  have hp : e.perceptions.map keptPerception = e.perceptions ↔ ∀ p ∈ e.perceptions, StorablePerception p := by
    rw [map_fix]
    exact forall₂_congr (fun p hp => keptPerception_iff (h.perceptions p hp))
  have hs : e.syncs.map keptSync = e.syncs ↔ ∀ s ∈ e.syncs, s.timescale.isSome := by
    rw [map_fix]
    exact forall₂_congr (fun s _ => keptSync_iff s)
  have key : kept now e = e ↔ (keptText e.profile = e.profile ∧ keptText e.date = e.date ∧
      keptText e.description = e.description ∧ e.avatars.map keptAvatar = e.avatars ∧
      e.perceptions.map keptPerception = e.perceptions ∧ e.syncs.map keptSync = e.syncs) := by
    unfold kept
    rw [if_pos hc.version, if_pos hc.date]
    cases e; simp; tauto
  rw [key, ha, hp, hs, keptText_iff, keptText_iff, keptText_iff]
  exact ⟨fun ⟨a, b, c, d, f, g⟩ => ⟨hc.version, ⟨hc.date, b⟩, a, c, ht, d, f, g⟩,
    fun ⟨_, b, a, c, _, d, f, g⟩ => ⟨a, b.2, c, d, f, g⟩⟩

/-! ### The property -/

theorem kept_blocks (now : Str) {e : Experience} (h : Typed e) : BlockLengthsFit (kept now e) := by
  intro p hp c hc b hb n hn
  simp only [kept, List.mem_map] at hp
  obtain ⟨p', hp', rfl⟩ := hp
  simp only [keptPerception, List.mem_map] at hc
  obtain ⟨c', hc', rfl⟩ := hc
  simp only [keptChannel, List.mem_map] at hb
  obtain ⟨b', hb', rfl⟩ := hb
  have ht := (((h.perceptions p' hp').channels c' hc').bands b' hb').blockLength
  simp only [keptBand] at hn
  split at hn
  · cases hbl : b'.blockLength with
    | none => rw [hbl] at hn; simp at hn; omega
    | some i => rw [hbl] at hn; have := ht i hbl; simp at hn; omega
  · simp at hn; omega

/-- **C71.** An experience written to a `.hjif` file can be read back if it has a timescale and what the file
keeps of it is conformant; then reading gives just what the file keeps. -/
theorem c71_kept (schema : Json → Bool) (now : Str) (e : Experience) (h : Typed e) :
    ∃ j, writeTree now e = .ok j ∧ (schema j = true → ∀ e',
      loadTree schema j = .ok e' ↔ e.timescale.isSome ∧ Conformant (kept now e) ∧ e' = kept now e) := by
  obtain ⟨j, h1, h2⟩ := load_written schema now e h
  refine ⟨j, h1, fun hs e' => ?_⟩
  rw [h2 hs, ← c34_iff _ (kept_blocks now h)]
  split
  · next hc =>
    constructor
    · intro he; exact ⟨hc.1, hc.2, (Except.ok.inj he).symm⟩
    · rintro ⟨-, -, rfl⟩; rfl
  · next hc =>
    constructor
    · intro he; cases he
    · rintro ⟨ha, hb, -⟩; exact absurd ⟨ha, hb⟩ hc

/-- **C71.** A conformant experience comes back from a `.hjif` file as it was if and only if it is storable. -/
theorem c71_iff (schema : Json → Bool) (now : Str) (e : Experience) (h : Typed e) (hc : Conformant e) :
    ∃ j, writeTree now e = .ok j ∧ (schema j = true → (loadTree schema j = .ok e ↔ Storable e)) := by
  obtain ⟨j, h1, h2⟩ := c71_kept schema now e h
  refine ⟨j, h1, fun hs => ?_⟩
  rw [h2 hs]
  constructor
  · rintro ⟨ha, -, hb⟩
    exact (kept_iff now h hc ha).mp hb.symm
  · intro hst
    have := (kept_iff now h hc hst.timescale).mpr hst
    exact ⟨hst.timescale, by rw [this]; exact hc, this.symm⟩

/-- **C71.** Without a timescale no file that can be read is written, although such an experience is conformant
and the default is used for it everywhere else. -/
theorem c71_timescale_negation (schema : Json → Bool) (now : Str) (e : Experience) (h : Typed e)
    (ht : e.timescale = none) : ∃ j, writeTree now e = .ok j ∧ loadTree schema j = .error .fail := by
  obtain ⟨j, h1, h2⟩ := load_written schema now e h
  refine ⟨j, h1, ?_⟩
  by_cases hs : schema j = true
  · rw [h2 hs, ht]; simp
  · unfold loadTree
    simp [hs]

/-! ### What any file gives -/

theorem collect_mem {α : Type} {f : Json → Except Err (Option α)} {l : List Json} {r : List α}
    (h : collect f l = .ok r) : ∀ a ∈ r, ∃ j, f j = .ok (some a) := by
  induction l generalizing r with
  | nil => cases h; simp
  | cons j l ih =>
    rw [collect] at h
    cases hj : f j with
    | error e => rw [hj] at h; cases h
    | ok o =>
      rw [hj] at h
      cases hl : collect f l with
      | error e => rw [hl] at h; cases h
      | ok rs =>
        rw [hl] at h
        have h := Except.ok.inj h
        cases o with
        | none => subst h; exact ih hl
        | some b =>
          subst h
          intro a ha
          rcases List.mem_cons.mp ha with rfl | ha
          · exact ⟨j, hj⟩
          · exact ih hl a ha

theorem bind_ok {α β : Type} {x : Except Err α} {f : α → Except Err β} {b : β} (h : (x >>= f) = .ok b) :
    ∃ a, x = .ok a ∧ f a = .ok b := by
  cases x with
  | error e => cases h
  | ok a => exact ⟨a, rfl, h⟩

theorem library_loaded {j : Json} {f : Effect} (h : loadLibraryEffect j = .ok (some f)) : f.timeline = [] := by
  unfold loadLibraryEffect at h
  split at h
  · cases h
  · obtain ⟨ty, -, h⟩ := bind_ok h
    split at h
    · cases h
    · obtain ⟨_, -, h⟩ := bind_ok h
      obtain ⟨_, -, h⟩ := bind_ok h
      obtain ⟨_, -, h⟩ := bind_ok h
      dsimp only at h
      split at h
      · obtain ⟨_, -, h⟩ := bind_ok h
        rw [← Option.some.inj (Except.ok.inj h)]
      · obtain ⟨_, -, h⟩ := bind_ok h
        obtain ⟨_, -, h⟩ := bind_ok h
        rw [← Option.some.inj (Except.ok.inj h)]

theorem effect_loaded {n : Nat} {j : Json} {f : Effect} (h : loadEffect n j = .ok (some f)) : f.timeline = [] := by
  unfold loadEffect at h
  split at h
  · cases h
  · obtain ⟨ty, -, h⟩ := bind_ok h
    split at h
    · cases h
    · obtain ⟨_, -, h⟩ := bind_ok h
      obtain ⟨_, -, h⟩ := bind_ok h
      dsimp only at h
      split at h <;> obtain ⟨_, -, h⟩ := bind_ok h <;> split at h <;> obtain ⟨_, -, h⟩ := bind_ok h <;>
        rw [← Option.some.inj (Except.ok.inj h)]

theorem mem_insertEffect {x new : Effect} {l : List Effect} (h : x ∈ insertEffect new l) : x = new ∨ x ∈ l := by
  induction l with
  | nil => rw [insertEffect] at h; left; simpa using h
  | cons e l ih =>
    rw [insertEffect] at h
    split at h
    · simpa using h
    · rcases List.mem_cons.mp h with rfl | h
      · simp
      · rcases ih h with rfl | h <;> simp [*]

theorem insertEffect_ordered {new : Effect} {l : List Effect}
    (h : l.Pairwise (fun f g => f.position ≤ g.position)) :
    (insertEffect new l).Pairwise (fun f g => f.position ≤ g.position) := by
  induction l with
  | nil => simp [insertEffect]
  | cons e l ih =>
    rw [insertEffect]
    rw [List.pairwise_cons] at h
    split
    · next hp =>
      rw [List.pairwise_cons, List.pairwise_cons]
      refine ⟨?_, h⟩
      intro x hx
      rcases List.mem_cons.mp hx with rfl | hx
      · omega
      · have := h.1 x hx; omega
    · next hp =>
      rw [List.pairwise_cons]
      refine ⟨?_, ih h.2⟩
      intro x hx
      rcases mem_insertEffect hx with rfl | hx
      · omega
      · exact h.1 x hx

theorem addEffects_spec (l : List Effect) : ∀ b : Band,
    (∀ x ∈ (l.foldl Band.addEffect b).effects, x ∈ l ∨ x ∈ b.effects) ∧
    (b.effects.Pairwise (fun f g => f.position ≤ g.position) →
      (l.foldl Band.addEffect b).effects.Pairwise (fun f g => f.position ≤ g.position)) := by
  induction l with
  | nil => intro b; exact ⟨fun x hx => .inr hx, id⟩
  | cons e l ih =>
    intro b
    rw [List.foldl_cons]
    obtain ⟨h1, h2⟩ := ih (b.addEffect e)
    refine ⟨fun x hx => ?_, fun hb => h2 (insertEffect_ordered hb)⟩
    rcases h1 x hx with h | h
    · left; simp [h]
    · rcases mem_insertEffect h with rfl | h
      · left; simp
      · right; exact h

theorem band_loaded {j : Json} {b : Band} (h : loadBand j = .ok (some b)) :
    (∀ f ∈ b.effects, f.timeline = []) ∧ b.effects.Pairwise (fun f g => f.position ≤ g.position) := by
  unfold loadBand at h
  split at h
  · split at h
    · cases h
    · obtain ⟨ty, -, h⟩ := bind_ok h
      obtain ⟨_, -, h⟩ := bind_ok h
      obtain ⟨l, hl, h⟩ := bind_ok h
      have := Option.some.inj (Except.ok.inj h)
      rw [← this]
      obtain ⟨h1, h2⟩ := addEffects_spec l _
      refine ⟨fun f hf => ?_, h2 (by simp)⟩
      rcases h1 f hf with hf | hf
      · obtain ⟨j', hj'⟩ := collect_mem hl f hf
        exact effect_loaded hj'
      · simp at hf
  · cases h

theorem channel_loaded {j : Json} {c : Channel} (h : loadChannel j = .ok (some c)) :
    ∀ b ∈ c.bands, ∃ j, loadBand j = .ok (some b) := by
  unfold loadChannel at h
  split at h
  · obtain ⟨ty, -, h⟩ := bind_ok h
    obtain ⟨_, -, h⟩ := bind_ok h
    obtain ⟨l, hl, h⟩ := bind_ok h
    have := Option.some.inj (Except.ok.inj h)
    rw [← this]
    exact collect_mem hl
  · cases h

theorem perception_loaded {j : Json} {p : Perception} (h : loadPerception j = .ok (some p)) :
    (∀ c ∈ p.channels, ∃ j, loadChannel j = .ok (some c)) ∧
      ∀ f ∈ p.effectLibrary, ∃ j, loadLibraryEffect j = .ok (some f) := by
  unfold loadPerception at h
  split at h
  · obtain ⟨ty, -, h⟩ := bind_ok h
    obtain ⟨l, hl, h⟩ := bind_ok h
    obtain ⟨l', hl', h⟩ := bind_ok h
    obtain ⟨_, -, h⟩ := bind_ok h
    have := Option.some.inj (Except.ok.inj h)
    rw [← this]
    exact ⟨collect_mem hl', collect_mem hl⟩
  · cases h

theorem experience_loaded {schema : Json → Bool} {j : Json} {e : Experience} (h : loadTree schema j = .ok e) :
    (∀ p ∈ e.perceptions, ∃ j, loadPerception j = .ok (some p)) ∧ checkExperience e = true := by
  unfold loadTree at h
  split at h
  · cases h
  split at h
  · cases h
  split at h
  · cases h
  unfold loadExperience at h
  obtain ⟨_, -, h⟩ := bind_ok h
  obtain ⟨_, -, h⟩ := bind_ok h
  obtain ⟨_, -, h⟩ := bind_ok h
  obtain ⟨_, -, h⟩ := bind_ok h
  obtain ⟨_, -, h⟩ := bind_ok h
  obtain ⟨_, -, h⟩ := bind_ok h
  obtain ⟨l, hl, h⟩ := bind_ok h
  obtain ⟨_, -, h⟩ := bind_ok h
  dsimp only at h
  split at h
  · next hc =>
    have := Except.ok.inj h
    rw [← this]
    exact ⟨collect_mem hl, hc⟩
  · cases h

/-- **C71.** Timelines of composite effects do not come back, from whatever file. -/
theorem c71_timeline_negation (schema : Json → Bool) (j : Json) (e : Experience) (h : loadTree schema j = .ok e) :
    ∀ p ∈ e.perceptions, (∀ f ∈ p.effectLibrary, f.timeline = []) ∧
      ∀ c ∈ p.channels, ∀ b ∈ c.bands, ∀ f ∈ b.effects, f.timeline = [] := by
  intro p hp
  obtain ⟨jp, hjp⟩ := (experience_loaded h).1 p hp
  refine ⟨fun f hf => ?_, fun c hc b hb => ?_⟩
  · obtain ⟨jf, hjf⟩ := (perception_loaded hjp).2 f hf
    exact library_loaded hjf
  · obtain ⟨jc, hjc⟩ := (perception_loaded hjp).1 c hc
    obtain ⟨jb, hjb⟩ := channel_loaded hjc b hb
    exact (band_loaded hjb).1

/-- **C71.** In an experience read from whatever file, the effects of a band are in the order of their positions,
and the conformance check of C34 holds. -/
theorem c71_loaded (schema : Json → Bool) (j : Json) (e : Experience) (h : loadTree schema j = .ok e) :
    checkExperience e = true ∧ ∀ p ∈ e.perceptions, ∀ c ∈ p.channels, ∀ b ∈ c.bands,
      b.effects.Pairwise (fun f g => f.position ≤ g.position) := by
  refine ⟨(experience_loaded h).2, fun p hp c hc b hb => ?_⟩
  obtain ⟨jp, hjp⟩ := (experience_loaded h).1 p hp
  obtain ⟨jc, hjc⟩ := (perception_loaded hjp).1 c hc
  obtain ⟨jb, hjb⟩ := channel_loaded hjc b hb
  exact (band_loaded hjb).2

/-! ### Examples -/

/-- Samples of the parts of an experience. -/
def fileDevice : ReferenceDevice :=
  { id := 7, name := text "motor", minimumFrequency := some 10, maximumFrequency := some 1000, type := some 2
    weight := some (1 / 4) }
def fileLibraryEffect : Effect := { id := 5, phase := some (1 / 2), baseSignal := some 1, keyframes := [{}] }
def fileReference : Effect := { id := 5, position := 10, effectType := 1, semantic := some "UX/Click" }
def fileBasis (i : Int) : Effect :=
  { id := i, position := 20, baseSignal := some 3
    keyframes := [{ relativePosition := some 4, amplitudeModulation := some (3 / 4), frequencyModulation := some 60 }] }
def fileWave : Effect := { position := 0, waveletBitstream := [1, 0, 200] }
def fileBand (i : Int) : Band := { upperFrequencyLimit := 100, effects := [fileReference, fileBasis i], priority := some 2 }
def fileWavelet : Band :=
  { bandType := 3, blockLength := some 128, upperFrequencyLimit := 8000, effects := [fileWave] }
def fileChannel (i : Int) : Channel :=
  { id := 0, description := text "left", referenceDeviceId := some 7, direction := some ⟨127, 0, 0⟩
    gain := 3 / 2, bodyPartMask := 5, bodyPartTarget := some [10, 254], bands := [fileBand i, fileWavelet] }
def filePerception (i : Int) : Perception :=
  { id := 3, avatarId := 1, perceptionModality := 6, referenceDevices := [fileDevice]
    effectLibrary := [fileLibraryEffect], channels := [fileChannel i] }
def fileSample (i : Int) : Experience :=
  { version := text "2023", date := text "2024-05-06", description := text "demo"
    avatars := [{ id := 1, mesh := some (text "a.obj") }], perceptions := [filePerception i]
    syncs := [{ timestamp := 500 }] }

theorem fileKeyframe_typed (i : Int) (q : Option ℚ) (f : Option Int) (hi : Int32 i) (hq : ∀ x ∈ q, IsFloat x)
    (hf : ∀ x ∈ f, Int32 x) : KeyframeTyped ⟨some i, q, f⟩ :=
  ⟨fun j hj => by cases hj; exact hi, hq, hf⟩

theorem isFloat_nat (n : Nat) (h : n < 2 ^ 24) (k : Nat) (hk : k < 100) : IsFloat ((n : ℚ) / 2 ^ k) := by
  refine ⟨n, -k, by simpa using h, by omega, by omega, ?_⟩
  rw [zpow_neg, zpow_natCast]
  push_cast
  rw [div_eq_mul_inv]

theorem fileSample_typed (i : Int) (hi : Int32 i) : Typed (fileSample i) := by
  have q0 : IsFloat 10 := by simpa using isFloat_nat 10 (by norm_num) 0 (by norm_num)
  have q1 : IsFloat 1000 := by simpa using isFloat_nat 1000 (by norm_num) 0 (by norm_num)
  have q2 : IsFloat (1 / 4) := by have := isFloat_nat 1 (by norm_num) 2 (by norm_num); norm_num at this ⊢; exact this
  have q3 : IsFloat (1 / 2) := by have := isFloat_nat 1 (by norm_num) 1 (by norm_num); norm_num at this ⊢; exact this
  have q4 : IsFloat (3 / 4) := by have := isFloat_nat 3 (by norm_num) 2 (by norm_num); norm_num at this ⊢; exact this
  have q5 : IsFloat (3 / 2) := by have := isFloat_nat 3 (by norm_num) 1 (by norm_num); norm_num at this ⊢; exact this
  have q6 : IsFloat 1 := by simpa using isFloat_nat 1 (by norm_num) 0 (by norm_num)
  have hlib : EffectTyped fileLibraryEffect := by
    constructor <;> simp [fileLibraryEffect, Int32]
    · simpa using q3
    · constructor <;> simp [Int32]
  have href : EffectTyped fileReference := by
    constructor <;> simp [fileReference, Int32, ByteText]
  have hbas : EffectTyped (fileBasis i) := by
    constructor <;> simp [fileBasis, Int32]
    · exact hi
    constructor <;> simp [Int32, q4]
  have hwav : EffectTyped fileWave := by
    constructor <;> simp [fileWave, Int32]
  have hb1 : BandTyped (fileBand i) := by
    constructor <;> simp [fileBand, Int32, href, hbas]
    · decide
    · exact (by decide : (10 : Int) ≤ 20)
  have hb2 : BandTyped fileWavelet := by
    constructor <;> simp [fileWavelet, Int32, hwav]
  have hc : ChannelTyped (fileChannel i) := by
    constructor <;> simp [fileChannel, Int32, Uint32, q5, q6, hb1, hb2, bodyParts]
    constructor <;> simp [Int8]
  have hd : DeviceTyped fileDevice := by
    constructor <;> simp [fileDevice, Int32, q0, q1]
    simpa using q2
  have hp : PerceptionTyped (filePerception i) := by
    constructor <;> simp [filePerception, Int32, hlib, hd, hc]
  constructor <;> simp [fileSample, Int32, Uint32, hp]
  constructor <;> simp [Int32]

theorem fileSample_conformant (i : Int) (hi : i = -1 ∨ i = 9) : Conformant (fileSample i) := by
  rw [← c34_iff]
  · rcases hi with rfl | rfl <;> decide +kernel
  · intro p hp c hc b hb n hn
    simp [fileSample] at hp
    subst hp
    simp [filePerception] at hc
    subst hc
    simp [fileChannel] at hb
    rcases hb with rfl | rfl <;> simp [fileBand, fileWavelet] at hn <;> subst hn <;> norm_num

theorem fileSample_storable : Storable (fileSample (-1)) := by
  have hc := fileSample_conformant (-1) (.inl rfl)
  have z : ∀ s : Str, s.all (· != 0) = true → NoZero s := by
    intro s h h0
    simpa using List.all_eq_true.mp h 0 h0
  refine ⟨hc.version, ⟨hc.date, z _ (by decide +kernel)⟩, z _ (by decide +kernel), z _ (by decide +kernel), rfl,
    ?_, ?_, ?_⟩
  · simp only [fileSample, List.mem_singleton, forall_eq]
    exact ⟨fun h => absurd rfl h, fun m hm => by cases hm; exact z _ (by decide +kernel)⟩
  · simp only [fileSample, List.mem_singleton, forall_eq]
    constructor
    · exact z _ (by decide +kernel)
    · simp [filePerception]
    · simp only [filePerception, List.mem_singleton, forall_eq]
      refine ⟨z _ (by decide +kernel), ?_⟩
      simp only [fileChannel, List.mem_cons, List.not_mem_nil, or_false]
      rintro b (rfl | rfl)
      · refine ⟨by simp [fileBand], by simp [fileBand], ?_⟩
        simp only [fileBand, List.mem_cons, List.not_mem_nil, or_false]
        rintro f (rfl | rfl)
        · constructor <;> simp [fileReference]
        · constructor <;> simp [fileBasis]
      · refine ⟨by simp [fileWavelet], by simp [fileWavelet], ?_⟩
        simp only [fileWavelet, List.mem_cons, List.not_mem_nil, or_false]
        rintro f rfl
        constructor <;> simp [fileWave]
    · simp only [filePerception, List.mem_singleton, forall_eq]
      exact z _ (by decide +kernel)
    · simp only [filePerception, List.mem_singleton, forall_eq]
      constructor <;> simp [fileLibraryEffect]
  · simp [fileSample]

/-- The sample comes back. -/
example (schema : Json → Bool) (now : Str) : ∃ j, writeTree now (fileSample (-1)) = .ok j ∧
    (schema j = true → loadTree schema j = .ok (fileSample (-1))) := by
  obtain ⟨j, h1, h2⟩ := c71_iff schema now _ (fileSample_typed (-1) (by simp [Int32])) (fileSample_conformant _ (.inl rfl))
  exact ⟨j, h1, fun hs => (h2 hs).mpr fileSample_storable⟩

/-- **C71 (identifiers).** The identifier of an effect that is not a reference is lost: no conformant experience
with one in a band comes back as it was. -/
theorem c71_id_negation (schema : Json → Bool) (now : Str) (e : Experience) (h : Typed e) (hc : Conformant e)
    (p : Perception) (hp : p ∈ e.perceptions) (c : Channel) (hc' : c ∈ p.channels) (b : Band) (hb : b ∈ c.bands)
    (f : Effect) (hf : f ∈ b.effects) (ht : f.effectType ≠ EffectType.Reference) (hi : f.id ≠ -1) :
    ∃ j, writeTree now e = .ok j ∧ (schema j = true → loadTree schema j ≠ .ok e) := by
  obtain ⟨j, h1, h2⟩ := c71_iff schema now e h hc
  refine ⟨j, h1, fun hs hl => hi ?_⟩
  exact ((((((h2 hs).mp hl).perceptions p hp).channels c hc').bands b hb).effects f hf).id ht

example : ∃ e, Typed e ∧ Conformant e ∧ ∃ p ∈ e.perceptions, ∃ c ∈ p.channels, ∃ b ∈ c.bands, ∃ f ∈ b.effects,
    f.effectType ≠ EffectType.Reference ∧ f.id ≠ -1 :=
  ⟨fileSample 9, fileSample_typed 9 (by simp [Int32]), fileSample_conformant 9 (.inr rfl), _, .head _, _, .head _, _,
    .head _, fileBasis 9, .tail _ (.head _), by decide, by decide⟩

/-- **C71 (avatars).** Nor one with an avatar that has a mesh but is not custom. -/
theorem c71_mesh_negation (schema : Json → Bool) (now : Str) (e : Experience) (h : Typed e) (hc : Conformant e)
    (a : Avatar) (ha : a ∈ e.avatars) (ht : a.type ≠ 0) (hm : a.mesh.isSome) :
    ∃ j, writeTree now e = .ok j ∧ (schema j = true → loadTree schema j ≠ .ok e) := by
  obtain ⟨j, h1, h2⟩ := c71_iff schema now e h hc
  refine ⟨j, h1, fun hs hl => ?_⟩
  have := (((h2 hs).mp hl).avatars a ha).1 ht
  rw [this] at hm
  cases hm

example : ∃ e, Typed e ∧ Conformant e ∧ ∃ a ∈ e.avatars, a.type ≠ 0 ∧ a.mesh.isSome := by
  refine ⟨{ fileSample (-1) with avatars := [{ id := 1, type := 2, mesh := some (text "a.obj") }] }, ?_, ?_, ?_⟩
  · have h := fileSample_typed (-1) (by simp [Int32])
    exact ⟨h.level, h.timescale, by simp; constructor <;> simp [Int32], h.perceptions, h.syncs⟩
  · rw [← c34_iff]
    · decide +kernel
    · intro p hp c hc b hb n hn
      simp [fileSample] at hp
      subst hp
      simp [filePerception] at hc
      subst hc
      simp [fileChannel] at hb
      rcases hb with rfl | rfl <;> simp [fileBand, fileWavelet] at hn <;> subst hn <;> norm_num
  · exact ⟨_, .head _, by decide, rfl⟩

end Haptics.Json
