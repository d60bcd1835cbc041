import Verif.Main.Transcoded
import Verif.Main.PropsAccepted
import Verif.Types.DecEq
import Verif.Stream.PropsResend
import Verif.Stream.PropsSizes

/-! **C97** A file that is made into a stream and back can be loaded, and nothing more is lost than on the two ways. -/

namespace Haptics
open Haptics.Json Haptics.Transcoded

/-- **C97, partial.** An experience that conforms and can be streamed (C57) is written to a stream and read from it; what is
read is written to a `.hjif` file, and that file loads.  What is loaded is `h.transcoded now`: what the stream transports,
without what a file does not hold.  Missing: experiences of more than one sync point, with composite or overlapping effects,
and what else C57 leaves out. -/
theorem c97_transcoded_partial (schema : Json → Bool) (now : Str) (h : Experience) (d : Nat) (hd : 0 < d) (hd2 : d < 2 ^ 24)
    (ht : Typed h) (hc : Conformant h) (hx : CheckedTexts h) (hs : h.Spaced) (hf : h.prune.assignIds.StreamFits d)
    (hi : h.prune.Identified) (hm : h.prune.assignIds.Modest d) :
    ∃ file, writeStream h d = .ok file ∧ ∃ e, readStream file = .ok (true, some e) ∧
      ∃ j, writeTree now e = .ok j ∧ (schema j = true → loadTree schema j = .ok (h.transcoded now)) := by
  obtain ⟨file, h1, h2⟩ := c57_streamed_partial h d hd hd2 hs hf hi hm
  have hid : ∀ p ∈ h.prune.perceptions, ∀ c ∈ p.channels, ∀ b ∈ c.bands, ∀ e ∈ b.effects,
      e.effectType = EffectType.Reference → e.id ≠ -1 := by
    intro p hp c hc' b hb e he hr
    obtain ⟨s, hs'⟩ := mapAccum_mem Perception.assignIds hp (getEffectsId h.prune)
    have hlib := (hf.perceptions _ hs').library
    obtain ⟨p, hp', rfl⟩ := List.mem_map.mp (List.mem_filter.mp hp).1
    obtain ⟨c, hc'', rfl⟩ := List.mem_map.mp (List.mem_filter.mp hc').1
    obtain ⟨b, hb', rfl⟩ := List.mem_map.mp (List.mem_filter.mp hb).1
    have := (((hc.perceptions p hp').channels c hc'').bands b hb').effects e (List.mem_filter.mp he).1
    obtain ⟨l, hl, he⟩ := this.reference hr
    have hlf := hlib l hl
    cases hlf with
    | mk _ id _ _ _ _ _ _ _ _ =>
      unfold U at id
      rw [← he]
      omega
  obtain ⟨j, h3, h4⟩ := c71_kept schema now _ (received_typed (prune_typed ht) hf)
  refine ⟨file, h1, _, h2, j, h3, fun hj => ?_⟩
  rw [h4 hj]
  rw [kept_id now hid]
  exact ⟨rfl, transcoded_conformant now hc hx, rfl⟩

/-! ### A sample -/

/-- The last effect of the sample. -/
def transcodeLast (k : Int) : Effect := { id := k, position := 300, keyframes := [{ relativePosition := some 0 }] }
def transcodeBand (i k : Int) : Band :=
  { upperFrequencyLimit := 100, priority := some 2, effects := [fileReference, fileBasis i, transcodeLast k] }
def transcodeWave (j : Int) : Effect := { id := j, waveletBitstream := [1, 0, 200] }
def transcodeWavelet (j : Int) : Band :=
  { bandType := BandType.WaveletWave, blockLength := some 128, upperFrequencyLimit := 1000, effects := [transcodeWave j] }
def transcodeChannel (i k j : Int) : Channel :=
  { id := 0, description := text "left", referenceDeviceId := some 7, direction := some ⟨127, 0, 0⟩, gain := 3 / 2
    bands := [transcodeBand i k, transcodeWavelet j] }
def transcodePerception (i k j : Int) : Perception :=
  { id := 3, avatarId := 0, perceptionModality := 6, referenceDevices := [fileDevice]
    effectLibrary := [fileLibraryEffect], channels := [transcodeChannel i k j] }
/-- An experience with an avatar, a device, an effect library, a reference to it, a wavelet band. -/
def transcodeSample (a i k j : Int) (syncs : List Sync) : Experience :=
  { version := text "2023", date := text "2024-05-06", description := text "demo"
    avatars := [{ id := a, mesh := some (text "a.obj") }], perceptions := [transcodePerception i k j], syncs := syncs }

theorem transcodeSample_typed (a : Int) (ha : Json.Int32 a) (syncs : List Sync)
    (hs : ∀ s ∈ syncs, Json.Int32 s.timestamp ∧ ∀ t ∈ s.timescale, Uint32 t) :
    Typed (transcodeSample a (-1) (-1) (-1) syncs) := by
  have q4 : IsFloat (3 / 4) := by have := isFloat_nat 3 (by norm_num) 2 (by norm_num); norm_num at this ⊢; exact this
  have q5 : IsFloat (3 / 2) := by have := isFloat_nat 3 (by norm_num) 1 (by norm_num); norm_num at this ⊢; exact this
  have q6 : IsFloat 1 := by simpa using isFloat_nat 1 (by norm_num) 0 (by norm_num)
  have hfile := fileSample_typed (-1) (by simp [Json.Int32])
  have hfp := hfile.perceptions _ (List.mem_singleton.mpr rfl)
  have href : EffectTyped fileReference := by
    constructor <;> simp [fileReference, Json.Int32, ByteText]
  have hbas : EffectTyped (fileBasis (-1)) := by
    constructor <;> simp [fileBasis, Json.Int32]
    constructor <;> simp [Json.Int32, q4]
  have hlast : EffectTyped (transcodeLast (-1)) := by
    constructor <;> simp [transcodeLast, Json.Int32]
    constructor <;> simp [Json.Int32]
  have hwav : EffectTyped (transcodeWave (-1)) := by
    constructor <;> simp [transcodeWave, Json.Int32]
  have hb1 : BandTyped (transcodeBand (-1) (-1)) := by
    constructor <;> simp [transcodeBand, Json.Int32, href, hbas, hlast]
    · decide
    · exact ⟨⟨by decide, by decide⟩, by decide⟩
  have hb2 : BandTyped (transcodeWavelet (-1)) := by
    constructor <;> simp [transcodeWavelet, Json.Int32, hwav]
  have hc : ChannelTyped (transcodeChannel (-1) (-1) (-1)) := by
    constructor <;> simp [transcodeChannel, Json.Int32, Uint32, q5, q6, hb1, hb2]
    constructor <;> simp [Json.Int8]
  have hp : PerceptionTyped (transcodePerception (-1) (-1) (-1)) := by
    refine ⟨by simp [transcodePerception, Json.Int32], by simp [transcodePerception, Json.Int32],
      by simp [transcodePerception], by simp [transcodePerception], by simp [transcodePerception],
      by simp [transcodePerception], hfp.devices, hfp.library, ?_⟩
    simp [transcodePerception, hc]
  refine ⟨by simp [transcodeSample], by simp [transcodeSample, Uint32], ?_, ?_, hs⟩
  · simp only [transcodeSample, List.mem_singleton, forall_eq]
    constructor <;> simp [Json.Int32]
    exact ha
  · simp [transcodeSample, hp]

theorem transcodeSample_conformant (a : Int) (ha : a = 1 ∨ a = 256) (syncs : List Sync)
    (hs : syncs = [] ∨ syncs = [{ timestamp := 0 }, { timestamp := 128 }]) :
    Conformant (transcodeSample a (-1) (-1) (-1) syncs) := by
  rw [← c34_iff]
  · rcases ha with rfl | rfl <;> rcases hs with rfl | rfl <;> decide +kernel
  · intro p hp c hc b hb n hn
    simp [transcodeSample] at hp
    subst hp
    simp [transcodePerception] at hc
    subst hc
    simp [transcodeChannel] at hb
    rcases hb with rfl | rfl <;> simp [transcodeBand, transcodeWavelet] at hn <;> subst hn <;> norm_num

theorem transcodeSample_assigned (a : Int) :
    (transcodeSample a (-1) (-1) (-1) []).prune.assignIds = transcodeSample a 6 7 8 [] := rfl

theorem transcodeSample_fits (a : Int) (ha : U 8 a) : (transcodeSample a (-1) (-1) (-1) []).prune.assignIds.StreamFits 128 := by
  rw [transcodeSample_assigned]
  refine ⟨⟨show (text "2023").length < 256 by decide +kernel, show ({} : Experience).profile.length < 256 by decide +kernel,
    show 1 < 256 by decide, show (text "2024-05-06").length < 256 by decide +kernel,
    show (text "demo").length < 256 by decide +kernel, show 1 < 256 by decide, ?_⟩,
    show 1000 < 2 ^ 32 by decide, show 0 ≤ 1 by decide, ?_, show ([3] : List Int).Nodup by decide,
    show ([0] : List Int).Nodup by decide, show 2 ≤ 256 by decide⟩
  · simp only [transcodeSample, List.mem_singleton, forall_eq]
    exact ⟨ha, by simp [U], by simp, fun _ => ⟨_, rfl, by decide +kernel⟩⟩
  · simp only [transcodeSample, List.mem_singleton, forall_eq]
    refine ⟨⟨by decide, by simp [transcodePerception], by simp [transcodePerception], by decide, by decide,
      by simp [transcodePerception], by simp [transcodePerception], by simp [transcodePerception], by decide, ?_⟩,
      by decide, by decide, ?_, ?_⟩
    · simp only [transcodePerception, List.mem_singleton, forall_eq]
      exact ⟨by decide, by decide +kernel, by simp [fileDevice], by simp [fileDevice]⟩
    · simp only [transcodePerception, List.mem_singleton, forall_eq]
      refine .mk _ (by decide) (by decide) (by decide) (by simp [fileLibraryEffect]) (by simp [fileLibraryEffect]) (by decide) ?_
        (by decide) (by simp [fileLibraryEffect])
      simp only [fileLibraryEffect, List.mem_singleton, forall_eq]
      exact ⟨fun v hv => by cases hv; decide, by simp⟩
    · simp only [transcodePerception, List.mem_singleton, forall_eq]
      refine ⟨⟨by decide, by simp [transcodeChannel], by decide +kernel, by simp [transcodeChannel], by decide,
        by simp [transcodeChannel], by decide, by simp [transcodeChannel], by decide, by simp [transcodeChannel],
        by simp [transcodeChannel], by simp [transcodeChannel], ?_, by decide, by simp [transcodeChannel]⟩, ?_⟩
      · intro v hv
        cases hv
        exact ⟨by decide, by decide, by decide⟩
      · simp only [transcodeChannel, List.mem_cons, List.not_mem_nil, or_false]
        rintro b (rfl | rfl)
        · refine ⟨⟨by decide, fun h => absurd h (by decide), fun h => absurd h (by decide), ?_, by decide, by decide⟩,
            .inl ⟨.inr (.inr rfl), ⟨by decide +kernel,
              by simp [TimeOrdered, transcodeBand, fileReference, fileBasis, transcodeLast], ?_, ?_, ?_⟩,
              by simp [DistinctIds, transcodeBand, fileReference, fileBasis, transcodeLast], ?_, ?_, by decide, ?_⟩⟩
          · intro v hv; cases hv; decide
          all_goals
            simp only [transcodeBand, List.mem_cons, List.not_mem_nil, or_false, List.getLast?_cons_cons,
              List.getLast?_singleton, Option.mem_def, Option.some.injEq]
          · rintro e (rfl | rfl | rfl) <;> decide
          · rintro e (rfl | rfl | rfl) <;> simp [fileReference, fileBasis, transcodeLast, EffectType.Basis]
          · rintro e (rfl | rfl | rfl) <;> simp [fileReference, fileBasis, transcodeLast]
          · rintro e (rfl | rfl | rfl)
            · exact ⟨by decide, .inr rfl, by simp [fileReference]; decide +kernel, by simp [fileReference], by decide,
                by simp [fileReference]⟩
            · refine ⟨by decide, .inl rfl, by simp [fileBasis], by simp [fileBasis], by decide, ?_⟩
              simp only [fileBasis, List.mem_singleton, forall_eq]
              exact ⟨⟨4, rfl, by decide⟩, fun v hv => by cases hv; decide, fun h => absurd h (by decide),
                fun h => absurd h (by decide)⟩
            · refine ⟨by decide, .inl rfl, by simp [transcodeLast], by simp [transcodeLast], by decide, ?_⟩
              simp only [transcodeLast, List.mem_singleton, forall_eq]
              exact ⟨⟨0, rfl, by decide⟩, by simp, fun h => absurd h (by decide), fun h => absurd h (by decide)⟩
          · rintro e (rfl | rfl | rfl) <;> decide +kernel
          · rintro e rfl h; exact absurd h (by decide)
        · refine ⟨⟨by decide, fun h => absurd h (by decide), fun _ => by decide, by simp [transcodeWavelet], by decide,
            by decide⟩, .inr ⟨rfl, rfl, rfl, by decide, ?_, ⟨none, by simp, ?_, ?_, ?_⟩, ?_, by decide, ?_⟩⟩
          · simp only [transcodeWavelet, List.mem_singleton, forall_eq]; rfl
          · intro j e he
            match j with
            | 0 => cases he; rfl
            | j + 1 => simp [transcodeWavelet] at he
          all_goals
            simp only [transcodeWavelet, List.mem_singleton, forall_eq]
            first | rfl | decide

theorem transcodeSample_spaced (a : Int) (syncs : List Sync) : (transcodeSample a (-1) (-1) (-1) syncs).Spaced := by
  refine ⟨?_, by simp [transcodeSample]⟩
  simp only [transcodeSample, List.mem_singleton, forall_eq]
  refine ⟨?_, by simp [transcodePerception]⟩
  simp only [transcodePerception, List.mem_singleton, forall_eq]
  refine ⟨?_, ?_⟩
  · simp only [transcodeChannel, List.mem_cons, List.not_mem_nil, or_false]
    rintro b (rfl | rfl) <;> exact ⟨by decide +kernel⟩
  · simp only [transcodeChannel, List.isChain_cons_cons]
    exact ⟨fun h => absurd (congrArg List.isEmpty h) (by decide +kernel), by simp⟩

/-- Non-vacuity: the sample meets the hypotheses of `c97_transcoded_partial`. -/
example : Typed (transcodeSample 1 (-1) (-1) (-1) []) ∧ Conformant (transcodeSample 1 (-1) (-1) (-1) []) ∧
    CheckedTexts (transcodeSample 1 (-1) (-1) (-1) []) ∧ (transcodeSample 1 (-1) (-1) (-1) []).Spaced ∧
    (transcodeSample 1 (-1) (-1) (-1) []).prune.assignIds.StreamFits 128 ∧
    (transcodeSample 1 (-1) (-1) (-1) []).prune.Identified ∧
    (transcodeSample 1 (-1) (-1) (-1) []).prune.assignIds.Modest 128 := by
  have z : ∀ s : Str, s.all (· != 0) = true → NoZero s := by
    intro s h h0
    simpa using List.all_eq_true.mp h 0 h0
  refine ⟨transcodeSample_typed 1 (by simp [Json.Int32]) [] (by simp), transcodeSample_conformant 1 (.inl rfl) [] (.inl rfl),
    ⟨z _ (by decide +kernel), ?_⟩, transcodeSample_spaced 1 [], transcodeSample_fits 1 (by simp [U]), ?_, ?_⟩
  · simp only [transcodeSample, List.mem_singleton, forall_eq]
    intro m hm
    cases hm
    exact z _ (by decide +kernel)
  · intro b hb ht e he
    have := List.all_eq_true.mp (show (transcodeSample 1 (-1) (-1) (-1) []).prune.allBands.all
      (fun b => b.effects.all (fun e => decide (-1 ≤ e.id))) = true by decide +kernel) b hb
    exact of_decide_eq_true (List.all_eq_true.mp this e he)
  · rw [transcodeSample_assigned]
    have e : (transcodeSample 1 6 7 8 []).allBands.all (fun b => (b.effects.flatMap Effect.eventTimes).length ≤ 7000) = true := by
      decide +kernel
    refine ⟨?_, ?_, fun b hb t => eventsIn_small (of_decide_eq_true (List.all_eq_true.mp e b hb)) _ _, by decide +kernel,
      by decide +kernel⟩
    · simp only [transcodeSample, List.mem_singleton, forall_eq]
      simp only [transcodePerception, List.mem_singleton, forall_eq]
      exact Nat.zero_le _
    · simp only [transcodeSample, List.mem_singleton, forall_eq]
      decide +kernel

/-! ### What does not come back -/

/-- What comes from the stream of the library of the sample. -/
def transcodeLibrary : List Effect :=
  [{ id := 5, phase := some (quantF 16 0 MAX_PHASE (1 / 2)), baseSignal := some 1, keyframes := [{}] }]

/-- The sample as it comes from the stream, with the given avatars. -/
def transcodeReceived (as : List Avatar) (syncs : List Sync) (avatarId : Int) (scheme : Option Str) : Experience :=
  { (transcodeSample 1 6 7 8 []).receivedStream with
    syncs := syncs
    avatars := as
    perceptions := [{ (transcodePerception 6 7 8).receivedHeader with
      avatarId := avatarId
      effectSemanticScheme := scheme
      channels := [(transcodeChannel 6 7 8).receivedStream]
      effectLibrary := transcodeLibrary }] }

theorem transcodeReceived_typed (as : List Avatar) (syncs : List Sync) (avatarId : Int) (scheme : Option Str)
    (ha : ∀ a ∈ as, AvatarTyped a) (hs : ∀ s ∈ syncs, Json.Int32 s.timestamp ∧ ∀ t ∈ s.timescale, Uint32 t)
    (hi : Json.Int32 avatarId) : Typed (transcodeReceived as syncs avatarId scheme) := by
  have t := received_typed (prune_typed (transcodeSample_typed 1 (by simp [Json.Int32]) [] (by simp)))
    (transcodeSample_fits 1 (by simp [U]))
  rw [transcodeSample_assigned] at t
  have hl : [fileLibraryEffect].map Effect.received = transcodeLibrary := by
    simp [fileLibraryEffect, Effect.received, transcodeLibrary, Keyframe.received, EffectType.Basis]
  refine ⟨t.level, t.timescale, ha, ?_, hs⟩
  have tp := t.perceptions (transcodePerception 6 7 8).receivedStream (List.mem_singleton.mpr rfl)
  simp only [transcodeReceived, List.mem_singleton, forall_eq]
  refine ⟨tp.id, hi, tp.modality, tp.priority, tp.unitExponent, tp.perceptionUnitExponent, tp.devices, ?_, tp.channels⟩
  rw [← hl]
  exact tp.library

/-- **C97, negation.** A file with a sync point at the start of a packet is loaded, made into a stream and read back: it has two
avatars of the same identifier, and the perception belongs to another avatar and has a semantic scheme.  Written to a file
again, it is refused. -/
theorem c97_sync_negation (now : Str) :
    ∃ h e, Typed h ∧ Conformant h ∧ throughStream h 128 = some e ∧ Refused now e := by
  have ht : Typed (transcodeReceived [{ id := 1, mesh := some (text "a.obj") }, { id := 1, mesh := some (text "a.obj") }]
      [{ timestamp := 0 }, { timestamp := 128 }] 3 (some DEFAULT_SEMANTIC_SCHEME)) := by
    refine transcodeReceived_typed _ _ _ _ ?_ (by simp [Json.Int32, Uint32]) (by simp [Json.Int32])
    simp only [List.mem_cons, List.not_mem_nil, or_false, or_self, forall_eq]
    constructor <;> simp [Json.Int32]
  refine ⟨transcodeSample 1 (-1) (-1) (-1) [{ timestamp := 0 }, { timestamp := 128 }], _,
    transcodeSample_typed 1 (by simp [Json.Int32]) _ (by simp [Json.Int32, Uint32]),
    transcodeSample_conformant 1 (.inl rfl) _ (.inr rfl), by decide +kernel, (Accepted.reloads_iff now _ ht).2 (fun hr => ?_)⟩
  have := ((Accepted.reloads_iff now _ ht).1.mp hr).2.avatarIds
  exact absurd this (by simp [kept, transcodeReceived, keptAvatar])

/-- **C97, negation.** A file with an avatar of identifier 256 is loaded, made into a stream and read back with identifier 0;
written to a file again, it is refused. -/
theorem c97_avatar_negation (now : Str) :
    ∃ h e, Typed h ∧ Conformant h ∧ throughStream h 128 = some e ∧ Refused now e := by
  have ht : Typed (transcodeReceived [{ id := 0, mesh := some (text "a.obj") }] [{ timestamp := 0 }] 0 none) := by
    refine transcodeReceived_typed _ _ _ _ ?_ (by simp [Json.Int32, Uint32]) (by simp [Json.Int32])
    simp only [List.mem_cons, List.not_mem_nil, or_false, forall_eq]
    constructor <;> simp [Json.Int32]
  refine ⟨transcodeSample 256 (-1) (-1) (-1) [], _, transcodeSample_typed 256 (by simp [Json.Int32]) _ (by simp),
    transcodeSample_conformant 256 (.inr rfl) _ (.inl rfl), by decide +kernel, (Accepted.reloads_iff now _ ht).2 (fun hr => ?_)⟩
  have := ((Accepted.reloads_iff now _ ht).1.mp hr).2.avatars
    (keptAvatar { id := 0, mesh := some (text "a.obj") }) (List.mem_singleton.mpr rfl)
  exact this.1 rfl

end Haptics
