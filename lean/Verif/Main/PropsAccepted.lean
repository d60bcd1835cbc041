import Verif.Main.SpecAccepted
import Verif.Json.PropsFile
import Verif.Json.TypedCheck
import Verif.Json.PropsRegex
import Verif.Encoder.PropsBands
import Verif.Encoder.PropsAhapFile
import Verif.Encoder.PropsIvsFile
import Verif.Encoder.PropsPcmEncode
import Verif.Encoder.PropsPcmCurve
import Verif.Wavelet.PropsSignal
import Verif.Encoder.Main
import Verif.Main.AhapBands
import Verif.Main.IvsBands
import Verif.Main.WavTyped

/-! C92: which of the files the encoder makes can be loaded. -/

namespace Haptics.Accepted
open Haptics Haptics.Json

theorem reloads_iff (now : Str) (e : Experience) (h : Typed e) :
    (Reloads now e ↔ e.timescale.isSome ∧ Conformant (kept now e)) ∧ (¬ Reloads now e → Refused now e) := by
  obtain ⟨j, h1, h2⟩ := load_written (fun _ => true) now e h
  have h2 := h2 rfl
  have hw : ∀ j', writeTree now e = .ok j' → j' = j := fun j' h' => Except.ok.inj (h'.symm.trans h1)
  rw [← c34_iff _ (kept_blocks now h)]
  have hr : Reloads now e ↔ e.timescale.isSome ∧ checkExperience (kept now e) = true := by
    constructor
    · rintro ⟨j', g1, e', g2⟩
      rw [hw j' g1, h2] at g2
      split at g2
      · assumption
      · cases g2
    · intro hc
      rw [if_pos hc] at h2
      exact ⟨j, h1, _, h2⟩
  refine ⟨hr, fun hn => ⟨j, h1, fun schema => ?_⟩⟩
  rw [hr] at hn
  rw [if_neg hn] at h2
  by_cases hs : schema j = true
  · obtain ⟨j', g1, g2⟩ := load_written schema now e h
    obtain rfl := hw j' g1
    rw [g2 hs, if_neg hn]
  · unfold loadTree
    rw [Bool.not_eq_true] at hs
    simp [hs]

/-- A channel without device, direction and actuators, whose effects are no references and have no keywords. -/
structure Plain (c : Channel) : Prop where
  device : c.referenceDeviceId = none
  direction : c.direction = none
  resolution : c.actuatorResolution = none
  targets : c.actuatorTarget = none
  effects : ∀ b ∈ c.bands, ∀ f ∈ b.effects, f.effectType = EffectType.Basis ∧ f.semantic = none

theorem keptEffect_basis (t : Nat) (f : Effect) (h : f.effectType = EffectType.Basis) (hs : f.semantic = none) :
    (keptEffect t f).effectType = EffectType.Basis ∧ (keptEffect t f).semantic = none ∧
      (t = BandType.WaveletWave → (keptEffect t f).keyframes = []) := by
  have h1 : ¬ f.effectType = EffectType.Reference := by rw [h]; decide
  have h2 : ¬ f.effectType = EffectType.Composite := by rw [h]; decide
  unfold keptEffect
  rw [if_neg h1, if_neg h2, hs]
  by_cases hw : t = BandType.WaveletWave
  · rw [if_pos hw]; exact ⟨rfl, rfl, fun _ => rfl⟩
  · rw [if_neg hw]
    split <;> exact ⟨rfl, rfl, fun h => absurd h hw⟩

open Classical in
theorem conformant_iff (now : Str) (hn : HasFourDigits (keptText now)) (ts : Nat) (p : Perception)
    (ha : p.avatarId = 0) (hs : p.effectSemanticScheme = none) (hd : p.referenceDevices = [])
    (hl : p.effectLibrary = []) (hc : ∀ c ∈ p.channels, Plain c) :
    Conformant (kept now (imported ts p)) ↔ ts ≤ 48000 ∧ p.channels.length ≤ 127 ∧ (p.channels.map (·.id)).Nodup ∧
      ∀ c ∈ p.channels, c.bands.length ≤ 7 ∧ ∀ b ∈ c.bands, b.lowerFrequencyLimit ≤ b.upperFrequencyLimit ∧
        (b.bandType = BandType.WaveletWave → ∃ k : Nat, b.blockLength.getD 0 = 2 ^ k) := by
  have hmain : (kept now (imported ts p)).profile = text "Main" := by
    show keptText [77, 97, 105, 110] = _
    decide +kernel
  have hnot : (kept now (imported ts p)).profile ≠ text "Simple Parametric" := by
    rw [hmain]; decide +kernel
  have hids : ((keptPerception p).channels.map (·.id)) = p.channels.map (·.id) := by
    simp [keptPerception, keptChannel, Function.comp_def]
  constructor
  · intro h
    have hp := h.perceptions (keptPerception p) (by simp [kept, imported])
    refine ⟨(h.timescale ts rfl).2 hmain, ?_, ?_, fun c hcm => ?_⟩
    · have := hp.channelCount.1 rfl
      simpa [keptPerception] using this
    · have := hp.channelIds
      rwa [hids] at this
    · have hk := hp.channels (keptChannel c) (List.mem_map.mpr ⟨c, hcm, rfl⟩)
      refine ⟨by simpa [keptChannel] using hk.bandCount.1 rfl, fun b hb => ?_⟩
      have hkb := hk.bands (keptBand b) (List.mem_map.mpr ⟨b, hb, rfl⟩)
      refine ⟨hkb.limits, fun hw => ?_⟩
      obtain ⟨k, hk⟩ := hkb.block hw
      refine ⟨k, ?_⟩
      simp only [keptBand, if_pos hw] at hk
      exact Option.some.inj hk
  · rintro ⟨h1, h2, h3, h4⟩
    refine ⟨?_, ?_, Or.inl hmain, Or.inl rfl, ?_, ?_, ?_, ?_, ?_⟩
    · show IsVersion (if IsVersion [] then [] else text "2023")
      split
      · assumption
      · exact ⟨50, 48, 50, 51, by decide, by decide, by decide, by decide, by decide, Or.inl (by decide +kernel)⟩
    · show HasFourDigits (keptText (if HasFourDigits [] then [] else now))
      rw [if_neg]
      · exact hn
      · rintro ⟨x, y, a, b, c, d, -, -, -, -, h⟩
        simp at h
    · intro t ht
      obtain rfl := Option.some.inj ht
      exact ⟨fun h => absurd h hnot, fun _ => h1⟩
    · exact List.nodup_nil
    · intro a ha; cases ha
    · exact List.nodup_singleton _
    · intro q hq
      have hq : q = keptPerception p := by simpa [kept, imported] using hq
      subst hq
      refine ⟨fun h => absurd h hnot, Or.inl ha, ?_, ⟨fun _ => ?_, fun h => ?_⟩, ?_, ?_, ?_, ?_, ?_, fun h => absurd h hnot⟩
      · show p.effectSemanticScheme.map keptText = none
        rw [hs]; rfl
      · simpa [keptPerception] using h2
      · cases h
      · simp [keptPerception, hd]
      · simp [keptPerception, hd]
      · rw [hids]; exact h3
      · intro c' hc'
        obtain ⟨c, hcm, rfl⟩ := List.mem_map.mp hc'
        obtain ⟨g1, g2⟩ := h4 c hcm
        have hpl := hc c hcm
        refine ⟨?_, ?_, ⟨fun _ => by simpa [keptChannel] using g1, fun h => by cases h⟩, ?_, ?_, ?_⟩
        · intro id hid; rw [show (keptChannel c).referenceDeviceId = none from hpl.device] at hid; cases hid
        · intro v hv; rw [show (keptChannel c).direction = none from hpl.direction] at hv; cases hv
        · intro v hv; rw [show (keptChannel c).actuatorResolution = none from hpl.resolution] at hv; cases hv
        · intro v hv; rw [show (keptChannel c).actuatorTarget = none from hpl.targets] at hv; cases hv
        · intro b' hb'
          obtain ⟨b, hb, rfl⟩ := List.mem_map.mp hb'
          obtain ⟨l1, l2⟩ := g2 b hb
          refine ⟨fun hne => ?_, fun hw => ?_, fun h => absurd h hnot, l1, ?_⟩
          · show (if b.bandType = BandType.Curve then b.curveType else none) = none
            exact if_neg hne
          · obtain ⟨k, hk⟩ := l2 hw
            refine ⟨k, ?_⟩
            have hw : b.bandType = BandType.WaveletWave := hw
            simp only [keptBand, if_pos hw, hk]
          · intro f' hf'
            obtain ⟨f, hf, rfl⟩ := List.mem_map.mp hf'
            obtain ⟨f1, f2⟩ := hpl.effects b hb f hf
            obtain ⟨e1, e2, e3⟩ := keptEffect_basis b.bandType f f1 f2
            refine ⟨fun h => absurd h hnot, e3, fun h => ?_, fun s hs => ?_⟩
            · rw [e1] at h; cases h
            · rw [e2] at hs; cases hs
      · simp [keptPerception, hl]

/-! ### AHAP files -/

open Haptics.EncoderMain (blank)

theorem continuous_facts {A F : List Ahap.Point} {ts : Nat} {x : ℚ × ℚ × List Ahap.Parameter} {e : Effect}
    (h : Ahap.ContinuousOf A F ts x e) : e.position = Ahap.eventTick ts x.1 ∧ e.length = Ahap.eventTick ts x.2.1 ∧
      e.effectType = EffectType.Basis ∧ e.semantic = none := by
  obtain ⟨kfs, h1, rfl⟩ := h
  refine ⟨rfl, ?_, rfl, rfl⟩
  show (kfs.getLast?.bind (·.relativePosition)).getD 0 = _
  rw [Ahap.continuousKeyframes_last h1]
  rfl

theorem playing_sounding {A F : List Ahap.Point} {ts : Nat} {l : List (ℚ × ℚ × List Ahap.Parameter)} {C : List Effect}
    (h : List.Forall₂ (Ahap.ContinuousOf A F ts) l C) (t : Int) :
    playing t C = l.countP (fun x => decide (Ahap.eventTick ts x.1 ≤ t ∧
      t ≤ Ahap.eventTick ts x.1 + Ahap.eventTick ts x.2.1)) := by
  induction h with
  | nil => rfl
  | cons h _ ih =>
    obtain ⟨h1, h2, -⟩ := continuous_facts h
    unfold playing at ih ⊢
    rw [List.countP_cons, List.countP_cons, ih, h1, h2]

theorem forall₂_pairwise {α β : Type} {R : α → β → Prop} {S : α → α → Prop} {T : β → β → Prop} {l : List α} {m : List β}
    (h : List.Forall₂ R l m) (hs : l.Pairwise S) (hst : ∀ a b a' b', R a b → R a' b' → S a a' → T b b') :
    m.Pairwise T := by
  induction h with
  | nil => exact .nil
  | cons h hl ih =>
    obtain ⟨s1, s2⟩ := List.pairwise_cons.mp hs
    refine List.pairwise_cons.mpr ⟨fun y hy => ?_, ih s2⟩
    obtain ⟨i, hi, rfl⟩ := List.mem_iff_getElem.mp hy
    rw [List.forall₂_iff_get] at hl
    exact hst _ _ _ _ h (hl.2 i (by have := hl.1; omega) hi) (s1 _ (List.getElem_mem _))

theorem blank_ready : Ahap.Ready blank := ⟨Nat.zero_le _, fun c hc => by cases hc⟩

/-- The bands of an AHAP file: the one for transients, and others. -/
theorem ahap_facts (ts : Nat) (hts : ts < 2 ^ 32) (items : List Ahap.Item) (h : ∀ i ∈ items, i.Valid ts)
    (hc : Ahap.Covered ts items) :
    ∃ c, Ahap.encode (Ahap.fileOf items) ts blank = .ok (some { blank with channels := [c] }) ∧ Plain c ∧ ChannelTyped c ∧
      (∀ b ∈ c.bands, b.lowerFrequencyLimit ≤ b.upperFrequencyLimit ∧ b.bandType ≠ BandType.WaveletWave) ∧
      (∀ t, 1 + sounding ts items t ≤ c.bands.length) ∧
      ((Ahap.continuous items).Pairwise (fun x y => Ahap.eventTick ts x.1 ≤ Ahap.eventTick ts y.1) →
        ∀ m, c.bands.length ≤ 1 + m ↔ ∀ t, sounding ts items t ≤ m) := by
  obtain ⟨c, T, C, e1, -, e2, e3, e4⟩ := Ahap.encode_parts ts hts items h blank blank_ready hc
  unfold Ahap.fillChannel at e4
  set c0 : Channel := { Ahap.channelOf blank with bands := (Ahap.channelOf blank).bands ++ [Ahap.transientBand T] }
    with hc0
  have hb0 : c0.bands = [Ahap.transientBand T] := rfl
  have hnv : ∀ b ∈ c0.bands, b.bandType ≠ BandType.VectorialWave := by
    intro b hb
    rw [hb0, List.mem_singleton] at hb
    subst hb
    show BandType.Transient ≠ _
    decide
  obtain ⟨d, d1, d2, d3, -⟩ := c74_distributed 65 300 c0 C (fun b hb ht => absurd ht (hnv b hb)) e3
  obtain rfl : c = d := Except.ok.inj (e4.symm.trans d1)
  have hbands : ∀ b ∈ c.bands, b.lowerFrequencyLimit = 65 ∧ b.upperFrequencyLimit = 300 ∧
      b.bandType ≠ BandType.WaveletWave := by
    intro b hb
    obtain ⟨i, hi⟩ := List.getElem?_of_mem hb
    rcases Nat.lt_or_ge i c0.bands.length with hl | hl
    · obtain ⟨b', k1, -, -, k4⟩ := d2.old i _ (List.getElem?_eq_getElem hl)
      obtain rfl : b = b' := Option.some.inj (hi.symm.trans k1)
      have hm : c0.bands[i] ∈ c0.bands := List.getElem_mem hl
      have := k4 (hnv _ hm)
      have hm : c0.bands[i] = Ahap.transientBand T := List.mem_singleton.mp hm
      rw [this, hm]
      exact ⟨rfl, rfl, show BandType.Transient ≠ BandType.WaveletWave by decide⟩
    · have hn := d2.new i b hl hi
      refine ⟨congrArg Band.lowerFrequencyLimit hn, congrArg Band.upperFrequencyLimit hn, ?_⟩
      have ht : b.bandType = BandType.VectorialWave := congrArg Band.bandType hn
      rw [ht]
      decide
  have hlen : c0.bands.length = 1 := rfl
  have hct : ChannelTyped c := by
    obtain ⟨T', C', rest, f1, f2, f3, f4, f5, f6⟩ := ahap_bands ts hts items h hc
    have hcc : [c] = [ahapChannel (Ahap.transientBand T' :: rest)] :=
      congrArg Perception.channels (Option.some.inj (Except.ok.inj (e1.symm.trans f1)))
    rw [List.singleton_inj.mp hcc]
    exact ahap_typed ts hts items h f2 f3 f4 f5 (fun b hb => ⟨(f6 b hb).1, (f6 b hb).2.1⟩)
  refine ⟨c, e1, ⟨?_, ?_, ?_, ?_, ?_⟩, hct, fun b hb => ?_, fun t => ?_, fun hs m => ?_⟩
  · exact congrArg Channel.referenceDeviceId d2.same
  · exact congrArg Channel.direction d2.same
  · exact congrArg Channel.actuatorResolution d2.same
  · exact congrArg Channel.actuatorTarget d2.same
  · intro b hb f hf
    have hm : f ∈ c.effects := List.mem_flatMap.mpr ⟨b, hb, hf⟩
    rcases List.mem_append.mp (d3.mem_iff.mp hm) with hm | hm
    · have : f = Ahap.transientEffect T := by
        simpa [Channel.effects, hb0, Ahap.transientBand, Band.addEffect, insertEffect] using hm
      rw [this]
      exact ⟨rfl, rfl⟩
    · obtain ⟨i, hi, rfl⟩ := List.mem_iff_getElem.mp hm
      rw [List.forall₂_iff_get] at e2
      exact (continuous_facts (e2.2 i (by have := e2.1; omega) hi)).2.2
  · obtain ⟨l1, l2, l3⟩ := hbands b hb
    exact ⟨by rw [l1, l2]; decide, l3⟩
  · have := c74_bands_needed 65 300 c0 c C hnv e3 e4 t
    rwa [hlen, playing_sounding e2] at this
  · have hC := forall₂_pairwise (T := fun x y : Effect => x.position ≤ y.position) e2 hs (fun a b a' b' h h' hl => by
      rw [(continuous_facts h).1, (continuous_facts h').1]; exact hl)
    have := c74_bands_enough 65 300 c0 c C hnv e3 hC e4 m
    rw [hlen] at this
    rw [this]
    exact forall_congr' (fun t => by rw [playing_sounding e2]; rfl)

theorem eventTick_mono (ts : Nat) {s t : ℚ} (h : s ≤ t) : Ahap.eventTick ts s ≤ Ahap.eventTick ts t := by
  have h1 := Pcm.roundAway_mono (fl64_mono (mul_le_mul_of_nonneg_right (fl64_mono h) (Nat.cast_nonneg (α := ℚ) ts)))
  have h2 : ((Ahap.eventTick ts s : Int) : ℚ) ≤ (Ahap.eventTick ts t : Int) := by
    unfold Ahap.eventTick
    rw [Ahap.truncQ_round, Ahap.truncQ_round]
    exact h1
  exact_mod_cast h2

/-- **C92.** A valid AHAP file whose curves reach all its continuous events is encoded; what is written of it cannot be
loaded if more than six of its continuous events play at once, or if the timescale is above 48000.  Otherwise it can,
provided that the continuous events are in the order of their times. -/
theorem c92_ahap (ts : Nat) (hts : ts < 2 ^ 32) (items : List Ahap.Item) (h : ∀ i ∈ items, i.Valid ts)
    (hc : Ahap.Covered ts items) (now : Str) (hn : HasFourDigits (keptText now)) :
    ∃ q, Ahap.encode (Ahap.fileOf items) ts blank = .ok (some q) ∧
      ((48000 < ts ∨ ∃ t, 6 < sounding ts items t) → Refused now (imported ts q)) ∧
      ((Ahap.continuous items).Pairwise (fun x y => x.1 ≤ y.1) →
        (Reloads now (imported ts q) ↔ ts ≤ 48000 ∧ ∀ t, sounding ts items t ≤ 6)) := by
  obtain ⟨c, e1, e2, hct, e3, e4, e5⟩ := ahap_facts ts hts items h hc
  have hty : Typed (imported ts { blank with channels := [c] }) := by
    refine ⟨(by show 1 < 256; decide), fun t ht => ?_, fun a ha => (by cases ha), fun p hp => ?_, fun s hs => (by cases hs)⟩
    · obtain rfl := Option.some.inj ht
      exact hts
    · rw [List.mem_singleton.mp hp]
      refine ⟨int32_small (i := 0) (by decide), int32_small (i := 0) (by decide), by show 0 < 14; decide,
        fun i hi => (by cases hi), fun i hi => (by cases hi), fun i hi => (by cases hi), fun i hi => (by cases hi),
        fun i hi => (by cases hi), fun d hd => ?_⟩
      rw [List.mem_singleton.mp hd]
      exact hct
  refine ⟨_, e1, ?_⟩
  obtain ⟨r1, r2⟩ := reloads_iff now _ hty
  have hcf := conformant_iff now hn ts { blank with channels := [c] } rfl rfl rfl rfl (fun c' hc' => by
    rw [List.mem_singleton] at hc'; rw [hc']; exact e2)
  have hre : Reloads now (imported ts { blank with channels := [c] }) ↔ ts ≤ 48000 ∧ c.bands.length ≤ 7 := by
    rw [r1, hcf]
    constructor
    · rintro ⟨-, h1, -, -, h4⟩
      exact ⟨h1, (h4 c List.mem_cons_self).1⟩
    · rintro ⟨h1, h2⟩
      refine ⟨rfl, h1, by simp, List.nodup_singleton _, fun c' hc' => ?_⟩
      rw [List.mem_singleton] at hc'
      subst hc'
      exact ⟨h2, fun b hb => ⟨(e3 b hb).1, fun hw => absurd hw (e3 b hb).2⟩⟩
  refine ⟨fun hbad => r2 (fun hr => ?_), fun hs => ?_⟩
  · obtain ⟨h1, h2⟩ := hre.mp hr
    rcases hbad with hb | ⟨t, hb⟩
    · omega
    · have := e4 t; omega
  · rw [hre]
    have := e5 (hs.imp (fun h => eventTick_mono ts h)) 6
    rw [← this]

/-! ### IVS files -/

/-- An effect that is neither reference nor composite, without keyword. -/
def Simple (e : Effect) : Prop := e.effectType = EffectType.Basis ∧ e.semantic = none

theorem fade_simple {b : Ivs.Basis} {ts : Nat} {a : ℚ} {d at' : Int} {e e' : Effect} (he : Simple e)
    (h : Ivs.fade b ts a d at' e = .ok e') : Simple e' := by
  unfold Ivs.fade at h
  simp only [bind, Except.bind, pure, Except.pure] at h
  split at h
  · obtain rfl := Except.ok.inj h; exact he
  · split at h
    · cases h
    · split at h
      · split at h
        · cases h
        · obtain rfl := Except.ok.inj h; exact he
      · split at h <;> (obtain rfl := Except.ok.inj h; exact he)

theorem envelope_simple {b : Ivs.Basis} {ts : Nat} {a : ℚ} {d : Int} {e e' : Effect} (he : Simple e)
    (h : Ivs.envelope b ts a d e = .ok e') : Simple e' := by
  unfold Ivs.envelope at h
  simp only [bind, Except.bind, pure, Except.pure] at h
  split at h
  · exact fade_simple he h
  · split at h
    · cases h
    · split at h
      · split at h
        · cases h
        · obtain rfl := Except.ok.inj h; exact he
      · exact fade_simple (e := _) (by exact he) h

theorem convert_simple {b : Ivs.Basis} {l : Ivs.Launch} {ts : Nat} {e : Effect}
    (h : Ivs.convertToEffect b l ts = .ok (some e)) : Simple e := by
  unfold Ivs.convertToEffect at h
  simp only [bind, Except.bind, pure, Except.pure] at h
  split at h
  · cases h
  · cases h
  · split at h
    · cases h
    · split at h
      · cases h
      · rename_i r hr
        obtain rfl := Option.some.inj (Except.ok.inj h)
        exact envelope_simple ⟨rfl, rfl⟩ hr

theorem launched_simple (basis : List Ivs.Basis) (ts : Nat) (ls : List Ivs.Launch) (es : List Effect)
    (h : Ivs.launched basis ts ls = .ok es) : ∀ e ∈ es, Simple e := by
  induction ls generalizing es with
  | nil => obtain rfl := Except.ok.inj h; intro e he; cases he
  | cons l ls ih =>
    rw [Ivs.launched] at h
    split at h
    · exact ih es h
    · split at h
      · cases h
      · exact ih es h
      · rename_i e he
        cases hl : Ivs.launched basis ts ls with
        | error x => rw [hl] at h; cases h
        | ok l' =>
          rw [hl] at h
          obtain rfl := Except.ok.inj h
          intro x hx
          rcases List.mem_cons.mp hx with rfl | hx
          · exact convert_simple he
          · exact ih l' hl x hx

/-- What a timeline adds to a new channel. -/
theorem timeline_facts (sort : List Ivs.Repeat → List Ivs.Repeat) (basis : List Ivs.Basis) (ts : Nat) (t : Ivs.Timeline)
    (c d : Channel) (hr : ∀ l ∈ t.launchEvents, ∀ b ∈ basis, b.name = l.effect → Ivs.Regular b l ts)
    (hc : c.bands = []) (hp : Plain c) (h : Ivs.encodeTimeline sort basis ts t c = .ok d) :
    Plain d ∧ d.id = c.id ∧ ∀ b ∈ d.bands, b.lowerFrequencyLimit ≤ b.upperFrequencyLimit ∧
      b.bandType ≠ BandType.WaveletWave := by
  obtain ⟨es, played, -, h2, h3, h4, h5, -⟩ := Ivs.c75_timeline sort basis ts t c d hr
    (fun b hb => by rw [hc] at hb; cases hb) h
  have s1 := launched_simple basis ts _ es h2
  have s2 := Ivs.expand_all Simple (fun e p he => he) (sort t.repeatEvents) es s1
  have s3 : ∀ e ∈ played, Simple e := by
    intro e he
    obtain ⟨i, hi, rfl⟩ := List.mem_iff_getElem.mp he
    rw [List.forall₂_iff_get] at h3
    obtain ⟨p, -, hp⟩ := h3.2 i (by have := h3.1; omega) hi
    change played[i] = _ at hp
    rw [hp]
    exact s2 (List.get _ _) (List.get_mem _ _)
  have hid := congrArg Channel.id h4.same
  refine ⟨⟨?_, ?_, ?_, ?_, ?_⟩, hid, ?_⟩
  · exact (congrArg Channel.referenceDeviceId h4.same).trans hp.device
  · exact (congrArg Channel.direction h4.same).trans hp.direction
  · exact (congrArg Channel.actuatorResolution h4.same).trans hp.resolution
  · exact (congrArg Channel.actuatorTarget h4.same).trans hp.targets
  · intro b hb f hf
    have hm : f ∈ d.effects := List.mem_flatMap.mpr ⟨b, hb, hf⟩
    rcases List.mem_append.mp (h5.mem_iff.mp hm) with hm | hm
    · simp [Channel.effects, hc] at hm
    · exact s3 f hm
  · intro b hb
    obtain ⟨i, hi⟩ := List.getElem?_of_mem hb
    have hn := h4.new i b (by rw [hc]; exact Nat.zero_le _) hi
    have h1 : b.lowerFrequencyLimit = 0 := congrArg Band.lowerFrequencyLimit hn
    have h2 : b.upperFrequencyLimit = 1000 := congrArg Band.upperFrequencyLimit hn
    have ht : b.bandType = BandType.VectorialWave := congrArg Band.bandType hn
    rw [h1, h2, ht]
    decide

/-- **C92.** What is written of an IVS file can be loaded if and only if it has no more than one timeline, its effects
needed no more than seven bands, and the timescale is not above 48000. -/
theorem c92_ivs (sort : List Ivs.Repeat → List Ivs.Repeat) (f : Ivs.File) (ts : Nat) (q : Perception)
    (hts : ts < 2 ^ 32) (hq : Ivs.encode sort f ts blank = .ok q)
    (hr : ∀ t ∈ f.timelines, ∀ l ∈ t.launchEvents, ∀ b ∈ f.basisEffects, b.name = l.effect →
      Ivs.Regular b l ts ∧ Ivs.InRange b l)
    (now : Str) (hn : HasFourDigits (keptText now)) :
    (Reloads now (imported ts q) ↔ ts ≤ 48000 ∧ f.timelines.length ≤ 1 ∧ ∀ c ∈ q.channels, c.bands.length ≤ 7) ∧
    (¬ Reloads now (imported ts q) → Refused now (imported ts q)) := by
  obtain ⟨k1, k2, k3, -⟩ := Ivs.c75_channels sort f ts blank q hq
  have hlen : q.channels.length = f.timelines.length := by rw [k2]; simp [blank]
  have hone : ∀ c ∈ q.channels, ∃ t ∈ f.timelines,
      Ivs.encodeTimeline sort f.basisEffects ts t (Ivs.newChannel f t) = .ok c := by
    intro c hc
    obtain ⟨i, hi⟩ := List.getElem?_of_mem hc
    have hil : i < f.timelines.length := by rw [← hlen]; exact (List.getElem?_eq_some_iff.mp hi).1
    obtain ⟨d, d1, d2⟩ := k3 i _ (List.getElem?_eq_getElem hil)
    obtain rfl : c = d := Option.some.inj (hi.symm.trans d1)
    exact ⟨_, List.getElem_mem hil, d2⟩
  have hch : ∀ c ∈ q.channels, Plain c ∧ c.id = 0 ∧ ∀ b ∈ c.bands, b.lowerFrequencyLimit ≤ b.upperFrequencyLimit ∧
      b.bandType ≠ BandType.WaveletWave := by
    intro c hc
    obtain ⟨t, ht, d2⟩ := hone c hc
    exact timeline_facts sort _ ts _ _ c (fun l hl b hb hn => (hr t ht l hl b hb hn).1) rfl
      ⟨rfl, rfl, rfl, rfl, fun b hb => by cases hb⟩ d2
  have hq' : { q with channels := [] } = { blank with channels := [] } := k1
  have hty : Typed (imported ts q) := by
    refine ⟨(by show 1 < 256; decide), fun t ht => ?_, fun a ha => (by cases ha), fun p hp => ?_, fun s hs => (by cases hs)⟩
    · obtain rfl := Option.some.inj ht
      exact hts
    · rw [List.mem_singleton.mp hp]
      refine ⟨?_, ?_, ?_, fun i hi => ?_, fun i hi => ?_, fun i hi => ?_, fun i hi => ?_, fun i hi => ?_, fun c hc => ?_⟩
      · rw [show q.id = 0 from congrArg Perception.id hq']; exact int32_small (by decide)
      · rw [show q.avatarId = 0 from congrArg Perception.avatarId hq']; exact int32_small (by decide)
      · rw [show q.perceptionModality = 0 from congrArg Perception.perceptionModality hq']; decide
      · rw [show q.priority = none from congrArg Perception.priority hq'] at hi; cases hi
      · rw [show q.unitExponent = none from congrArg Perception.unitExponent hq'] at hi; cases hi
      · rw [show q.perceptionUnitExponent = none from congrArg Perception.perceptionUnitExponent hq'] at hi; cases hi
      · rw [show q.referenceDevices = [] from congrArg Perception.referenceDevices hq'] at hi; cases hi
      · rw [show q.effectLibrary = [] from congrArg Perception.effectLibrary hq'] at hi; cases hi
      · obtain ⟨t, ht, d2⟩ := hone c hc
        exact ivs_typed sort f ts t c (hr t ht) d2
  obtain ⟨r1, r2⟩ := reloads_iff now _ hty
  refine ⟨?_, r2⟩
  have hids : q.channels.map (·.id) = List.replicate q.channels.length 0 := by
    rw [List.eq_replicate_iff]
    refine ⟨by simp, fun x hx => ?_⟩
    obtain ⟨c, hc, rfl⟩ := List.mem_map.mp hx
    exact (hch c hc).2.1
  have hcf := conformant_iff now hn ts q (congrArg Perception.avatarId k1)
    (congrArg Perception.effectSemanticScheme k1) (congrArg Perception.referenceDevices k1)
    (congrArg Perception.effectLibrary k1) (fun c hc => (hch c hc).1)
  rw [r1, hcf, hids, List.nodup_replicate, hlen]
  constructor
  · rintro ⟨-, h1, -, h3, h4⟩
    exact ⟨h1, h3, fun c hc => (h4 c hc).1⟩
  · rintro ⟨h1, h3, h4⟩
    exact ⟨rfl, h1, by omega, h3, fun c hc => ⟨h4 c hc, fun b hb =>
      ⟨((hch c hc).2.2 b hb).1, fun hw => absurd hw ((hch c hc).2.2 b hb).2⟩⟩⟩

/-! ### WAV files -/

theorem signal_band {lg : ℚ → ℚ} {transform : List ℚ → List ℚ} {pm : List ℚ → Wavelet.Model} {bl fs ts : Nat}
    {budget : Int} {s : List ℚ} {e : Spiht.Encoder} {band : Wavelet.WaveletBand}
    (h : Wavelet.encodeSignal lg transform pm bl fs ts budget s e = .ok band) :
    band.upper = fs ∧ band.blockLength = bl * ts / fs := by
  unfold Wavelet.encodeSignal at h
  simp only [bind, Except.bind] at h
  split at h
  · cases h
  · split at h
    · cases h
    · obtain rfl := Except.ok.inj h; exact ⟨rfl, rfl⟩

/-- A wavelet band of a WAV file. -/
def IsWavelet (bl fs ts : Nat) (cutoff : ℚ) (b : Band) : Prop :=
  b.bandType = BandType.WaveletWave ∧ b.lowerFrequencyLimit = truncQ cutoff ∧ b.upperFrequencyLimit = fs ∧
    b.blockLength = some ((bl * ts / fs : Nat) : Int)

theorem wavelet_part {parts : Pcm.Parts} {bl fs ts : Nat} {cutoff : ℚ} (h : WaveletParts parts bl fs ts cutoff)
    {s : List ℚ} {w : Option Band} (hw : parts.wavelet s = .ok w) :
    ∃ b, w = some b ∧ IsWavelet bl fs ts cutoff b ∧ ∀ f ∈ b.effects, Simple f := by
  obtain ⟨lg, tr, pm, bu, e, band, h1, rfl⟩ := h s w hw
  obtain ⟨h2, h3⟩ := signal_band h1
  refine ⟨_, rfl, ⟨rfl, rfl, ?_, ?_⟩, ?_⟩
  · show ((band.upper : Nat) : Int) = _
    rw [h2]
  · show some ((band.blockLength : Nat) : Int) = _
    rw [h3]
  · intro f hf
    obtain ⟨x, -, rfl⟩ := List.mem_map.mp hf
    exact ⟨rfl, rfl⟩

/-- A curve band of a WAV file. -/
def IsCurve (b : Band) : Prop :=
  b.bandType = BandType.Curve ∧ b.lowerFrequencyLimit ≤ b.upperFrequencyLimit ∧ ∀ f ∈ b.effects, Simple f

theorem convert_curve {points : List Pcm.Point} {rate limit : ℚ} {ts : Nat} {b : Band}
    (h : Pcm.convertToCurveBand points rate limit ts = .ok (some b)) :
    ∃ upper kfs, 0 ≤ upper ∧ b = Pcm.curveBand upper kfs := by
  unfold Pcm.convertToCurveBand at h
  by_cases hpos : limit ≤ 0
  · rw [if_pos hpos] at h; cases h
  · rw [if_neg hpos] at h
    simp only [bind, Except.bind, pure, Except.pure] at h
    split at h
    · cases h
    · rename_i upper hup
      split at h
      · cases h
      · rename_i kfs _
        refine ⟨upper, kfs, ?_, (Option.some.inj (Except.ok.inj h)).symm⟩
        unfold castInt at hup
        split at hup
        · rw [← Except.ok.inj hup]
          unfold truncQ
          rw [if_pos (by linarith)]
          exact Int.floor_nonneg.mpr (by linarith)
        · cases hup

theorem curve_part {cfg : Pcm.Config} {ts modality rate : Nat} {s : List ℚ} {b : Band}
    (h : Pcm.CurveOf cfg ts modality rate s b) : IsCurve b := by
  obtain ⟨b0, h1, rfl⟩ := h
  obtain ⟨upper, kfs, hu, rfl⟩ := convert_curve h1
  refine ⟨rfl, hu, fun f hf => ?_⟩
  have : f ∈ (Pcm.curveBand upper kfs).effects := hf
  rw [Pcm.curveBand, List.mem_singleton] at this
  rw [this]
  exact ⟨rfl, rfl⟩

theorem bands_facts {parts : Pcm.Parts} {cfg : Pcm.Config} {ts modality rate bl : Nat} {signal : List ℚ}
    {new : List Band} (hw : WaveletParts parts bl rate ts cfg.curveFrequencyLimit)
    (h : Pcm.Bands parts cfg ts modality rate signal new) :
    new.length ≤ 2 ∧ (∀ b ∈ new, IsCurve b ∨ cfg.waveletEnabled = true ∧
      IsWavelet bl rate ts cfg.curveFrequencyLimit b ∧ ∀ f ∈ b.effects, Simple f) ∧
    (cfg.waveletEnabled = true → ∃ b ∈ new, IsWavelet bl rate ts cfg.curveFrequencyLimit b) := by
  cases h with
  | none h1 h2 => exact ⟨by simp, fun b hb => (by cases hb), fun h => by rw [h2] at h; cases h⟩
  | curve b h1 h2 h3 h4 =>
    exact ⟨by simp, fun x hx => Or.inl (List.mem_singleton.mp hx ▸ curve_part h4), fun h => by rw [h2] at h; cases h⟩
  | low b h1 h2 h3 h4 =>
    exact ⟨by simp, fun x hx => Or.inl (List.mem_singleton.mp hx ▸ curve_part h4), fun h => by rw [h2] at h; cases h⟩
  | wavelet w h1 h2 h3 =>
    obtain ⟨b, rfl, b1, b2⟩ := wavelet_part hw h3
    exact ⟨by simp, fun x hx => Or.inr ⟨h1, List.mem_singleton.mp hx ▸ ⟨b1, b2⟩⟩, fun _ => ⟨b, by simp, b1⟩⟩
  | high r w h1 h2 h3 h4 h5 =>
    obtain ⟨b, rfl, b1, b2⟩ := wavelet_part hw h5
    exact ⟨by simp, fun x hx => Or.inr ⟨h2, List.mem_singleton.mp hx ▸ ⟨b1, b2⟩⟩, fun _ => ⟨b, by simp, b1⟩⟩
  | both c e r w h1 h2 h3 h4 h5 h6 h7 =>
    obtain ⟨b, rfl, b1, b2⟩ := wavelet_part hw h7
    refine ⟨by simp, fun x hx => ?_, fun _ => ⟨b, by simp, b1⟩⟩
    rcases List.mem_cons.mp hx with rfl | hx
    · exact Or.inl (curve_part h4)
    · exact Or.inr ⟨h2, List.mem_singleton.mp hx ▸ ⟨b1, b2⟩⟩

theorem isFloat_one : Json.IsFloat 1 := ⟨1, 0, by decide, by decide, by decide, by norm_num⟩

theorem bands_typed {parts : Pcm.Parts} {cfg : Pcm.Config} {ts modality bl : Nat} {w : Wav.Parser} {signal : List ℚ}
    {new : List Band} (hr : Recorded parts cfg ts bl w) (hs : signal ∈ w.buffer)
    (hw : WaveletParts parts bl w.sampleRate.toNat ts cfg.curveFrequencyLimit)
    (hz : ∀ b ∈ new, ∀ f ∈ b.effects, f.waveletBitstream = [] ∨ ∃ v ∈ f.waveletBitstream, v ≠ 0)
    (h : Pcm.Bands parts cfg ts modality w.sampleRate.toNat signal new) : ∀ b ∈ new, BandTyped b := by
  have h1 : ∀ x ∈ signal, |x| ≤ 2 := fun x hx => (hr.samples signal hs x hx).trans (by norm_num)
  have h2 := hr.filtered signal hs
  have hrate : w.sampleRate.toNat < 2 ^ 31 := by have := hr.rate; omega
  have hwt : ∀ (r : List ℚ) (b : Option Band), r.length = signal.length → parts.wavelet r = .ok b →
      (∀ x ∈ b.toList, ∀ f ∈ x.effects, f.waveletBitstream = [] ∨ ∃ v ∈ f.waveletBitstream, v ≠ 0) →
      ∀ x ∈ b.toList, BandTyped x := by
    intro r b hl hb hzb x hx
    obtain ⟨lg, tr, pm, bu, e, band, e1, rfl⟩ := hw r b hb
    have hx : x = waveletBand cfg.curveFrequencyLimit band := by simpa using hx
    rw [hx]
    exact wavelet_typed e1 hrate hr.limit (hl ▸ hr.time signal hs) hr.block (hzb _ (by simp))
  cases h with
  | none => intro b hb; cases hb
  | curve b _ _ _ h4 => intro x hx; rw [List.mem_singleton.mp hx]; exact curve_typed h1 h4
  | low b _ _ _ h4 => intro x hx; rw [List.mem_singleton.mp hx]; exact curve_typed h2 h4
  | wavelet b _ _ h3 => exact hwt signal b rfl h3 hz
  | high r b _ _ _ h4 h5 => exact hwt r b h4.1 h5 hz
  | both c e r b _ _ _ h4 _ h6 h7 =>
    intro x hx
    rcases List.mem_cons.mp hx with rfl | hx
    · exact curve_typed h2 h4
    · exact hwt r b h6.1 h7 (fun y hy => hz y (List.mem_cons_of_mem _ hy)) x hx

/-- **C92.** What is written of a WAV file can be loaded if and only if it has no more than 127 channels, the timescale
is not above 48000 and, with wavelets, the length of a block in ticks (rounded down) is a power of two and the limit of
the curves is not above the sample rate. -/
theorem c92_wav (parts : Pcm.Parts) (cfg : Pcm.Config) (ts bl : Nat) (w : Wav.Parser) (q : Perception)
    (hts : ts < 2 ^ 32) (hrec : Recorded parts cfg ts bl w) (hc : w.numChannels < 2 ^ 31)
    (hb : w.buffer.length = w.numChannels) (hq : Pcm.encode parts cfg ts (some w) blank = .ok (0, q))
    (hw : WaveletParts parts bl w.sampleRate.toNat ts cfg.curveFrequencyLimit) (hz : NoZeroBlock q)
    (now : Str) (hn : HasFourDigits (keptText now)) :
    (Reloads now (imported ts q) ↔ ts ≤ 48000 ∧ w.numChannels ≤ 127 ∧
      (cfg.waveletEnabled = true → 0 < w.numChannels →
        (∃ k : Nat, bl * ts / w.sampleRate.toNat = 2 ^ k) ∧ truncQ cfg.curveFrequencyLimit ≤ w.sampleRate)) ∧
    (¬ Reloads now (imported ts q) → Refused now (imported ts q)) := by
  have hl := hrec.limit.1
  have hr := hrec.rate.1
  have hr2 : w.sampleRate < 2 ^ 32 := by have := hrec.rate.2; omega
  obtain ⟨⟨cs, rfl⟩, k2, k3⟩ := Pcm.c80_channels parts cfg ts w blank q hl hr hr2 hb hq
  have k2 : cs.length = w.numChannels := k2
  have hct : ∀ c ∈ cs, ChannelTyped c := by
    intro c hc'
    obtain ⟨i, hi⟩ := List.getElem?_of_mem hc'
    have hics := (List.getElem?_eq_some_iff.mp hi).1
    have hil : i < w.buffer.length := by rw [hb, ← k2]; exact hics
    obtain ⟨new, n1, n2⟩ := k3 i _ (List.getElem?_eq_getElem hil)
    have n2 : cs[i]? = _ := n2
    obtain rfl := Option.some.inj (hi.symm.trans n2)
    have hbt := bands_typed hrec (List.getElem_mem hil) hw (hz _ hc') n1
    refine ⟨?_, ?_, ?_, ?_, ?_, ?_, ?_, ?_, ?_, ?_, ?_, ?_, ?_, hbt⟩
    · show Json.Int32 ((i : Nat) : Int)
      unfold Json.Int32
      omega
    · exact isFloat_one
    · exact isFloat_one
    · show (2 ^ 32 - 1 : Nat) < 2 ^ 32
      norm_num
    · intro i hi; cases hi
    · intro i hi; cases hi
    · intro i hi; cases hi
    · intro n hn
      obtain rfl := Option.some.inj hn
      unfold Json.Uint32
      omega
    · intro n hn
      obtain rfl := Option.some.inj hn
      exact Nat.mod_lt _ (by norm_num)
    · intro i hi; cases hi
    · intro i hi; cases hi
    · intro i hi; cases hi
    · intro i hi; cases hi
  have hty : Typed (imported ts { blank with channels := cs }) := by
    refine ⟨(by show 1 < 256; decide), fun t ht => ?_, fun a ha => (by cases ha), fun p hp => ?_, fun s hs => (by cases hs)⟩
    · obtain rfl := Option.some.inj ht
      exact hts
    · rw [List.mem_singleton.mp hp]
      exact ⟨int32_small (i := 0) (by decide), int32_small (i := 0) (by decide), by show 0 < 14; decide,
        fun i hi => (by cases hi), fun i hi => (by cases hi), fun i hi => (by cases hi), fun i hi => (by cases hi),
        fun i hi => (by cases hi), hct⟩
  obtain ⟨r1, r2⟩ := reloads_iff now _ hty
  refine ⟨?_, r2⟩
  have hch : ∀ (i : Nat) (c : Channel), cs[i]? = some c → ∃ new : List Band, c.bands = new ∧ c.id = i ∧
      new.length ≤ 2 ∧ (∀ b ∈ new, IsCurve b ∨ cfg.waveletEnabled = true ∧
        IsWavelet bl w.sampleRate.toNat ts cfg.curveFrequencyLimit b ∧ ∀ f ∈ b.effects, Simple f) ∧
      (cfg.waveletEnabled = true → ∃ b ∈ new, IsWavelet bl w.sampleRate.toNat ts cfg.curveFrequencyLimit b) ∧
      Plain c := by
    intro i c hi
    have hil : i < w.buffer.length := by rw [hb, ← k2]; exact (List.getElem?_eq_some_iff.mp hi).1
    obtain ⟨new, n1, n2⟩ := k3 i _ (List.getElem?_eq_getElem hil)
    have n2 : cs[i]? = _ := n2
    obtain rfl := Option.some.inj (hi.symm.trans n2)
    obtain ⟨f1, f2, f3⟩ := bands_facts hw n1
    refine ⟨new, rfl, rfl, f1, f2, f3, ⟨rfl, rfl, rfl, rfl, fun b hb f hf => ?_⟩⟩
    rcases f2 b hb with h | h
    · exact h.2.2 f hf
    · exact h.2.2 f hf
  have hplain : ∀ c ∈ cs, Plain c := by
    intro c hc
    obtain ⟨i, hi⟩ := List.getElem?_of_mem hc
    obtain ⟨_, _, _, _, _, _, h⟩ := hch i c hi
    exact h
  have hids : (cs.map (·.id)).Nodup := by
    rw [List.nodup_iff_pairwise_ne, List.pairwise_iff_getElem]
    intro i j hi hj hij
    rw [List.getElem_map, List.getElem_map]
    obtain ⟨_, _, h1, _⟩ := hch i _ (List.getElem?_eq_getElem (by simpa using hi))
    obtain ⟨_, _, h2, _⟩ := hch j _ (List.getElem?_eq_getElem (by simpa using hj))
    rw [h1, h2]
    omega
  have hcf := conformant_iff now hn ts { blank with channels := cs } rfl rfl rfl rfl hplain
  rw [r1, hcf]
  show _ ∧ _ ∧ cs.length ≤ 127 ∧ _ ∧ _ ↔ _
  rw [k2]
  have hrate : ((w.sampleRate.toNat : Nat) : Int) = w.sampleRate := Int.toNat_of_nonneg hr.le
  constructor
  · rintro ⟨-, h1, h2, -, h4⟩
    refine ⟨h1, h2, fun he hpos => ?_⟩
    have h0 : 0 < cs.length := by omega
    obtain ⟨new, g1, -, -, -, g5, -⟩ := hch 0 cs[0] (List.getElem?_eq_getElem h0)
    obtain ⟨b, hbn, w1, w2, w3, w4⟩ := g5 he
    obtain ⟨l1, l2⟩ := (h4 cs[0] (List.getElem_mem h0)).2 b (g1 ▸ hbn)
    obtain ⟨k, hk⟩ := l2 w1
    rw [w4] at hk
    refine ⟨⟨k, ?_⟩, ?_⟩
    · have hk : ((bl * ts / w.sampleRate.toNat : Nat) : Int) = 2 ^ k := hk
      exact_mod_cast hk
    · rw [w2, w3, hrate] at l1; exact l1
  · rintro ⟨h1, h2, h3⟩
    refine ⟨rfl, h1, h2, hids, fun c hc => ?_⟩
    obtain ⟨i, hi⟩ := List.getElem?_of_mem hc
    obtain ⟨new, g1, -, g3, g4, -⟩ := hch i c hi
    have hpos : 0 < w.numChannels := by rw [← k2]; exact List.length_pos_of_mem hc
    rw [g1]
    refine ⟨by omega, fun b hb => ?_⟩
    rcases g4 b hb with h | ⟨he, ⟨w1, w2, w3, w4⟩, -⟩
    · refine ⟨h.2.1, fun hw => ?_⟩
      rw [h.1] at hw
      cases hw
    · obtain ⟨⟨k, hk⟩, hlim⟩ := h3 he hpos
      refine ⟨by rw [w2, w3, hrate]; exact hlim, fun _ => ⟨k, ?_⟩⟩
      rw [w4, Option.getD_some, hk]
      push_cast
      rfl

/-! ### Concrete files -/

theorem of_summary {α β : Type} {r : Except Err α} {f : α → β} {b : β} (h : r.toOption.map f = some b) :
    ∃ q, r = .ok q ∧ f q = b := by
  cases r with
  | error e => cases h
  | ok q => exact ⟨q, rfl, Option.some.inj h⟩

/-- `n` events of one second that start together. -/
def together (n : Nat) : List Ahap.Item := List.replicate n (.continuous 0 1 [])

theorem together_valid (n : Nat) : ∀ i ∈ together n, i.Valid 1000 := by
  intro i hi
  obtain rfl := List.eq_of_mem_replicate hi
  refine ⟨le_refl _, by norm_num, by norm_num, by norm_num, fun p hp => by cases hp⟩

theorem together_covered (n : Nat) : Ahap.Covered 1000 (together n) := by
  intro x hx
  have hx : x = (0, 1, []) := by
    obtain ⟨i, hi, he⟩ := List.mem_filterMap.mp hx
    obtain rfl := List.eq_of_mem_replicate hi
    exact (Option.some.inj he).symm
  have h1 : Ahap.intensityPoints 1000 (together n) = [] :=
    List.flatMap_eq_nil_iff.mpr (fun i hi => by rw [List.eq_of_mem_replicate hi])
  have h2 : Ahap.sharpnessPoints 1000 (together n) = [] :=
    List.flatMap_eq_nil_iff.mpr (fun i hi => by rw [List.eq_of_mem_replicate hi])
  rw [h1, h2, hx]
  exact ⟨Or.inl rfl, Or.inl rfl⟩

/-- Six events that sound at once: the file can be loaded. -/
example (now : Str) (hn : HasFourDigits (keptText now)) :
    ∃ q, Ahap.encode (Ahap.fileOf (together 6)) 1000 blank = .ok (some q) ∧ Reloads now (imported 1000 q) := by
  obtain ⟨q, q1, q2⟩ := c92_ahap 1000 (by norm_num) (together 6) (together_valid 6) (together_covered 6) now hn
  refine ⟨q, q1, (q2.2 (by decide +kernel)).mpr ⟨by norm_num, fun t => ?_⟩⟩
  exact List.countP_le_length.trans (by decide)

/-- **C92, what does not hold.** An AHAP file in which seven events sound at once is encoded, and the file made of it
is refused on loading. -/
theorem c92_ahap_negation (now : Str) (hn : HasFourDigits (keptText now)) : ∃ items q,
    (∀ i ∈ items, i.Valid 1000) ∧ Ahap.Covered 1000 items ∧
    Ahap.encode (Ahap.fileOf items) 1000 blank = .ok (some q) ∧ Refused now (imported 1000 q) := by
  obtain ⟨q, q1, q2⟩ := c92_ahap 1000 (by norm_num) (together 7) (together_valid 7) (together_covered 7) now hn
  exact ⟨_, q, together_valid 7, together_covered 7, q1, q2.1 (.inr ⟨0, by decide +kernel⟩)⟩

/-- A file with the first or with both of the timelines. -/
def someTimelines (n : Nat) : Ivs.File := { Ivs.twoTimelines with timelines := Ivs.twoTimelines.timelines.take n }

theorem someTimelines_regular (n : Nat) : ∀ t ∈ (someTimelines n).timelines, ∀ l ∈ t.launchEvents,
    ∀ b ∈ (someTimelines n).basisEffects, b.name = l.effect → Ivs.Regular b l 1000 ∧ Ivs.InRange b l := by
  have key : ∀ t ∈ Ivs.twoTimelines.timelines, ∀ l ∈ t.launchEvents, ∀ b ∈ Ivs.twoTimelines.basisEffects,
      Ivs.toTicks (Ivs.getDuration b l) 1000 = .ok 200 ∧ b.attackTime = some 50 ∧ b.fadeTime = some 100 ∧
      (Ivs.getMagnitude b l = 10000 ∧ b.attackLevel = some 0 ∧ b.fadeLevel = some 5000) ∧ b.type ≠ "periodic" := by
    decide +kernel
  intro t ht l hl b hb _
  obtain ⟨h1, h2, h3, ⟨h4, h5, h6⟩, h7⟩ := key t (List.mem_of_mem_take ht) l hl b hb
  refine ⟨⟨fun d hd => ?_, fun a ha => ?_, fun f hf => ?_⟩, ⟨by rw [h4]; decide, fun a ha => ?_, fun a ha => ?_,
    fun h => absurd h h7⟩⟩
  · rw [h1] at hd; injection hd with hd; omega
  · rw [h2] at ha; injection ha with ha; omega
  · rw [h3] at hf; injection hf with hf; omega
  · rw [h5] at ha; obtain rfl := Option.some.inj ha; decide
  · rw [h6] at ha; obtain rfl := Option.some.inj ha; decide

theorem someTimelines_bands (n : Nat) (hn : n ∈ [1, 2]) : ∃ q, Ivs.encode id (someTimelines n) 1000 blank = .ok q ∧
    q.channels.all (fun c => decide (c.bands.length ≤ 7)) = true := by
  refine of_summary ?_
  have key : ∀ n ∈ [1, 2], (Ivs.encode id (someTimelines n) 1000 blank).toOption.map (fun q =>
    q.channels.all (fun c => decide (c.bands.length ≤ 7))) = some true := by
    decide +kernel
  exact key n hn

/-- One timeline: the file can be loaded. -/
example (now : Str) (hn : HasFourDigits (keptText now)) :
    ∃ q, Ivs.encode id (someTimelines 1) 1000 blank = .ok q ∧ Reloads now (imported 1000 q) := by
  obtain ⟨q, q1, q2⟩ := someTimelines_bands 1 (by decide)
  refine ⟨q, q1, (c92_ivs id _ 1000 q (by norm_num) q1 (someTimelines_regular 1) now hn).1.mpr
    ⟨by norm_num, by decide, fun c hc => ?_⟩⟩
  simpa using List.all_eq_true.mp q2 c hc

/-- **C92, what does not hold.** An IVS file with two timelines is encoded, and the file made of it is refused on
loading. -/
theorem c92_ivs_negation (now : Str) (hn : HasFourDigits (keptText now)) : ∃ f q,
    (∀ t ∈ f.timelines, ∀ l ∈ t.launchEvents, ∀ b ∈ f.basisEffects, b.name = l.effect →
      Ivs.Regular b l 1000 ∧ Ivs.InRange b l) ∧
    Ivs.encode id f 1000 blank = .ok q ∧ Refused now (imported 1000 q) := by
  obtain ⟨q, q1, -⟩ := someTimelines_bands 2 (by decide)
  obtain ⟨r1, r2⟩ := c92_ivs id _ 1000 q (by norm_num) q1 (someTimelines_regular 2) now hn
  exact ⟨_, q, someTimelines_regular 2, q1, r2 (fun hr => absurd (r1.mp hr).2.1 (by decide))⟩

theorem not_two_pow {n j : Nat} (h1 : 2 ^ j < n) (h2 : n < 2 ^ (j + 1)) : ¬ ∃ k : Nat, n = 2 ^ k := by
  rintro ⟨k, rfl⟩
  have := (Nat.pow_lt_pow_iff_right (by norm_num : 1 < 2)).mp h1
  have := (Nat.pow_lt_pow_iff_right (by norm_num : 1 < 2)).mp h2
  omega

/-- **C92, what does not hold.** With the block length and the timescale that the encoder takes when it is not told
otherwise, whatever a WAV file of 44.1 or 48 kHz holds, the file made of it is refused on loading. -/
theorem c92_wav_negation (parts : Pcm.Parts) (cfg : Pcm.Config) (w : Wav.Parser) (q : Perception)
    (hrec : Recorded parts cfg 1000 1024 w) (hr : w.sampleRate = 44100 ∨ w.sampleRate = 48000)
    (hb : w.buffer.length = w.numChannels) (h0 : 0 < w.numChannels) (hc : w.numChannels < 2 ^ 31)
    (hwe : cfg.waveletEnabled = true) (hq : Pcm.encode parts cfg 1000 (some w) blank = .ok (0, q))
    (hw : WaveletParts parts 1024 w.sampleRate.toNat 1000 cfg.curveFrequencyLimit) (hz : NoZeroBlock q)
    (now : Str) (hn : HasFourDigits (keptText now)) : Refused now (imported 1000 q) := by
  obtain ⟨r1, r2⟩ := c92_wav parts cfg 1000 1024 w q (by norm_num) hrec hc hb hq hw hz now hn
  refine r2 (fun hre => ?_)
  obtain ⟨k, -⟩ := (r1.mp hre).2.2 hwe h0
  rcases hr with hr | hr <;> rw [hr] at k
  · exact not_two_pow (j := 4) (by decide) (by decide) k
  · exact not_two_pow (j := 4) (by decide) (by decide) k

/-- A wavelet encoder with the identity for the transform. -/
def waveletParts (bl fs ts : Nat) : Pcm.Parts where
  lowPass := fun s _ => s
  evaluate := fun _ m => .ok (List.replicate m 0)
  wavelet := fun s => (Wavelet.encodeSignal (fun x => x) (fun l => l) (fun _ => ⟨[1, 2], [.fin 0, .fin 3]⟩) bl fs ts 12 s
    {}).map (fun w => some (waveletBand 0 w))

theorem waveletParts_ok (bl fs ts : Nat) : WaveletParts (waveletParts bl fs ts) bl fs ts 0 := by
  intro s w h
  unfold waveletParts at h
  simp only at h
  generalize hb : Wavelet.encodeSignal (fun x => x) (fun l => l) (fun _ => ⟨[1, 2], [.fin 0, .fin 3]⟩) bl fs ts 12 s {} = r
    at h
  cases r with
  | error e => cases h
  | ok band => exact ⟨_, _, _, _, _, band, hb, (Except.ok.inj h).symm⟩

def noZeroBlock (p : Perception) : Bool :=
  p.channels.all (fun c => c.bands.all (fun b => b.effects.all (fun f =>
    f.waveletBitstream.isEmpty || f.waveletBitstream.any (fun v => v != 0))))

theorem noZeroBlock_sound {p : Perception} (h : noZeroBlock p = true) : NoZeroBlock p := by
  intro c hc b hb f hf
  unfold noZeroBlock at h
  have := List.all_eq_true.mp (List.all_eq_true.mp (List.all_eq_true.mp h c hc) b hb) f hf
  simpa using this

/-- Twelve samples at 8 kHz in blocks of eight: the file can be loaded. -/
example (now : Str) (hn : HasFourDigits (keptText now)) : ∃ q,
    Pcm.encode (waveletParts 8 8000 1000) {} 1000 (some ⟨8000, 1, 12, [List.replicate 12 (1 / 3)]⟩) blank = .ok (0, q) ∧
    Reloads now (imported 1000 q) := by
  obtain ⟨⟨n, q⟩, q1, q2⟩ := of_summary (show (Pcm.encode (waveletParts 8 8000 1000) {} 1000
    (some ⟨8000, 1, 12, [List.replicate 12 (1 / 3)]⟩) blank).toOption.map
      (fun r => (r.1, noZeroBlock r.2)) = some (0, true) by decide +kernel)
  obtain ⟨q2, q3⟩ := Prod.mk.inj q2
  simp only at q2 q3
  subst q2
  have hs : ∀ s ∈ [List.replicate 12 (1 / 3 : ℚ)], ∀ x ∈ s, |x| ≤ 1 := by
    intro s hs x hx
    rw [List.mem_singleton.mp hs] at hx
    rw [List.eq_of_mem_replicate hx]
    norm_num [abs_of_pos]
  have hrec : Recorded (waveletParts 8 8000 1000) {} 1000 8 ⟨8000, 1, 12, [List.replicate 12 (1 / 3)]⟩ := by
    refine ⟨hs, fun s h x hx => (hs s h x hx).trans (by norm_num), ⟨le_refl _, by norm_num⟩, by decide, ?_, by decide⟩
    intro s h
    rw [List.mem_singleton.mp h]
    decide
  exact ⟨q, q1, (c92_wav _ _ 1000 8 _ q (by norm_num) hrec (by decide) rfl q1 (waveletParts_ok 8 8000 1000)
    (noZeroBlock_sound q3) now hn).1.mpr ⟨by norm_num, by norm_num, fun _ _ => ⟨⟨0, rfl⟩, by decide +kernel⟩⟩⟩

/-- A file of 48 kHz with one channel, in which there is nothing. -/
example (now : Str) (hn : HasFourDigits (keptText now)) : ∃ q,
    Pcm.encode (waveletParts 1024 48000 1000) {} 1000 (some ⟨48000, 1, 0, [[]]⟩) blank = .ok (0, q) ∧
    Refused now (imported 1000 q) := by
  obtain ⟨⟨n, q⟩, q1, q2⟩ := of_summary (show (Pcm.encode (waveletParts 1024 48000 1000) {} 1000
    (some ⟨48000, 1, 0, [[]]⟩) blank).toOption.map
      (fun r => (r.1, noZeroBlock r.2)) = some (0, true) by decide +kernel)
  obtain ⟨q2, q3⟩ := Prod.mk.inj q2
  simp only at q2 q3
  subst q2
  have hs : ∀ s ∈ [([] : List ℚ)], ∀ x ∈ s, |x| ≤ 1 := by
    intro s hs x hx
    rw [List.mem_singleton.mp hs] at hx
    cases hx
  have hrec : Recorded (waveletParts 1024 48000 1000) {} 1000 1024 ⟨48000, 1, 0, [[]]⟩ := by
    refine ⟨hs, fun s h x hx => (hs s h x hx).trans (by norm_num), ⟨le_refl _, by norm_num⟩, by decide, ?_, by decide⟩
    intro s h
    rw [List.mem_singleton.mp h]
    decide
  exact ⟨q, q1, c92_wav_negation _ _ _ q hrec (.inr rfl) rfl Nat.one_pos (by decide) rfl q1
    (waveletParts_ok 1024 48000 1000) (noZeroBlock_sound q3) now hn⟩

/-- The time of day, as the encoder gives it. -/
example : HasFourDigits (keptText (Json.lit "Mon Nov 16 11:38:26 2026")) := by
  rw [← date_iff]
  decide +kernel

end Haptics.Accepted
