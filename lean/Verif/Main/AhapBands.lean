import Verif.Encoder.AhapTyped
import Verif.Encoder.PropsInject
import Verif.Encoder.Main

/-! The channel that is made of an AHAP file, band by band. -/

namespace Haptics.Accepted
open Haptics Haptics.Json
open Haptics.EncoderMain (blank)

theorem insertEffect_ne (e : Effect) (l : List Effect) : insertEffect e l ≠ [] := by
  intro h
  have := (insertEffect_perm e l).length_eq
  rw [h] at this
  simp at this

/-- No vectorial band is left empty. -/
theorem injectAll_filled (lower upper : Int) (es : List Effect) (c d : Channel)
    (hc : ∀ b ∈ c.bands, b.effects ≠ []) (h : c.injectAll lower upper es = .ok d) : ∀ b ∈ d.bands, b.effects ≠ [] := by
  induction es generalizing c with
  | nil => obtain rfl := Except.ok.inj h; exact hc
  | cons e es ih =>
    rw [Channel.injectAll] at h
    cases h1 : c.inject lower upper e with
    | error x => rw [h1] at h; cases h
    | ok c' =>
      rw [h1] at h
      refine ih c' ?_ h
      unfold Channel.inject at h1
      split at h1
      · cases h1
      · split at h1
        · cases h1
        · obtain rfl := Except.ok.inj h1
          intro b hb
          obtain ⟨i, hi, rfl⟩ := List.mem_iff_getElem.mp hb
          rw [List.getElem_modify]
          split
          · exact insertEffect_ne _ _
          · exact hc _ (List.getElem_mem _)
        · obtain rfl := Except.ok.inj h1
          intro b hb
          rcases List.mem_append.mp hb with hb | hb
          · exact hc b hb
          · rw [List.mem_singleton] at hb
            subst hb
            exact insertEffect_ne _ _

/-- A vectorial band from 65 to 300 Hz with the given effects. -/
def waveBand (es : List Effect) : Band :=
  { bandType := BandType.VectorialWave, lowerFrequencyLimit := 65, upperFrequencyLimit := 300, effects := es }

/-- The channel in which an AHAP file is put, with the given bands. -/
def ahapChannel (bands : List Band) : Channel := { Ahap.channelOf blank with bands := bands }

/-- The channel of an AHAP file: the band of the transients, then vectorial bands, none of them empty, with the
continuous events one after the other. -/
theorem ahap_bands (ts : Nat) (hts : ts < 2 ^ 32) (items : List Ahap.Item) (h : ∀ i ∈ items, i.Valid ts)
    (hc : Ahap.Covered ts items) :
    ∃ T C rest, Ahap.encode (Ahap.fileOf items) ts blank =
        .ok (some { blank with channels := [ahapChannel (Ahap.transientBand T :: rest)] }) ∧
      List.Forall₂ (Ahap.TransientOf (Ahap.intensityPoints ts items) (Ahap.sharpnessPoints ts items) ts)
        (Ahap.transients items) T ∧
      List.Forall₂ (Ahap.ContinuousOf (Ahap.intensityPoints ts items) (Ahap.sharpnessPoints ts items) ts)
        (Ahap.continuous items) C ∧ (∀ e ∈ C, e.Timed) ∧
      (rest.flatMap (·.effects)).Perm C ∧
      ∀ b ∈ rest, b = waveBand b.effects ∧ b.Sequential ∧ b.effects ≠ [] := by
  obtain ⟨c, T, C, e1, e0, e2, e3, e4⟩ := Ahap.encode_parts ts hts items h blank
    ⟨Nat.zero_le _, fun c hc => by cases hc⟩ hc
  unfold Ahap.fillChannel at e4
  set c0 : Channel := { Ahap.channelOf blank with bands := (Ahap.channelOf blank).bands ++ [Ahap.transientBand T] }
    with hc0
  have hb0 : c0.bands = [Ahap.transientBand T] := rfl
  have hnv : ∀ b ∈ c0.bands, b.bandType ≠ BandType.VectorialWave := by
    intro b hb
    rw [hb0, List.mem_singleton] at hb
    subst hb
    show BandType.Transient ≠ _
    decide
  obtain ⟨d, d1, d2, d3, d4⟩ := c74_distributed 65 300 c0 C (fun b hb ht => absurd ht (hnv b hb)) e3
  obtain rfl : c = d := Except.ok.inj (e4.symm.trans d1)
  have hf := injectAll_filled 65 300 C c0 c (fun b hb => by
    rw [hb0, List.mem_singleton] at hb
    subst hb
    exact insertEffect_ne _ _) e4
  obtain ⟨b', k1, -, -, k4⟩ := d2.old 0 (Ahap.transientBand T) rfl
  have k4 := k4 (show BandType.Transient ≠ BandType.VectorialWave by decide)
  subst k4
  obtain ⟨rest, hr⟩ : ∃ rest, c.bands = Ahap.transientBand T :: rest := by
    cases hcb : c.bands with
    | nil => rw [hcb] at k1; cases k1
    | cons b l => rw [hcb] at k1; cases k1; exact ⟨l, rfl⟩
  refine ⟨T, C, rest, ?_, e0, e2, e3, ?_, fun b hb => ?_⟩
  · rw [e1]
    have hsame := d2.same
    have : c = ahapChannel (Ahap.transientBand T :: rest) := by
      have k := congrArg (fun x : Channel => { x with bands := c.bands }) hsame
      rw [← hr]
      exact k
    rw [this]
  · have hp := d3
    unfold Channel.effects at hp
    rw [hr, hb0, List.flatMap_cons, List.flatMap_cons, List.flatMap_nil, List.append_nil] at hp
    exact (List.perm_append_left_iff _).mp hp
  · have hbm : b ∈ c.bands := by rw [hr]; exact List.mem_cons_of_mem _ hb
    obtain ⟨i, hi, rfl⟩ := List.mem_iff_getElem.mp hb
    have hn := d2.new (i + 1) rest[i] (by rw [hb0]; simp) (by rw [hr]; simp [hi])
    have ht : rest[i].bandType = BandType.VectorialWave := congrArg Band.bandType hn
    refine ⟨?_, d4 _ hbm ht, hf _ hbm⟩
    exact congrArg (fun x : Band => { x with effects := rest[i].effects }) hn

theorem eventTick_range (ts : Nat) {t : ℚ} (ht : 0 ≤ t) (h : t * ts ≤ 2 ^ 29) (hts : ts < 2 ^ 32) :
    0 ≤ Ahap.eventTick ts t ∧ Ahap.eventTick ts t ≤ 2 ^ 29 + 1 := by
  obtain ⟨h1, h2⟩ := Ahap.eventTick_close ts ht h hts
  refine ⟨h2, ?_⟩
  have := (abs_le.mp h1).2
  have : (Ahap.eventTick ts t : ℚ) ≤ ((2 ^ 29 + 1 : ℤ) : ℚ) := by push_cast; linarith
  exact_mod_cast this

theorem sequential_ordered {l : List Effect} (h : ∀ e ∈ l, 0 ≤ e.length)
    (hs : l.Pairwise (fun e f => e.position + e.length < f.position)) :
    l.Pairwise (fun f g => f.position ≤ g.position) := by
  refine hs.imp_of_mem (fun {a b} ha _ hab => ?_)
  have := h a ha
  omega

theorem int32_small {i : Int} (h : -2 ^ 30 ≤ i ∧ i ≤ 2 ^ 30) : Json.Int32 i := by
  unfold Json.Int32
  omega

/-- The keyframes of the transients: their times, amplitudes and frequencies. -/
theorem transient_keyframes {A F : List Ahap.Point} (gA : Ahap.GoodPoints A) (gF : Ahap.GoodPoints F) {ts : Nat}
    {l : List (ℚ × List Ahap.Parameter)} (hv : ∀ x ∈ l, (Ahap.Item.transient x.1 x.2).Valid ts) {T : List Effect}
    (h : List.Forall₂ (Ahap.TransientOf A F ts) l T) :
    List.Forall₂ (fun x k => ∃ a f, k = (⟨some (Ahap.eventTick ts x.1), some a, some f⟩ : Keyframe) ∧ Ahap.UnitFloat a ∧
      -80 ≤ f ∧ f ≤ 390 ∧ ((∀ p ∈ F, 0 ≤ p.2) → 0 ≤ f)) l (Ahap.transientEffect T).keyframes := by
  induction h with
  | nil => exact .nil
  | cons h _ ih =>
    obtain ⟨a, f, rfl, h1, h2, h3, h4⟩ := Ahap.transientOf_sound gA gF (hv _ List.mem_cons_self) h
    refine .cons ⟨a, f, ?_, h1, h2, h3, h4⟩ (ih (fun x hx => hv x (List.mem_cons_of_mem _ hx)))
    simp [Ahap.eventEffect]

theorem forall₂_right {α β : Type} {R : α → β → Prop} {l : List α} {m : List β} (h : List.Forall₂ R l m) :
    ∀ y ∈ m, ∃ x ∈ l, R x y := by
  induction h with
  | nil => intro y hy; cases hy
  | cons h _ ih =>
    intro y hy
    rcases List.mem_cons.mp hy with rfl | hy
    · exact ⟨_, List.mem_cons_self, h⟩
    · obtain ⟨x, hx, hr⟩ := ih y hy
      exact ⟨x, List.mem_cons_of_mem _ hx, hr⟩

/-- All values in what is made of an AHAP file are values of the C++ types. -/
theorem ahap_typed (ts : Nat) (hts : ts < 2 ^ 32) (items : List Ahap.Item) (h : ∀ i ∈ items, i.Valid ts)
    {T C : List Effect} {rest : List Band}
    (hT : List.Forall₂ (Ahap.TransientOf (Ahap.intensityPoints ts items) (Ahap.sharpnessPoints ts items) ts)
        (Ahap.transients items) T)
    (hC : List.Forall₂ (Ahap.ContinuousOf (Ahap.intensityPoints ts items) (Ahap.sharpnessPoints ts items) ts)
        (Ahap.continuous items) C) (hCt : ∀ e ∈ C, e.Timed) (hp : (rest.flatMap (·.effects)).Perm C)
    (hr : ∀ b ∈ rest, b = waveBand b.effects ∧ b.Sequential) :
    ChannelTyped (ahapChannel (Ahap.transientBand T :: rest)) := by
  have gA := Ahap.good_intensity ts hts items h
  have gF := Ahap.good_sharpness ts hts items h
  refine ⟨?_, ?_, ?_, ?_, ?_, ?_, ?_, ?_, ?_, ?_, ?_, ?_, ?_, ?_⟩
  · exact int32_small (i := 0) (by decide)
  · exact ⟨1, 0, by decide, by decide, by decide, by norm_num [ahapChannel, Ahap.channelOf, blank]⟩
  · exact ⟨1, 0, by decide, by decide, by decide, by norm_num [ahapChannel, Ahap.channelOf, blank]⟩
  · show (0 : Nat) < 2 ^ 32
    norm_num
  · intro i hi; cases hi
  · intro i hi; cases hi
  · intro i hi; cases hi
  · intro i hi; cases hi
  · intro i hi; cases hi
  · intro i hi; cases hi
  · intro i hi; cases hi
  · intro i hi; cases hi
  · intro i hi; cases hi
  intro b hb
  rcases List.mem_cons.mp (show b ∈ Ahap.transientBand T :: rest from hb) with rfl | hb
  · refine ⟨by show BandType.Transient < 4; decide, fun n hn => (by cases hn), fun n hn => (by cases hn; decide),
      int32_small (i := 65) (by decide), int32_small (i := 300) (by decide), fun n hn => (by cases hn), fun e he => ?_, List.pairwise_singleton _ _⟩
    rw [List.mem_singleton.mp (show e ∈ [Ahap.transientEffect T] from he)]
    refine ⟨int32_small (i := -1) (by decide), int32_small (i := 0) (by decide), fun q hq => (by cases hq), fun q hq => (by cases hq),
      fun q hq => (by cases hq), (by show EffectType.Basis < 3; decide), fun k hk => ?_, Or.inl rfl⟩
    obtain ⟨x, hx, a, f, rfl, h1, h2, h3, -⟩ := forall₂_right (transient_keyframes gA gF (Ahap.transients_valid h) hT) k hk
    have hv := Ahap.transients_valid h x hx
    obtain ⟨t1, t2⟩ := eventTick_range ts hv.1 hv.2.1 hts
    refine ⟨fun i hi => ?_, fun q hq => ?_, fun i hi => ?_⟩
    · obtain rfl := Option.some.inj hi
      exact int32_small (by omega)
    · obtain rfl := Option.some.inj hq
      exact h1.1
    · obtain rfl := Option.some.inj hi
      exact int32_small (by omega)
  · obtain ⟨r1, r2⟩ := hr b hb
    have hin : ∀ e ∈ b.effects, e ∈ C := fun e he => hp.mem_iff.mp (List.mem_flatMap.mpr ⟨b, hb, he⟩)
    have hord := sequential_ordered (fun e he => (timed_last (hCt e (hin e he))).2.1) r2
    rw [r1]
    refine ⟨by show BandType.VectorialWave < 4; decide, fun n hn => (by cases hn), fun n hn => (by cases hn; decide),
      int32_small (i := 65) (by decide), int32_small (i := 300) (by decide), fun n hn => (by cases hn), fun e he => ?_, hord⟩
    obtain ⟨x, hx, hxe⟩ := forall₂_right hC e (hin e he)
    have hv := Ahap.continuous_valid h x hx
    have hs := Ahap.continuousOf_sound gA hts hv hxe
    obtain ⟨kfs, -, rfl⟩ := hxe
    obtain ⟨t1, t2⟩ := eventTick_range ts hv.1 hv.2.1 hts
    have hd0 : 0 ≤ x.2.1 := by
      by_contra hn
      push Not at hn
      have : x.2.1 * ts ≤ 0 := mul_nonpos_of_nonpos_of_nonneg hn.le (by positivity)
      have := hv.2.2.2.1
      linarith
    obtain ⟨d1, d2⟩ := eventTick_range ts hd0 hv.2.2.1 hts
    refine ⟨int32_small (i := -1) (by decide), int32_small (by show _ ≤ Ahap.eventTick ts x.1 ∧ Ahap.eventTick ts x.1 ≤ _; omega),
      fun q hq => ?_, fun q hq => ?_, fun q hq => (by cases hq), (by show EffectType.Basis < 3; decide), fun k hk => ?_, Or.inl rfl⟩
    · obtain rfl := Option.some.inj hq
      exact ⟨0, 0, by decide, by decide, by decide, by norm_num⟩
    · obtain rfl := Option.some.inj hq
      decide
    · obtain ⟨⟨y, s0, s1, s1'⟩, s2, s3⟩ := hs k hk
      refine ⟨fun i hi => ?_, fun q hq => (s2 q hq).1, fun i hi => ?_⟩
      · obtain rfl := Option.some.inj (s0.symm.trans hi)
        exact int32_small (by omega)
      · have := s3 i hi
        exact int32_small (by omega)

end Haptics.Accepted
