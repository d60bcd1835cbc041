import Verif.Encoder.IvsTyped
import Verif.Main.AhapBands

/-! The channel that is made of a timeline of an IVS file, band by band. -/

namespace Haptics.Accepted
open Haptics Haptics.Json

/-- An effect made by a launch event, at any time. -/
def Played (basis : List Ivs.Basis) (ts : Nat) (ls : List Ivs.Launch) (e : Effect) : Prop :=
  ∃ l ∈ ls, ∃ b ∈ basis, b.name = l.effect ∧ ∃ e0, Ivs.Made b l ts e0 ∧ e = { e0 with position := e.position }

/-- A vectorial band from 0 to 1000 Hz with the given effects. -/
def ivsBand (es : List Effect) : Band :=
  { bandType := BandType.VectorialWave, lowerFrequencyLimit := 0, upperFrequencyLimit := 1000, effects := es }

theorem ivs_bands (sort : List Ivs.Repeat → List Ivs.Repeat) (basis : List Ivs.Basis) (ts : Nat) (t : Ivs.Timeline)
    (c d : Channel) (hr : ∀ l ∈ t.launchEvents, ∀ b ∈ basis, b.name = l.effect → Ivs.Regular b l ts ∧ Ivs.InRange b l)
    (hc : c.bands = []) (h : Ivs.encodeTimeline sort basis ts t c = .ok d) :
    ∃ es played, Ivs.launched basis ts t.launchEvents = .ok es ∧
      List.Forall₂ (Ivs.InTicks ts) (Ivs.expandRepeats (sort t.repeatEvents) es) played ∧
      (∀ e ∈ played, Played basis ts t.launchEvents e ∧ e.Timed ∧ ∃ p, Ivs.toTicks p ts = .ok e.position) ∧
      d = { c with bands := d.bands } ∧ (d.bands.flatMap (·.effects)).Perm played ∧
      ∀ b ∈ d.bands, b = ivsBand b.effects ∧ b.Sequential ∧ b.effects ≠ [] := by
  obtain ⟨es, played, -, h2, h3, h4, h5, h6⟩ := Ivs.c75_timeline sort basis ts t c d
    (fun l hl b hb hn => (hr l hl b hb hn).1) (fun b hb => by rw [hc] at hb; cases hb) h
  have s1 : ∀ e ∈ es, Played basis ts t.launchEvents e ∧ e.Timed := fun e he => by
    obtain ⟨l, hl, b, hb, hn, hm⟩ := Ivs.launched_made _ es hr h2 e he
    exact ⟨⟨l, hl, b, hb, hn, e, hm, (by cases e; rfl)⟩, (Ivs.launched_spec basis ts _ es
      (fun l hl b hb hn => (hr l hl b hb hn).1) h2).2 e he⟩
  have s2 := Ivs.expand_all (fun e => Played basis ts t.launchEvents e ∧ e.Timed) (fun e p he => by
    obtain ⟨⟨l, hl, b, hb, hn, e0, hm, h0⟩, ht⟩ := he
    refine ⟨⟨l, hl, b, hb, hn, e0, hm, ?_⟩, ht⟩
    rw [h0]) (sort t.repeatEvents) es s1
  refine ⟨es, played, h2, h3, fun e he => ?_, ?_, ?_, fun b hb => ?_⟩
  · obtain ⟨x, hx, p, hp1, hp2⟩ := forall₂_right h3 e he
    obtain ⟨⟨l, hl, b, hb, hn, e0, hm, h0⟩, ht⟩ := s2 x hx
    refine ⟨⟨l, hl, b, hb, hn, e0, hm, ?_⟩, ?_, ?_⟩
    · rw [hp2, h0]
    · rw [hp2]; exact ht
    · exact ⟨_, by rw [hp2]; exact hp1⟩
  · have := congrArg (fun x : Channel => { x with bands := d.bands }) h4.same
    exact this
  · unfold Channel.effects at h5
    rw [hc] at h5
    exact h5
  · obtain ⟨i, hi⟩ := List.getElem?_of_mem hb
    have hn := h4.new i b (by rw [hc]; exact Nat.zero_le _) hi
    have ht : b.bandType = BandType.VectorialWave := congrArg Band.bandType hn
    refine ⟨congrArg (fun x : Band => { x with effects := b.effects }) hn, h6 b hb ht, ?_⟩
    unfold Ivs.encodeTimeline at h
    cases hl : Ivs.launched basis ts t.launchEvents with
    | error x => rw [hl] at h; cases h
    | ok es' =>
      rw [hl] at h
      change Except.bind (Ivs.ticks ts (Ivs.expandRepeats (sort t.repeatEvents) es')) _ = _ at h
      cases ht : Ivs.ticks ts (Ivs.expandRepeats (sort t.repeatEvents) es') with
      | error x => rw [ht] at h; cases h
      | ok pl =>
        rw [ht] at h
        exact injectAll_filled 0 1000 pl c d (fun b hb => by rw [hc] at hb; cases hb) h b hb

theorem played_parts {basis : List Ivs.Basis} {ts : Nat} {ls : List Ivs.Launch} {e : Effect} (h : Played basis ts ls e) :
    ∃ l ∈ ls, ∃ b ∈ basis, b.name = l.effect ∧ ∃ signal freq D, Ivs.toTicks (Ivs.getDuration b l) ts = .ok D ∧ 0 < D ∧
      signal < 5 ∧ ((b.type = "periodic" ∧ Ivs.frequency (Ivs.getPeriod b l) = .ok freq) ∨ freq = 170) ∧
      { e with keyframes := [] } = ({ position := e.position, phase := some 0, baseSignal := some signal } : Effect) ∧
      (∀ k ∈ e.keyframes, Ivs.Sound freq k) ∧ e.keyframes.length ≤ 6 ∧ Ivs.Within D e.keyframes := by
  obtain ⟨l, hl, b, hb, hn, e0, ⟨signal, freq, D, h1, h2, h3, h4, h5, h6⟩, h0⟩ := h
  refine ⟨l, hl, b, hb, hn, signal, freq, D, h1, h2, h3, h4, ?_, ?_⟩
  · have := congrArg (fun x : Effect => { x with position := e.position }) h5.same
    rw [h0]
    exact this
  · have hk : e.keyframes = e0.keyframes := by rw [h0]
    rw [hk]
    exact ⟨h5.keyframes, h5.count, h6⟩

theorem frequency_int32 {p f : Int} (h : Ivs.frequency p = .ok f) : Json.Int32 f := by
  unfold Ivs.frequency at h
  split at h
  · cases h
  · unfold castInt at h
    split at h
    · obtain rfl := Except.ok.inj h; assumption
    · cases h

/-- All values in what is made of a timeline are values of the C++ types. -/
theorem ivs_typed (sort : List Ivs.Repeat → List Ivs.Repeat) (f : Ivs.File) (ts : Nat) (t : Ivs.Timeline)
    (d : Channel) (hr : ∀ l ∈ t.launchEvents, ∀ b ∈ f.basisEffects, b.name = l.effect → Ivs.Regular b l ts ∧ Ivs.InRange b l)
    (h : Ivs.encodeTimeline sort f.basisEffects ts t (Ivs.newChannel f t) = .ok d) : ChannelTyped d := by
  obtain ⟨es, played, -, -, p1, p2, p3, p4⟩ := ivs_bands sort _ ts t _ d hr rfl h
  have hb : ∀ b ∈ d.bands, BandTyped b := by
    intro b hb
    obtain ⟨b1, b2, -⟩ := p4 b hb
    have hin : ∀ e ∈ b.effects, e ∈ played := fun e he => p3.mem_iff.mp (List.mem_flatMap.mpr ⟨b, hb, he⟩)
    have hord := sequential_ordered (fun e he => (timed_last (p1 e (hin e he)).2.1).2.1) b2
    rw [b1]
    refine ⟨by show BandType.VectorialWave < 4; decide, fun n hn => (by cases hn), fun n hn => (by cases hn; decide),
      int32_small (i := 0) (by decide), int32_small (i := 1000) (by decide), fun n hn => (by cases hn), fun e he => ?_, hord⟩
    obtain ⟨q1, -, p, q2⟩ := p1 e (hin e he)
    obtain ⟨l, -, b, -, -, signal, freq, D, d1, d2, s1, s2, s3, s4, -, s5⟩ := played_parts q1
    have hD := Ivs.toTicks_range d1
    have hF : Json.Int32 freq := by
      rcases s2 with ⟨-, s2⟩ | rfl
      · exact frequency_int32 s2
      · exact int32_small (by decide)
    refine ⟨?_, Ivs.toTicks_range q2, fun q hq => ?_, fun q hq => ?_, fun q hq => ?_, ?_, fun k hk => ?_, ?_⟩
    · have : e.id = -1 := congrArg Effect.id s3
      rw [this]; exact int32_small (by decide)
    · have : e.phase = some 0 := congrArg Effect.phase s3
      rw [this] at hq
      obtain rfl := Option.some.inj hq
      exact ⟨0, 0, by decide, by decide, by decide, by norm_num⟩
    · have : e.baseSignal = some signal := congrArg Effect.baseSignal s3
      rw [this] at hq
      obtain rfl := Option.some.inj hq
      exact s1
    · have : e.semantic = none := congrArg Effect.semantic s3
      rw [this] at hq
      cases hq
    · have : e.effectType = EffectType.Basis := congrArg Effect.effectType s3
      rw [this]; decide
    · obtain ⟨x, x1, x2, x3⟩ := s5.between k hk
      refine ⟨fun i hi => ?_, fun q hq => ((s4 k hk).amplitude q hq).1, fun i hi => ?_⟩
      · obtain rfl := Option.some.inj (x1.symm.trans hi)
        unfold Json.Int32
        omega
      · rw [(s4 k hk).frequency i hi]; exact hF
    · exact Or.inl (congrArg Effect.waveletBitstream s3)
  rw [p2]
  refine ⟨?_, ?_, ?_, ?_, ?_, ?_, ?_, ?_, ?_, ?_, ?_, ?_, ?_, hb⟩
  · exact int32_small (i := 0) (by decide)
  · exact ⟨1, 0, by decide, by decide, by decide, by norm_num [Ivs.newChannel]⟩
  · exact ⟨1, 0, by decide, by decide, by decide, by norm_num [Ivs.newChannel]⟩
  · show (0 : Nat) < 2 ^ 32
    norm_num
  all_goals (intro i hi; cases hi)

end Haptics.Accepted
