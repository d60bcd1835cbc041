import Verif.Encoder.PropsIvsTime
import Verif.Encoder.PropsEnvelope
import Verif.Json.Write

/-! C75: what the effects of an IVS file sound like. -/

namespace Haptics.Ivs
open Haptics

/-- The names of waveforms in IVS files, and the base signals they stand for (Effect.h:49). -/
def waveforms : List (String × Nat) :=
  [("sine", 0), ("square", 1), ("triangle", 2), ("sawtooth-up", 3), ("sawtooth-down", 4)]

/-- Attack and fade change amplitudes only. -/
theorem fade_keeps (P : Effect → Prop) (hP : ∀ e a p ov, P e → P (e.addAmplitudeAt a p ov)) (b : Basis) (ts : Nat) (m : ℚ)
    (d at' : Int) (e r : Effect) (he : P e) (h : fade b ts m d at' e = .ok r) : P r := by
  unfold fade at h
  dsimp only at h
  by_cases hn : b.fadeTime.getD (-1) = -1
  · rw [if_pos hn] at h
    exact Except.ok.inj h ▸ he
  · rw [if_neg hn] at h
    cases ht : toTicks (b.fadeTime.getD (-1)) ts with
    | error x => rw [ht] at h; cases h
    | ok f =>
      rw [ht] at h
      change Except.bind (Except.ok f) _ = _ at h
      simp only [Except.bind] at h
      split at h
      · cases hi : interpolated (d - f, m) (d, amplitudeOf (b.fadeLevel.getD 0)) (max at' 0) with
        | error x => rw [hi] at h; cases h
        | ok y =>
          rw [hi] at h
          exact Except.ok.inj h ▸ hP _ _ _ _ (hP _ _ _ _ he)
      · split at h
        · exact Except.ok.inj h ▸ hP _ _ _ _ (hP _ _ _ _ he)
        · exact Except.ok.inj h ▸ hP _ _ _ _ he

theorem envelope_keeps (P : Effect → Prop) (hP : ∀ e a p ov, P e → P (e.addAmplitudeAt a p ov)) (b : Basis) (ts : Nat) (m : ℚ)
    (d : Int) (e r : Effect) (he : P e) (h : envelope b ts m d e = .ok r) : P r := by
  unfold envelope at h
  dsimp only at h
  by_cases hn : b.attackTime.getD (-1) = -1
  · rw [if_pos hn] at h
    exact fade_keeps P hP b ts m d _ e r he h
  · rw [if_neg hn] at h
    cases ht : toTicks (b.attackTime.getD (-1)) ts with
    | error x => rw [ht] at h; cases h
    | ok a =>
      rw [ht] at h
      change Except.bind (Except.ok a) _ = _ at h
      simp only [Except.bind] at h
      split at h
      · cases hi : interpolated (0, amplitudeOf (b.attackLevel.getD 0)) (a, m) d with
        | error x => rw [hi] at h; cases h
        | ok y =>
          rw [hi] at h
          exact Except.ok.inj h ▸ hP _ _ _ _ (hP _ _ _ _ he)
      · exact fade_keeps P hP b ts m d _ _ r (hP _ _ _ _ (hP _ _ _ _ he)) h

theorem add_frequencies (a : Option ℚ) (p : Int) (ov : Bool) (l : List Keyframe) :
    (addAmplitudeKf a p ov l).filterMap (·.frequencyModulation) = l.filterMap (·.frequencyModulation) := by
  induction l with
  | nil => rfl
  | cons k l ih =>
    rw [addAmplitudeKf]
    split
    · split
      · split
        · simp [List.filterMap_cons]
        · simp [List.filterMap_cons]
      · simp [List.filterMap_cons]
    · simp [List.filterMap_cons, ih]

theorem convert_signal (b : Basis) (l : Launch) (ts : Nat) (e : Effect) (h : convertToEffect b l ts = .ok (some e)) :
    ∃ s f, e.effectType = EffectType.Basis ∧ e.baseSignal = some s ∧ e.phase = some 0 ∧
      e.keyframes.filterMap (·.frequencyModulation) = [f, f] ∧
      (b.type = "magsweep" → s = 0 ∧ f = 170) ∧
      (b.type = "periodic" → s = getWaveform b ∧ frequency (getPeriod b l) = .ok f) := by
  have key : ∀ s f d, envelope b ts (amplitudeOf (getMagnitude b l)) d (plain b l s f d) = .ok e →
      e.effectType = EffectType.Basis ∧ e.baseSignal = some s ∧ e.phase = some 0 ∧
        e.keyframes.filterMap (·.frequencyModulation) = [f, f] := by
    intro s f d he
    refine envelope_keeps (fun e => e.effectType = EffectType.Basis ∧ e.baseSignal = some s ∧ e.phase = some 0 ∧
      e.keyframes.filterMap (·.frequencyModulation) = [f, f]) ?_ b ts _ d _ e ⟨rfl, rfl, rfl, rfl⟩ he
    rintro e a p ov ⟨h0, h1, h2, h3⟩
    exact ⟨h0, h1, h2, (add_frequencies a p ov _).trans h3⟩
  unfold convertToEffect at h
  dsimp only at h
  by_cases h1 : b.type = "periodic"
  · rw [if_pos h1] at h
    cases hf : frequency (getPeriod b l) with
    | error x => rw [hf] at h; cases h
    | ok f =>
      rw [hf] at h
      change (Except.bind (toTicks (getDuration b l) ts) _) = _ at h
      cases ht : toTicks (getDuration b l) ts with
      | error x => rw [ht] at h; cases h
      | ok d =>
        rw [ht] at h
        change (Except.bind (envelope b ts (amplitudeOf (getMagnitude b l)) d (plain b l (getWaveform b) f d)) _) = _ at h
        cases hv : envelope b ts (amplitudeOf (getMagnitude b l)) d (plain b l (getWaveform b) f d) with
        | error x => rw [hv] at h; cases h
        | ok e' =>
          rw [hv] at h
          have h := Option.some.inj (Except.ok.inj h)
          subst h
          obtain ⟨k0, k1, k2, k3⟩ := key _ _ _ hv
          refine ⟨_, _, k0, k1, k2, k3, fun h2 => ?_, fun _ => ⟨rfl, rfl⟩⟩
          rw [h2] at h1; exact absurd h1 (by decide)
  · rw [if_neg h1] at h
    by_cases h2 : b.type = "magsweep"
    · rw [if_pos h2] at h
      change (Except.bind (toTicks (getDuration b l) ts) _) = _ at h
      cases ht : toTicks (getDuration b l) ts with
      | error x => rw [ht] at h; cases h
      | ok d =>
        rw [ht] at h
        change (Except.bind (envelope b ts (amplitudeOf (getMagnitude b l)) d (plain b l 0 170 d)) _) = _ at h
        cases hv : envelope b ts (amplitudeOf (getMagnitude b l)) d (plain b l 0 170 d) with
        | error x => rw [hv] at h; cases h
        | ok e' =>
          rw [hv] at h
          have h := Option.some.inj (Except.ok.inj h)
          subst h
          obtain ⟨k0, k1, k2, k3⟩ := key _ _ _ hv
          exact ⟨_, _, k0, k1, k2, k3, fun _ => ⟨rfl, rfl⟩, fun h => absurd h h1⟩
    · rw [if_neg h2] at h
      cases h

/-- **C75.** An effect of an IVS file sounds like its basis effect: a periodic one has the waveform of that name and the
frequency of its period, or of the one its launch overrides it with, from start to end; a sweep is a sine of 170 Hz. -/
theorem c75_signal (b : Basis) (l : Launch) (ts : Nat) (e : Effect) (h : convertToEffect b l ts = .ok (some e)) :
    ∃ s f, e.baseSignal = some s ∧ e.phase = some 0 ∧ e.keyframes.filterMap (·.frequencyModulation) = [f, f] ∧
      (b.type = "magsweep" → s = 0 ∧ f = 170) ∧
      (b.type = "periodic" → (∀ w ∈ waveforms, w.1 = b.waveform → s = w.2) ∧
        ∀ p : ℕ, 1 ≤ p → l.periodOverride.or b.period = some (p : Int) → f = (1000 / p : ℕ)) := by
  obtain ⟨s, f, -, k1, k2, k3, k4, k5⟩ := convert_signal b l ts e h
  refine ⟨s, f, k1, k2, k3, k4, fun hp => ?_⟩
  obtain ⟨rfl, hf⟩ := k5 hp
  refine ⟨?_, ?_⟩
  · intro w hw hn
    unfold getWaveform
    simp only [waveforms, List.mem_cons, List.not_mem_nil, or_false] at hw
    rcases hw with rfl | rfl | rfl | rfl | rfl <;> rw [← hn] <;> rfl
  · intro p hp hq
    have hg : getPeriod b l = p := by
      unfold getPeriod
      have hpos : floatToInt (p : Int) = p := by unfold floatToInt; rw [if_neg (by omega)]
      cases ho : l.periodOverride with
      | some q => rw [ho] at hq; simp at hq; subst hq; exact hpos
      | none => rw [ho] at hq; simp at hq; simp [hq, hpos]
    rw [hg, c72_frequency p hp] at hf
    exact (Except.ok.inj hf).symm

/-- A triangle with a period of 5 ms that is launched with a period of 10 ms. -/
def sampleBasis : Basis :=
  { name := [97], type := "periodic", waveform := "triangle", period := some 5, magnitude := some 5000, duration := some 100 }
def sampleLaunch : Launch := { effect := [97], time := some 20, periodOverride := some 10 }

def shown (r : Except Err (Option Effect)) : Option (Option Nat × List Int) :=
  (r.toOption.bind id).map (fun e => (e.baseSignal, e.keyframes.filterMap (·.frequencyModulation)))

example : shown (convertToEffect sampleBasis sampleLaunch 1000) = some (some 2, [100, 100]) := by decide +kernel

/-- **C75, what does not hold.** A periodic effect whose waveform has another name, or none, is accepted, but gets a base
signal that does not exist: the experience cannot be written as JSON. -/
theorem c75_waveform_negation (b : Basis) (l : Launch) (ts : Nat) (e : Effect) (h : convertToEffect b l ts = .ok (some e))
    (hp : b.type = "periodic") (hw : ∀ w ∈ waveforms, w.1 ≠ b.waveform) :
    Json.extractEffect BandType.VectorialWave e = .error .throw := by
  obtain ⟨s, f, k0, k1, -, -, -, k5⟩ := convert_signal b l ts e h
  obtain ⟨rfl, -⟩ := k5 hp
  have hs : getWaveform b = 2 ^ 32 - 1 := by
    simp only [waveforms, List.forall_mem_cons] at hw
    unfold getWaveform
    split
    all_goals simp_all
  rw [hs] at k1
  unfold Json.extractEffect
  rw [k0, k1]
  rfl

example : (convertToEffect { sampleBasis with waveform := "Sine" } sampleLaunch 1000).toOption.isSome ∧
    shown (convertToEffect { sampleBasis with waveform := "Sine" } sampleLaunch 1000) = some (some (2 ^ 32 - 1), [100, 100]) := by
  decide +kernel

end Haptics.Ivs
