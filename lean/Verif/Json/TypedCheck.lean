import Verif.Json.SpecFile

/-! A computable condition under which an experience is `Typed`, to show that for concrete ones. -/

namespace Haptics.Json
open Haptics

def floatCheck (q : ℚ) : Bool :=
  decide (q.num.natAbs < 2 ^ 24) && decide (q.den = 2 ^ q.den.log2) && decide (q.den.log2 ≤ 149)

theorem floatCheck_sound {q : ℚ} (h : floatCheck q = true) : IsFloat q := by
  simp only [floatCheck, Bool.and_eq_true, decide_eq_true_eq] at h
  obtain ⟨⟨h1, h2⟩, h3⟩ := h
  refine ⟨q.num, -(q.den.log2 : ℤ), h1, by omega, by omega, ?_⟩
  rw [zpow_neg, zpow_natCast, ← div_eq_mul_inv]
  have : ((2 : ℚ) ^ q.den.log2) = (q.den : ℚ) := by
    conv_rhs => rw [h2]
    push_cast
    rfl
  rw [this]
  exact (Rat.num_div_den q).symm

def int32Check (i : Int) : Bool := decide (-2 ^ 31 < i) && decide (i < 2 ^ 31)

theorem int32Check_sound {i : Int} (h : int32Check i = true) : -2 ^ 31 < i ∧ i < 2 ^ 31 := by
  simpa [int32Check] using h

theorem int32_sound {i : Int} (h : int32Check i = true) : Int32 i :=
  ⟨(int32Check_sound h).1.le, (int32Check_sound h).2⟩

def keyframeCheck (k : Keyframe) : Bool :=
  k.relativePosition.all int32Check && k.amplitudeModulation.all floatCheck && k.frequencyModulation.all int32Check

theorem all_sound {α : Type} {o : Option α} {p : α → Bool} (h : o.all p = true) : ∀ x ∈ o, p x = true := by
  cases o with
  | none => intro x hx; cases hx
  | some y => intro x hx; cases hx; exact h

theorem keyframeCheck_sound {k : Keyframe} (h : keyframeCheck k = true) : KeyframeTyped k := by
  simp only [keyframeCheck, Bool.and_eq_true] at h
  exact ⟨fun i hi => int32_sound (all_sound h.1.1 i hi), fun q hq => floatCheck_sound (all_sound h.1.2 q hq),
    fun i hi => int32_sound (all_sound h.2 i hi)⟩

def effectCheck (f : Effect) : Bool :=
  int32Check f.id && int32Check f.position && f.phase.all floatCheck && f.baseSignal.all (fun n => decide (n < 5)) &&
  f.semantic.isNone && decide (f.effectType < 3) && f.keyframes.all keyframeCheck &&
  (f.waveletBitstream.isEmpty || f.waveletBitstream.any (fun v => decide (v ≠ 0)))

theorem effectCheck_sound {f : Effect} (h : effectCheck f = true) : EffectTyped f := by
  simp only [effectCheck, Bool.and_eq_true, decide_eq_true_eq, List.all_eq_true, Bool.or_eq_true, List.isEmpty_iff,
    List.any_eq_true, Option.isNone_iff_eq_none] at h
  obtain ⟨⟨⟨⟨⟨⟨⟨h1, h2⟩, h3⟩, h4⟩, h5⟩, h6⟩, h7⟩, h8⟩ := h
  refine ⟨int32_sound h1, int32_sound h2, fun q hq => floatCheck_sound (all_sound h3 q hq),
    fun n hn => by simpa using all_sound h4 n hn, fun s hs => ?_, h6, fun k hk => keyframeCheck_sound (h7 k hk), h8⟩
  rw [h5] at hs
  cases hs

def bandCheck (b : Band) : Bool :=
  decide (b.bandType < 4) && b.curveType.all (fun n => decide (n < 6)) && b.blockLength.all int32Check &&
  int32Check b.lowerFrequencyLimit && int32Check b.upperFrequencyLimit && b.priority.all int32Check &&
  b.effects.all effectCheck && decide (b.effects.Pairwise (fun f g => f.position ≤ g.position))

theorem bandCheck_sound {b : Band} (h : bandCheck b = true) : BandTyped b := by
  simp only [bandCheck, Bool.and_eq_true, decide_eq_true_eq, List.all_eq_true] at h
  obtain ⟨⟨⟨⟨⟨⟨⟨h1, h2⟩, h3⟩, h4⟩, h5⟩, h6⟩, h7⟩, h8⟩ := h
  exact ⟨h1, fun n hn => by simpa using all_sound h2 n hn, fun i hi => int32Check_sound (all_sound h3 i hi),
    int32_sound h4, int32_sound h5, fun i hi => int32_sound (all_sound h6 i hi), fun f hf => effectCheck_sound (h7 f hf),
    h8⟩

/-- A channel without vertices, device, direction, targets. -/
def channelCheck (c : Channel) : Bool :=
  int32Check c.id && floatCheck c.gain && floatCheck c.mixingWeight && decide (c.bodyPartMask < 2 ^ 32) &&
  c.vertices.isEmpty && c.priority.isNone && c.referenceDeviceId.isNone &&
  c.frequencySampling.all (fun n => decide (n < 2 ^ 32)) && c.sampleCount.all (fun n => decide (n < 2 ^ 32)) &&
  c.direction.isNone && c.actuatorResolution.isNone && c.bodyPartTarget.isNone && c.actuatorTarget.isNone &&
  c.bands.all bandCheck

theorem channelCheck_sound {c : Channel} (h : channelCheck c = true) : ChannelTyped c := by
  simp only [channelCheck, Bool.and_eq_true, decide_eq_true_eq, List.all_eq_true, List.isEmpty_iff,
    Option.isNone_iff_eq_none] at h
  obtain ⟨⟨⟨⟨⟨⟨⟨⟨⟨⟨⟨⟨⟨h1, h2⟩, h3⟩, h4⟩, h5⟩, h6⟩, h7⟩, h8⟩, h9⟩, h10⟩, h11⟩, h12⟩, h13⟩, h14⟩ := h
  refine ⟨int32_sound h1, floatCheck_sound h2, floatCheck_sound h3, h4, ?_, ?_, ?_,
    fun n hn => by simpa [Uint32] using all_sound h8 n hn, fun n hn => by simpa [Uint32] using all_sound h9 n hn,
    ?_, ?_, ?_, ?_, fun b hb => bandCheck_sound (h14 b hb)⟩
  · intro i hi; rw [h5] at hi; cases hi
  · intro i hi; rw [h6] at hi; cases hi
  · intro i hi; rw [h7] at hi; cases hi
  · intro i hi; rw [h10] at hi; cases hi
  · intro i hi; rw [h11] at hi; cases hi
  · intro i hi; rw [h12] at hi; cases hi
  · intro i hi; rw [h13] at hi; cases hi

/-- A perception without devices, library and optional values. -/
def perceptionCheck (p : Perception) : Bool :=
  int32Check p.id && int32Check p.avatarId && decide (p.perceptionModality < 14) && p.priority.isNone &&
  p.unitExponent.isNone && p.perceptionUnitExponent.isNone && p.referenceDevices.isEmpty && p.effectLibrary.isEmpty &&
  p.channels.all channelCheck

theorem perceptionCheck_sound {p : Perception} (h : perceptionCheck p = true) : PerceptionTyped p := by
  simp only [perceptionCheck, Bool.and_eq_true, decide_eq_true_eq, List.all_eq_true, List.isEmpty_iff,
    Option.isNone_iff_eq_none] at h
  obtain ⟨⟨⟨⟨⟨⟨⟨⟨h1, h2⟩, h3⟩, h4⟩, h5⟩, h6⟩, h7⟩, h8⟩, h9⟩ := h
  refine ⟨int32_sound h1, int32_sound h2, h3, ?_, ?_, ?_, ?_, ?_, fun c hc => channelCheck_sound (h9 c hc)⟩
  · intro i hi; rw [h4] at hi; cases hi
  · intro i hi; rw [h5] at hi; cases hi
  · intro i hi; rw [h6] at hi; cases hi
  · intro i hi; rw [h7] at hi; cases hi
  · intro i hi; rw [h8] at hi; cases hi

/-- An experience with perceptions only. -/
def typedCheck (e : Experience) : Bool :=
  decide (e.level < 256) && e.timescale.all (fun t => decide (t < 2 ^ 32)) && e.avatars.isEmpty && e.syncs.isEmpty &&
  e.perceptions.all perceptionCheck

theorem typedCheck_sound {e : Experience} (h : typedCheck e = true) : Typed e := by
  simp only [typedCheck, Bool.and_eq_true, decide_eq_true_eq, List.all_eq_true, List.isEmpty_iff] at h
  obtain ⟨⟨⟨⟨h1, h2⟩, h3⟩, h4⟩, h5⟩ := h
  refine ⟨h1, fun n hn => by simpa [Uint32] using all_sound h2 n hn, ?_, fun p hp => perceptionCheck_sound (h5 p hp), ?_⟩
  · intro i hi; rw [h3] at hi; cases hi
  · intro i hi; rw [h4] at hi; cases hi

end Haptics.Json
