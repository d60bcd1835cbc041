import Verif.Json.Conformance
import Verif.Json.SpecConformance
import Verif.Json.PropsRegex
import Verif.Types.PropsLibrary
import Mathlib.Tactic.Ring

/-! C34: what the conformance check accepts. -/

namespace Haptics.Json
open Haptics

theorem lit_eq : lit = text := rfl

theorem once_all (ids : List Int) : (∀ id ∈ ids, once ids id = true) ↔ ids.Nodup := by
  unfold once
  simp only [decide_eq_true_eq]
  rw [List.nodup_iff_count]
  constructor
  · intro h id
    by_cases hm : id ∈ ids
    · exact h id hm
    · rw [List.count_eq_zero_of_not_mem hm]; omega
  · intro h id _; exact h id

theorem once_map {α : Type} (l : List α) (f : α → Int) : (∀ a ∈ l, once (l.map f) (f a) = true) ↔ (l.map f).Nodup := by
  rw [← once_all]
  simp

theorem lookup_isNone (l : List (String × Nat)) (s : String) : (l.lookup s).isNone = false ↔ ∃ n, (s, n) ∈ l := by
  induction l with
  | nil => simp
  | cons x l ih =>
    obtain ⟨k, v⟩ := x
    rw [List.lookup_cons]
    by_cases h : s = k
    · subst h; simp
    · rw [show (s == k) = false by simpa using h]
      simp only [ih, List.mem_cons, Prod.mk.injEq]
      constructor
      · rintro ⟨n, hn⟩; exact ⟨n, .inr hn⟩
      · rintro ⟨n, hn | hn⟩
        · exact absurd hn.1 h
        · exact ⟨n, hn⟩

theorem isPowerOfTwo_iff (n : Int) (h1 : -2 ^ 31 < n) (h2 : n < 2 ^ 31) :
    isPowerOfTwo n = true ↔ ∃ k : Nat, n = 2 ^ k := by
  unfold isPowerOfTwo
  rw [Bool.and_eq_true, decide_eq_true_eq, decide_eq_true_eq]
  by_cases hn : n < 0
  · constructor
    · rintro ⟨-, h⟩
      exfalso
      have hm : (BitVec.ofInt 32 n &&& BitVec.ofInt 32 (n - 1)).msb = true := by
        rw [BitVec.msb_and, Bool.and_eq_true]
        constructor
        · rw [BitVec.msb_eq_toInt, decide_eq_true_eq, BitVec.toInt_ofInt]
          rw [Int.bmod_eq_of_le (by norm_num; omega) (by norm_num; omega)]
          exact hn
        · rw [BitVec.msb_eq_toInt, decide_eq_true_eq, BitVec.toInt_ofInt]
          rw [Int.bmod_eq_of_le (by norm_num; omega) (by norm_num; omega)]
          omega
      rw [h] at hm
      exact absurd hm (by decide)
    · rintro ⟨k, rfl⟩
      exact absurd hn (by positivity : (0 : Int) ≤ 2 ^ k).not_gt
  · obtain ⟨m, rfl⟩ := Int.eq_ofNat_of_zero_le (not_lt.mp hn)
    rcases Nat.eq_zero_or_pos m with rfl | hm
    · constructor
      · rintro ⟨h, -⟩; exact absurd rfl h
      · rintro ⟨k, hk⟩
        have : (0 : Int) < 2 ^ k := by positivity
        omega
    · have e1 : BitVec.ofInt 32 (m : Int) = BitVec.ofNat 32 m := by simp
      have e2 : BitVec.ofInt 32 ((m : Int) - 1) = BitVec.ofNat 32 (m - 1) := by
        rw [show (m : Int) - 1 = ((m - 1 : Nat) : Int) by omega]; simp
      rw [e1, e2, ← BitVec.ofNat_and]
      have hlt : m < 2 ^ 32 := by
        have : (m : Int) < 2 ^ 31 := h2
        have : m < 2 ^ 31 := by exact_mod_cast this
        omega
      have hz : BitVec.ofNat 32 (m &&& (m - 1)) = 0 ↔ m &&& (m - 1) = 0 := by
        constructor
        · intro h
          have := congrArg BitVec.toNat h
          rw [BitVec.toNat_ofNat, Nat.mod_eq_of_lt (lt_of_le_of_lt Nat.and_le_left hlt)] at this
          simpa using this
        · intro h; rw [h]; rfl
      rw [hz, Nat.and_sub_one_eq_zero_iff_isPowerOfTwo (by omega)]
      unfold Nat.isPowerOfTwo
      constructor
      · rintro ⟨-, k, hk⟩; exact ⟨k, by rw [hk]; push_cast; rfl⟩
      · rintro ⟨k, hk⟩; exact ⟨by omega, k, by exact_mod_cast hk⟩

theorem effect_iff (e : Experience) (p : Perception) (hs : p.effectSemanticScheme = none) (b : Band) (f : Effect) :
    checkEffect e p b f = true ↔ ConformantEffect e p b f := by
  unfold checkEffect parametricProfile
  rw [lit_eq, hs]
  constructor
  · intro h
    simp only [Bool.and_eq_true, Bool.not_eq_true', Bool.or_eq_true, Bool.and_eq_false_iff, List.any_eq_true,
      beq_iff_eq, decide_eq_false_iff_not, beq_eq_false_iff_ne] at h
    obtain ⟨⟨⟨h1, h2⟩, h3⟩, h4⟩ := h
    refine ⟨?_, ?_, ?_, ?_⟩
    · intro hp
      rcases h1 with h | h
      · exact absurd hp h
      · exact h
    · intro hb
      rcases h2 with h | h
      · exact absurd hb h
      · exact List.eq_nil_of_length_eq_zero (by omega)
    · intro ht
      rcases h3 with h | h
      · exact absurd ht h
      · exact h
    · intro s hs'
      rw [hs'] at h4
      simp only [Bool.true_and, Bool.not_eq_true'] at h4
      exact (lookup_isNone _ _).mp h4
  · rintro ⟨h1, h2, h3, h4⟩
    simp only [Bool.and_eq_true, Bool.not_eq_true', Bool.or_eq_true, Bool.and_eq_false_iff, List.any_eq_true,
      beq_iff_eq, decide_eq_false_iff_not, beq_eq_false_iff_ne]
    refine ⟨⟨⟨?_, ?_⟩, ?_⟩, ?_⟩
    · by_cases hp : e.profile = text "Simple Parametric"
      · exact .inr (h1 hp)
      · exact .inl hp
    · by_cases hb : b.bandType = BandType.WaveletWave
      · right; rw [h2 hb]; simp
      · exact .inl hb
    · by_cases ht : f.effectType = EffectType.Reference
      · exact .inr (h3 ht)
      · exact .inl ht
    · cases hf : f.semantic with
      | none => rfl
      | some s =>
        simp only [Bool.true_and, Bool.not_eq_true']
        exact (lookup_isNone _ _).mpr (h4 s hf)

theorem band_iff (e : Experience) (p : Perception) (hs : p.effectSemanticScheme = none) (b : Band)
    (hb : ∀ n, b.blockLength = some n → -2 ^ 31 < n ∧ n < 2 ^ 31) :
    checkBand e p b = true ↔ ConformantBand e p b := by
  have hblock : isPowerOfTwo b.blockLengthOrDefault = true ↔ ∃ k : Nat, b.blockLength = some (2 ^ k) := by
    unfold Band.blockLengthOrDefault
    cases h : b.blockLength with
    | none =>
      rw [Option.getD_none, isPowerOfTwo_iff 0 (by norm_num) (by norm_num)]
      constructor
      · rintro ⟨k, hk⟩
        have : (0 : Int) < 2 ^ k := by positivity
        omega
      · rintro ⟨k, hk⟩; cases hk
    | some n =>
      rw [Option.getD_some, isPowerOfTwo_iff n (hb n h).1 (hb n h).2]
      simp
  unfold checkBand parametricProfile
  rw [lit_eq]
  constructor
  · intro h
    simp only [Bool.and_eq_true, Bool.not_eq_true', Bool.and_eq_false_iff, List.all_eq_true, beq_eq_false_iff_ne,
      decide_eq_false_iff_not, bne_eq_false_iff_eq, Bool.not_eq_false', Option.isSome_eq_false_iff,
      Option.isNone_iff_eq_none] at h
    obtain ⟨⟨⟨⟨h1, h2⟩, h3⟩, h4⟩, h5⟩ := h
    refine ⟨?_, ?_, ?_, by omega, fun f hf => (effect_iff e p hs b f).mp (h5 f hf)⟩
    · intro hc
      rcases h1 with h | h
      · exact absurd h hc
      · exact h
    · intro hw
      rcases h2 with h | h
      · exact absurd hw h
      · exact hblock.mp h
    · intro hp
      rcases h3 with h | h
      · exact absurd hp h
      · exact h
  · rintro ⟨h1, h2, h3, h4, h5⟩
    simp only [Bool.and_eq_true, Bool.not_eq_true', Bool.and_eq_false_iff, List.all_eq_true, beq_eq_false_iff_ne,
      decide_eq_false_iff_not, bne_eq_false_iff_eq, Bool.not_eq_false', Option.isSome_eq_false_iff,
      Option.isNone_iff_eq_none]
    refine ⟨⟨⟨⟨?_, ?_⟩, ?_⟩, by omega⟩, fun f hf => (effect_iff e p hs b f).mpr (h5 f hf)⟩
    · by_cases hc : b.bandType = BandType.Curve
      · exact .inl hc
      · exact .inr (h1 hc)
    · by_cases hw : b.bandType = BandType.WaveletWave
      · exact .inr (hblock.mpr (h2 hw))
      · exact .inl hw
    · by_cases hp : e.profile = text "Simple Parametric"
      · exact .inr (h3 hp)
      · exact .inl hp

theorem direction_iff (v : Vector3) : checkDirection v = true ↔
    (99 / 100 * 127) ^ 2 ≤ ((v.X ^ 2 + v.Y ^ 2 + v.Z ^ 2 : Int) : Rat) ∧
      ((v.X ^ 2 + v.Y ^ 2 + v.Z ^ 2 : Int) : Rat) ≤ (101 / 100 * 127) ^ 2 := by
  unfold checkDirection
  rw [show v.X * v.X + v.Y * v.Y + v.Z * v.Z = v.X ^ 2 + v.Y ^ 2 + v.Z ^ 2 by ring]
  generalize ((v.X ^ 2 + v.Y ^ 2 + v.Z ^ 2 : Int) : Rat) = n
  simp only [Bool.not_eq_true', Bool.or_eq_false_iff, decide_eq_false_iff_not, not_lt]
  rw [le_div_iff₀ (by norm_num), div_le_iff₀ (by norm_num)]
  constructor
  · rintro ⟨h1, h2⟩; constructor <;> linarith
  · rintro ⟨h1, h2⟩; constructor <;> linarith

theorem level_iff (level n a b : Nat) : (if level = 1 then !decide (a < n) else if level = 2 then !decide (b < n) else true) = true
    ↔ (level = 1 → n ≤ a) ∧ (level = 2 → n ≤ b) := by
  split
  · next h => simp [h]
  · split
    · next h => simp [h]
    · next h h' => simp [h, h']

theorem actuators_iff (c : Channel) : checkActuators c = true ↔
    (∀ r, c.actuatorResolution = some r → 0 ≤ r.X ∧ 0 ≤ r.Y ∧ 0 ≤ r.Z) ∧
    (∀ l, c.actuatorTarget = some l → ∃ r, c.actuatorResolution = some r ∧
      ∀ t ∈ l, (0 ≤ t.X ∧ t.X ≤ r.X) ∧ (0 ≤ t.Y ∧ t.Y ≤ r.Y) ∧ (0 ≤ t.Z ∧ t.Z ≤ r.Z)) := by
  unfold checkActuators
  cases hr : c.actuatorResolution with
  | none =>
    cases ht : c.actuatorTarget with
    | none => simp
    | some l => simp
  | some r =>
    cases ht : c.actuatorTarget with
    | none => simp [and_assoc]
    | some l => simp [and_assoc]

theorem channel_iff (e : Experience) (p : Perception) (hs : p.effectSemanticScheme = none) (c : Channel)
    (hb : ∀ b ∈ c.bands, ∀ n, b.blockLength = some n → -2 ^ 31 < n ∧ n < 2 ^ 31) :
    checkChannel e p c = true ↔ once (p.channels.map (·.id)) c.id = true ∧ ConformantChannel e p c := by
  unfold checkChannel
  rw [Bool.and_eq_true, Bool.and_eq_true, Bool.and_eq_true, Bool.and_eq_true, Bool.and_eq_true, level_iff, actuators_iff,
    List.all_eq_true]
  have hdev : c.referenceDeviceId.all (fun id => p.referenceDevices.any (fun d => d.id == id)) = true ↔ ∀ id, c.referenceDeviceId = some id → ∃ d ∈ p.referenceDevices, d.id = id := by
    cases c.referenceDeviceId with
    | none => simp
    | some id => simp
  have hdir : c.direction.all checkDirection = true ↔ ∀ v, c.direction = some v →
        (99 / 100 * 127) ^ 2 ≤ ((v.X ^ 2 + v.Y ^ 2 + v.Z ^ 2 : Int) : Rat) ∧
          ((v.X ^ 2 + v.Y ^ 2 + v.Z ^ 2 : Int) : Rat) ≤ (101 / 100 * 127) ^ 2 := by
    cases c.direction with
    | none => simp
    | some v =>
      simp only [Option.all_some, Option.some.injEq]
      rw [direction_iff]
      constructor
      · rintro h _ rfl; exact h
      · intro h; exact h v rfl
  rw [hdev, hdir]
  constructor
  · rintro ⟨⟨⟨⟨⟨h1, h2⟩, h3⟩, h4⟩, h5, h6⟩, h7⟩
    exact ⟨h1, h2, h3, h4, h5, h6, fun b hb' => (band_iff e p hs b (hb b hb')).mp (h7 b hb')⟩
  · rintro ⟨h1, h2, h3, h4, h5, h6, h7⟩
    exact ⟨⟨⟨⟨⟨h1, h2⟩, h3⟩, h4⟩, h5, h6⟩, fun b hb' => (band_iff e p hs b (hb b hb')).mpr (h7 b hb')⟩

theorem device_iff (p : Perception) (d : ReferenceDevice) :
    checkDevice p d = true ↔ once (p.referenceDevices.map (·.id)) d.id = true ∧ ConformantDevice d := by
  unfold checkDevice
  rw [Bool.and_eq_true, Bool.and_eq_true, and_assoc]
  refine and_congr_right (fun _ => ?_)
  constructor
  · rintro ⟨h1, h2⟩
    constructor
    · intro lo hi h h'; rw [h, h'] at h1; simp at h1; exact h1.1
    · intro lo f h h'; rw [h, h'] at h1; simp at h1; exact h1.2
    · intro hi f h h'; rw [h, h'] at h2; simpa using h2
  · rintro ⟨h1, h2, h3⟩
    cases hlo : d.minimumFrequency <;> cases hhi : d.maximumFrequency <;> cases hf : d.resonanceFrequency <;>
      simp_all

theorem perception_iff (e : Experience) (p : Perception)
    (hb : ∀ c ∈ p.channels, ∀ b ∈ c.bands, ∀ n, b.blockLength = some n → -2 ^ 31 < n ∧ n < 2 ^ 31) :
    checkPerception e p = true ↔ once (e.perceptions.map (·.id)) p.id = true ∧ ConformantPerception e p := by
  unfold checkPerception parametricProfile
  rw [lit_eq]
  simp only [Bool.and_eq_true]
  rw [level_iff]
  simp only [Bool.not_eq_true', Bool.and_eq_false_iff, List.all_eq_true,
    List.any_eq_false, beq_eq_false_iff_ne, bne_eq_false_iff_eq, Bool.not_eq_false', Bool.or_eq_true, beq_iff_eq,
    List.any_eq_true, Option.isNone_iff_eq_none, and_assoc]
  constructor
  · rintro ⟨h1, h2, h3, h4, h5, h6, h7, h8, h9⟩
    refine ⟨h1, ?_, h3, h4, ⟨h5, h6⟩, ?_, ?_, ?_, ?_, ?_, ?_⟩
    · intro hp hl
      rcases h2 with (h | h) | h
      · exact absurd hp h
      · exact absurd hl h
      · simp only [List.mem_cons, List.not_mem_nil, or_false]; omega
    · rw [← once_map]; exact fun d hd => ((device_iff p d).mp (h7 d hd)).1
    · exact fun d hd => ((device_iff p d).mp (h7 d hd)).2
    · rw [← once_map]; exact fun c hc => ((channel_iff e p h4 c (hb c hc)).mp (h8 c hc)).1
    · exact fun c hc => ((channel_iff e p h4 c (hb c hc)).mp (h8 c hc)).2
    · rw [← once_map]
      intro f hf
      have := h9 f hf
      unfold checkLibraryEffect at this
      rw [Bool.and_eq_true] at this
      exact this.2
    · intro hp f hf ht
      have := h9 f hf
      unfold checkLibraryEffect parametricProfile at this
      rw [lit_eq] at this
      simp [hp, ht] at this
  · rintro ⟨h1, h2, h3, h4, h5, h6, h7, h8, h9, h10, h11⟩
    refine ⟨h1, ?_, h3, h4, h5.1, h5.2, ?_, ?_, ?_⟩
    · by_cases hp : e.profile = text "Simple Parametric"
      · by_cases hl : e.level = 1
        · right
          have := h2 hp hl
          simp only [List.mem_cons, List.not_mem_nil, or_false] at this
          omega
        · exact .inl (.inr hl)
      · exact .inl (.inl hp)
    · exact fun d hd => (device_iff p d).mpr ⟨(once_map p.referenceDevices (·.id)).mpr h6 d hd, h7 d hd⟩
    · exact fun c hc => (channel_iff e p h4 c (hb c hc)).mpr ⟨(once_map p.channels (·.id)).mpr h8 c hc, h9 c hc⟩
    · intro f hf
      unfold checkLibraryEffect parametricProfile
      rw [lit_eq, Bool.and_eq_true]
      refine ⟨?_, (once_map p.effectLibrary (·.id)).mpr h10 f hf⟩
      by_cases hp : e.profile = text "Simple Parametric"
      · have := h11 hp f hf
        simp [this]
      · simp [hp]

/-- **C34.** The check accepts exactly the experiences that meet the rules. -/
theorem c34_iff (e : Experience) (hb : BlockLengthsFit e) : checkExperience e = true ↔ Conformant e := by
  unfold checkExperience
  simp only [Bool.and_eq_true]
  rw [c69_version, date_iff]
  have hprof : (!(e.profile != mainProfile && e.profile != parametricProfile)) = true ↔
      (e.profile = text "Main" ∨ e.profile = text "Simple Parametric") := by
    unfold mainProfile parametricProfile
    rw [lit_eq]
    simp only [Bool.not_eq_true', Bool.and_eq_false_iff, bne_eq_false_iff_eq]
  have hlev : (!(e.level != 1 && e.level != 2)) = true ↔ (e.level = 1 ∨ e.level = 2) := by
    simp only [Bool.not_eq_true', Bool.and_eq_false_iff, bne_eq_false_iff_eq]
  have hts : checkTimescale e = true ↔ ∀ t, e.timescale = some t →
      (e.profile = text "Simple Parametric" → t = 1000) ∧ (e.profile = text "Main" → t ≤ 48000) := by
    have hne : text "Simple Parametric" ≠ text "Main" := by decide +kernel
    unfold checkTimescale mainProfile parametricProfile
    rw [lit_eq]
    cases e.timescale with
    | none => simp
    | some t =>
      simp only [Option.some.injEq, forall_eq']
      by_cases h1 : e.profile = text "Simple Parametric"
      · by_cases ht : t = 1000 <;> simp [h1, ht, hne]
      · by_cases h2 : e.profile = text "Main"
        · simp [h2, hne.symm]
        · simp [h1, h2]
  have hav : (e.avatars.all (checkAvatar e)) = true ↔
      (e.avatars.map (·.id)).Nodup ∧ ∀ a ∈ e.avatars, a.id ≠ 0 ∧ a.mesh ≠ some [] := by
    rw [List.all_eq_true, ← once_map, ← forall₂_and]
    refine forall₂_congr (fun a _ => ?_)
    unfold checkAvatar
    rw [Bool.and_eq_true, Bool.and_eq_true]
    have : a.mesh.all uriCheck = true ↔ a.mesh ≠ some [] := by
      cases a.mesh with
      | none => simp
      | some m => simp [c69_uri]
    rw [this, bne_iff_ne]
    tauto
  have hpe : (e.perceptions.all (checkPerception e)) = true ↔
      (e.perceptions.map (·.id)).Nodup ∧ ∀ p ∈ e.perceptions, ConformantPerception e p := by
    rw [List.all_eq_true, ← once_map, ← forall₂_and]
    exact forall₂_congr (fun p hp => perception_iff e p (hb p hp))
  rw [hprof, hlev, hts, hav, hpe]
  constructor
  · rintro ⟨⟨⟨⟨⟨⟨h1, h2⟩, h3⟩, h4⟩, h5⟩, h6, h7⟩, h8, h9⟩
    exact ⟨h1, h4, h2, h3, h5, h6, h7, h8, h9⟩
  · rintro ⟨h1, h4, h2, h3, h5, h6, h7, h8, h9⟩
    exact ⟨⟨⟨⟨⟨⟨h1, h2⟩, h3⟩, h4⟩, h5⟩, h6, h7⟩, h8, h9⟩

/-- An experience with a library, a device and two bands that is accepted. -/
def sample : Experience :=
  let library : List Effect := [{ id := 5 }]
  let device : ReferenceDevice := { id := 7, minimumFrequency := some 10, maximumFrequency := some 1000 }
  let heartbeat : Effect := { id := 5, effectType := 1, semantic := some "UX/Click" }
  let band : Band := { upperFrequencyLimit := 100, effects := [heartbeat] }
  let wavelet : Band := { bandType := 3, blockLength := some 128, upperFrequencyLimit := 8000, effects := [{ id := 6 }] }
  let channel : Channel :=
    { id := 0, referenceDeviceId := some 7, direction := some ⟨127, 0, 0⟩, bands := [band, wavelet] }
  let perception : Perception :=
    { id := 3, avatarId := 1, perceptionModality := 6, referenceDevices := [device], effectLibrary := library
      channels := [channel] }
  { version := text "2023", date := text "2024-05-06", avatars := [{ id := 1 }], perceptions := [perception] }

/-- In an accepted experience every reference of a band leads to an effect of the library: linearising
resolves all of them, unless the library has references itself. -/
theorem c34_resolves (e : Experience) (hb : BlockLengthsFit e) (h : checkExperience e = true) (p : Perception)
    (hp : p ∈ e.perceptions) :
    ReferencesResolve p.effectLibrary p.channels ∧
      ((∀ r ∈ p.effectLibrary, r.effectType ≠ EffectType.Reference) →
        ∀ f ∈ effectsOf p.linearizeLibrary.channels, f.effectType ≠ EffectType.Reference) := by
  have hr : ReferencesResolve p.effectLibrary p.channels := by
    intro f hf ht
    have hc := ((c34_iff e hb).mp h).perceptions p hp
    unfold effectsOf at hf
    simp only [List.mem_flatMap] at hf
    obtain ⟨c, hc', b, hb', hf⟩ := hf
    exact (((hc.channels c hc').bands b hb').effects f hf).reference ht
  exact ⟨hr, fun hl => (c31_no_reference_partial p hl).2 hr⟩

example : BlockLengthsFit sample ∧ checkExperience sample = true := by
  constructor
  · intro p hp c hc b hb n hn
    simp [sample] at hp
    subst hp
    simp at hc
    subst hc
    simp at hb
    rcases hb with rfl | rfl <;> simp at hn <;> subst hn <;> norm_num
  · decide +kernel

/-- **C34 (nested references).** References within a composite effect are not looked at: one that leads nowhere
is accepted. -/
theorem c34_nested_negation : ∃ e : Experience, checkExperience e = true ∧
    ∃ p ∈ e.perceptions, ∃ c ∈ p.channels, ∃ b ∈ c.bands, ∃ f ∈ b.effects, ∃ g ∈ f.timeline,
      g.effectType = EffectType.Reference ∧ p.effectLibrary.map (·.id) = [] ∧ g.id = 5 :=
  ⟨{ version := text "2023", date := text "2024-05-06"
     perceptions := [{ id := 3, avatarId := 0, channels := [{ id := 0, bands :=
       [{ effects := [{ effectType := 2, timeline := [{ id := 5, effectType := 1 }] }] }] }] }] },
    by decide +kernel, _, .head _, _, .head _, _, .head _, _, .head _, _, .head _, rfl, rfl, rfl⟩

/-- **C34 (library references).** Neither are those within the library. -/
theorem c34_library_negation : ∃ e : Experience, checkExperience e = true ∧
    ∃ p ∈ e.perceptions, ∃ f ∈ p.effectLibrary, f.effectType = EffectType.Composite ∧
      ∃ g ∈ f.timeline, g.effectType = EffectType.Reference ∧ ∀ l ∈ p.effectLibrary, l.id ≠ g.id :=
  ⟨{ version := text "2023", date := text "2024-05-06"
     perceptions := [{ id := 3, avatarId := 0, effectLibrary :=
       [{ id := 1, effectType := 2, timeline := [{ id := 5, effectType := 1 }] }] }] },
    by decide +kernel, _, .head _, _, .head _, rfl, _, .head _, rfl, by decide +kernel⟩

/-- **C70.** A perception that names a semantic scheme is never accepted, not even with the one the
standard defines. -/
theorem c70_scheme_negation (e : Experience) (p : Perception) (hp : p ∈ e.perceptions) (scheme : Str)
    (hs : p.effectSemanticScheme = some scheme) : checkExperience e = false := by
  rw [← Bool.not_eq_true]
  intro h
  unfold checkExperience at h
  simp only [Bool.and_eq_true] at h
  have := List.all_eq_true.mp h.2 p hp
  unfold checkPerception at this
  simp [hs] at this

/-- **C70.** The band the wavelet encoder makes of a signal sampled at 44.1 kHz with its default block length
of 1024 is not accepted: the block length is checked in ticks. -/
theorem c70_wavelet_negation (e : Experience) (p : Perception) (c : Channel) (b : Band) (hp : p ∈ e.perceptions)
    (hc : c ∈ p.channels) (hb : b ∈ c.bands) (hw : b.bandType = BandType.WaveletWave)
    (hl : b.blockLength = some (1024 * 1000 / 44100)) : checkExperience e = false := by
  rw [← Bool.not_eq_true]
  intro h
  unfold checkExperience at h
  simp only [Bool.and_eq_true] at h
  have h1 := List.all_eq_true.mp h.2 p hp
  unfold checkPerception at h1
  simp only [Bool.and_eq_true] at h1
  have h2 := List.all_eq_true.mp h1.1.2 c hc
  unfold checkChannel at h2
  simp only [Bool.and_eq_true] at h2
  have h3 := List.all_eq_true.mp h2.2 b hb
  have h4 : isPowerOfTwo b.blockLengthOrDefault = false := by
    unfold Band.blockLengthOrDefault
    rw [hl]
    decide +kernel
  unfold checkBand at h3
  simp [hw, h4] at h3

end Haptics.Json
