import Verif.Json.Load
import Verif.Json.SpecLoad
import Verif.Json.PropsFile
import Verif.Types.PropsOps

/-!
C90: loading the JSON tree of a `.hjif` file.
-/

namespace Haptics.Json
open Haptics Shape

theorem cstr_eq (s : Str) : cstr s = s.takeWhile (· ≠ 0) := by
  unfold cstr
  congr 1
  funext b
  by_cases h : b = 0 <;> simp [h]

theorem int?_iff (j : Json) (key : String) (i : Int) : j.int? key = some i ↔ With j key (IsInt i) := by
  unfold Json.int? With
  cases h : j.get? key with
  | none => simp
  | some v =>
    cases v <;> simp [Json.asInt, IsInt]
    constructor
    · rintro ⟨h, rfl⟩; exact ⟨rfl, h⟩
    · rintro ⟨rfl, h⟩; exact ⟨h, rfl⟩

theorem uint?_iff (j : Json) (key : String) (n : Nat) : j.uint? key = some n ↔ With j key (IsCount n) := by
  unfold Json.uint? With
  cases h : j.get? key with
  | none => simp
  | some v =>
    cases v <;> simp [Json.asUint, IsCount]
    omega

theorem float?_iff (j : Json) (key : String) (q : ℚ) : j.float? key = some q ↔ With j key (IsNumber q) := by
  unfold Json.float? With
  cases h : j.get? key with
  | none => simp
  | some v => cases v <;> simp [Json.asFloat, IsNumber, eq_comm]

theorem str?_iff (j : Json) (key : String) (s : Str) : j.str? key = some s ↔ With j key (IsText s) := by
  unfold Json.str? With
  cases h : j.get? key with
  | none => simp
  | some v => cases v <;> simp [Json.asStr, IsText, cstr_eq, eq_comm]

theorem arr?_iff (j : Json) (key : String) (l : List Json) : j.arr? key = some l ↔ With j key (IsArray l) := by
  unfold Json.arr? With
  cases h : j.get? key with
  | none => simp
  | some v => cases v <;> simp [Json.asArr, IsArray]

/-- A table of the code and one of the specification have the same entries. -/
def Same (table : List (Str × Nat)) (spec : List (String × Nat)) : Prop :=
  (∀ x ∈ table, ∃ y ∈ spec, x = (text y.1, y.2)) ∧ ∀ y ∈ spec, (text y.1, y.2) ∈ table

theorem lookup_mem {α β : Type} [BEq α] [LawfulBEq α] {l : List (α × β)} {a : α} {b : β} (h : l.lookup a = some b) :
    (a, b) ∈ l := by
  induction l with
  | nil => simp at h
  | cons x l ih =>
    obtain ⟨c, d⟩ := x
    rw [List.lookup_cons] at h
    split at h
    · next hc =>
      have hc := eq_of_beq hc
      cases h
      subst hc
      simp
    · exact List.mem_cons_of_mem _ (ih h)

theorem lookup_some {α β : Type} [BEq α] [LawfulBEq α] {l : List (α × β)} {a : α} {b : β} (h : (a, b) ∈ l) :
    ∃ c, l.lookup a = some c := by
  induction l with
  | nil => simp at h
  | cons x l ih =>
    obtain ⟨c, d⟩ := x
    rw [List.lookup_cons]
    split
    · exact ⟨_, rfl⟩
    · next hc =>
      rcases List.mem_cons.mp h with h | h
      · cases h; simp at hc
      · exact ih h

theorem at?_named {table : List (Str × Nat)} {spec : List (String × Nat)} (hs : Same table spec) {v : Json} {n : Nat}
    (h : IsName spec n v) : ∃ t m, v.asStr = some t ∧ at? table t = .ok m ∧ IsName spec m v := by
  cases v <;> simp only [IsName] at h
  next t =>
  obtain ⟨name, hmem, ht⟩ := h
  obtain ⟨m, hm⟩ := lookup_some (hs.2 _ hmem)
  refine ⟨cstr t, m, rfl, ?_, ?_⟩
  · unfold at?
    rw [cstr_eq, ht]
    simp only [hm]
  · obtain ⟨y, hy, he⟩ := hs.1 _ (lookup_mem hm)
    have h1 := congrArg Prod.fst he
    have h2 := congrArg Prod.snd he
    simp only at h1 h2
    refine ⟨y.1, ?_, ?_⟩
    · rw [h2]; exact hy
    · rw [ht]; exact h1

theorem str?_named {table : List (Str × Nat)} {spec : List (String × Nat)} (hs : Same table spec) {j : Json}
    {key : String} {n : Nat} (h : With j key (IsName spec n)) :
    ∃ t m, j.str? key = some t ∧ at? table t = .ok m ∧ With j key (IsName spec m) := by
  obtain ⟨v, hv, h⟩ := h
  obtain ⟨t, m, h1, h2, h3⟩ := at?_named hs h
  exact ⟨t, m, by unfold Json.str?; rw [hv]; exact h1, h2, v, hv, h3⟩

theorem optAll_named {table : List (Str × Nat)} {spec : List (String × Nat)} (hs : Same table spec) {j : Json}
    {key : String} (h : Maybe j key (fun v => ∃ n, IsName spec n v)) :
    ∃ o, optAll (at? table) (j.str? key) = .ok o ∧ ((∃ n, o = some n ∧ With j key (IsName spec n)) ∨
      (j.get? key = none ∧ o = none)) := by
  cases hv : j.get? key with
  | none =>
    refine ⟨none, ?_, .inr ⟨rfl, rfl⟩⟩
    unfold Json.str?
    rw [hv]
    rfl
  | some v =>
    obtain ⟨n, hn⟩ := h v hv
    obtain ⟨t, m, h1, h2, h3⟩ := str?_named hs (j := j) (key := key) ⟨v, hv, hn⟩
    refine ⟨some m, ?_, .inl ⟨m, rfl, h3⟩⟩
    rw [h1, optAll, h2]

theorem collect_all {α : Type} {f : Json → Except Err (Option α)} {R : Json → α → Prop} {l : List Json}
    (h : ∀ x ∈ l, ∃ a, f x = .ok (some a) ∧ R x a) : ∃ r, collect f l = .ok r ∧ List.Forall₂ R l r := by
  induction l with
  | nil => exact ⟨[], rfl, .nil⟩
  | cons x l ih =>
    obtain ⟨a, ha, hR⟩ := h x (by simp)
    obtain ⟨r, hr, hF⟩ := ih (fun y hy => h y (by simp [hy]))
    refine ⟨a :: r, ?_, .cons hR hF⟩
    rw [collect, ha, hr]

theorem same_effect : Same stringToEffectType effectTypes := by
  unfold Same; decide +kernel
theorem same_signal : Same stringToBaseSignal baseSignals := by
  unfold Same; decide +kernel
theorem same_band : Same stringToBandType bandTypes := by
  unfold Same; decide +kernel
theorem same_curve : Same stringToCurveType curveTypes := by
  unfold Same; decide +kernel
theorem same_avatar : Same stringToAvatarType avatarTypes := by
  unfold Same; decide +kernel
theorem same_actuator : Same stringToActuatorType actuatorTypes := by
  unfold Same; decide +kernel
theorem same_modality : Same stringToPerceptionModality modalities := by
  unfold Same; decide +kernel
theorem same_target : Same stringToBodyPartTarget bodyPartNames := by
  unfold Same; decide +kernel

theorem none_of {j : Json} {key : String} (h : j.get? key = none) :
    j.int? key = none ∧ j.float? key = none ∧ j.arr? key = none := by
  simp [Json.int?, Json.float?, Json.arr?, h]

theorem keyframe_of {j : Json} (h : j.isObject = true) : ∃ k, loadKeyframe j = .ok (some k) ∧ KeyframeOf j k := by
  unfold loadKeyframe
  rw [if_pos h]
  refine ⟨_, rfl, ?_, ?_, ?_, ?_, ?_, ?_⟩
  · intro i hi; exact (int?_iff _ _ _).mpr hi
  · intro i hi; exact (float?_iff _ _ _).mpr hi
  · intro i hi; exact (int?_iff _ _ _).mpr hi
  · intro h; exact (none_of h).1
  · intro h; exact (none_of h).2.1
  · intro h; exact (none_of h).1

theorem digits_true (c : UInt8) (h : c ≠ 65) : true ∈ digits 6 (ofChar c) := by
  have key : ∀ n : Fin 256, UInt8.ofNat n.val ≠ 65 → true ∈ digits 6 (ofChar (UInt8.ofNat n.val)) := by
    decide +kernel
  have := key ⟨c.toNat, c.toNat_lt⟩
  simp only [UInt8.ofNat_toNat] at this
  exact this h

theorem payload_of {s : Str} (h : IsPayload (.str s)) : ∃ b, readPayload s = .ok b := by
  unfold readPayload
  cases s with
  | nil => exact ⟨_, rfl⟩
  | cons a s =>
    simp only [IsPayload, reduceCtorEq, false_or] at h
    rw [base642bits]
    obtain ⟨c, hc, hne⟩ := h
    rw [cutZeros_eq _ ?_]
    · exact ⟨_, rfl⟩
    · exact ⟨true, List.mem_flatMap.mpr ⟨c, hc, digits_true c hne⟩, rfl⟩

theorem keyframes_of {j : Json} {l : List Json} (hl : With j "keyframes" (IsArray l))
    (h : ∀ x ∈ l, x.isObject = true) :
    ∃ ks, collect loadKeyframe l = .ok ks ∧ Elements KeyframeOf j "keyframes" ks := by
  obtain ⟨ks, h1, h2⟩ := collect_all (R := KeyframeOf) (fun x hx => keyframe_of (h x hx))
  exact ⟨ks, h1, .inl ⟨l, hl, h2⟩⟩

/-- The keyframes of a formed effect. -/
theorem keyframes_cases {j : Json} (h : Maybe j "keyframes" (Each (fun k => k.isObject = true))) :
    (j.get? "keyframes" = none ∧ Elements KeyframeOf j "keyframes" []) ∨
    ∃ l ks, j.get? "keyframes" = some (.arr l) ∧ collect loadKeyframe l = .ok ks ∧
      Elements KeyframeOf j "keyframes" ks := by
  cases hv : j.get? "keyframes" with
  | none => exact .inl ⟨rfl, .inr ⟨hv, rfl⟩⟩
  | some v =>
    obtain ⟨l, hl, hl'⟩ := h v hv
    obtain ⟨ks, h4, h5⟩ := keyframes_of ⟨v, hv, hl⟩ hl'
    refine .inr ⟨l, ks, ?_, h4, h5⟩
    cases v <;> simp only [IsArray] at hl
    subst hl
    rfl

theorem library_of {j : Json} (h : EffectFormed True False j) :
    ∃ e, loadLibraryEffect j = .ok (some e) ∧ EffectOf j e := by
  obtain ⟨n, hn⟩ := h.type
  obtain ⟨t, m, h1, h2, h3⟩ := str?_named same_effect hn
  obtain ⟨p, hp⟩ := h.position
  obtain ⟨i, hi⟩ := h.id (.inl trivial)
  obtain ⟨o, ho, ho'⟩ := optAll_named same_signal h.baseSignal
  have hp' := (int?_iff _ _ _).mpr hp
  have hi' := (int?_iff _ _ _).mpr hi
  have hid : ∀ k, With j "id" (IsInt k) → i = k := fun k hk =>
    Option.some.inj (hi'.symm.trans ((int?_iff _ _ _).mpr hk))
  unfold loadLibraryEffect
  simp only [h1, h2, hp', hi', ho, must, ok_bind, Option.isNone_some, Bool.false_eq_true, and_false, or_self, if_false]
  rcases keyframes_cases h.keyframes with ⟨hk, hks⟩ | ⟨l, ks, hk, hc, hks⟩
  · simp only [hk]
    exact ⟨_, rfl, h3, hp, hid, fun q hq => (float?_iff _ _ _).mpr hq, ho', hks⟩
  · simp only [hk, Json.asArr, ok_bind, hc]
    exact ⟨_, rfl, h3, hp, hid, fun q hq => (float?_iff _ _ _).mpr hq, ho', hks⟩

/-- The payload of a formed effect of a band. -/
theorem stream_of {j : Json} (h : Maybe j "wavelet_stream" IsPayload) : j.get? "wavelet_stream" = none ∨
    ∃ s b, j.get? "wavelet_stream" = some (.str s) ∧ readPayload s = .ok b := by
  cases hv : j.get? "wavelet_stream" with
  | none => exact .inl rfl
  | some v =>
    have := h v hv
    cases v <;> simp only [IsPayload] at this
    obtain ⟨b, hb⟩ := payload_of (s := _) this
    exact .inr ⟨_, b, rfl, hb⟩

theorem effect_of {w : Prop} {n : Nat} {j : Json} (h : EffectFormed False w j) (hw : n = BandType.WaveletWave → w) :
    ∃ e, loadEffect n j = .ok (some e) ∧ EffectOf j e := by
  obtain ⟨ty, hn⟩ := h.type
  obtain ⟨t, m, h1, h2, h3⟩ := str?_named same_effect hn
  obtain ⟨p, hp⟩ := h.position
  obtain ⟨o, ho, ho'⟩ := optAll_named same_signal h.baseSignal
  have hp' := (int?_iff _ _ _).mpr hp
  have hid : ∀ k, With j "id" (IsInt k) → (j.int? "id").getD (-1) = k := fun k hk => by
    rw [(int?_iff _ _ _).mpr hk]; rfl
  have hcond : ¬((m = EffectType.Reference ∧ (j.int? "id").isNone) ∨
        ((m = EffectType.Reference ∨ m = EffectType.Basis) ∧ (j.int? "position").isNone) ∨
        (m = EffectType.Basis ∧ n = BandType.WaveletWave ∧ (j.get? "wavelet_stream").isNone)) := by
    rintro (⟨rfl, h4⟩ | ⟨-, h4⟩ | ⟨rfl, hband, h4⟩)
    · obtain ⟨i, hi⟩ := h.id (.inr h3)
      rw [(int?_iff _ _ _).mpr hi] at h4
      simp at h4
    · rw [hp'] at h4; simp at h4
    · obtain ⟨v, hv⟩ := h.wave (hw hband) h3
      rw [hv] at h4
      simp at h4
  unfold loadEffect
  simp only [h1, h2, ok_bind]
  rw [if_neg hcond]
  simp only [hp', ho, must, ok_bind]
  have harr : ∀ l, j.get? "keyframes" = some (.arr l) → j.arr? "keyframes" = some l := fun l hl => by
    unfold Json.arr?; rw [hl]; rfl
  rcases keyframes_cases h.keyframes with ⟨hk, hks⟩ | ⟨l, ks, hk, hc, hks⟩ <;>
    rcases stream_of (h.stream not_false) with hb | ⟨s, b, hb, hs⟩
  · simp only [(none_of hk).2.2, hb]
    exact ⟨_, rfl, h3, hp, hid, fun q hq => (float?_iff _ _ _).mpr hq, ho', hks⟩
  · simp only [(none_of hk).2.2, hb, hs]
    exact ⟨_, rfl, h3, hp, hid, fun q hq => (float?_iff _ _ _).mpr hq, ho', hks⟩
  · simp only [harr l hk, hc, ok_bind, hb]
    exact ⟨_, rfl, h3, hp, hid, fun q hq => (float?_iff _ _ _).mpr hq, ho', hks⟩
  · simp only [harr l hk, hc, ok_bind, hb, hs]
    exact ⟨_, rfl, h3, hp, hid, fun q hq => (float?_iff _ _ _).mpr hq, ho', hks⟩

theorem addEffects_perm (l : List Effect) (b : Band) : (l.foldl Band.addEffect b).effects.Perm (l ++ b.effects) := by
  induction l generalizing b with
  | nil => exact .refl _
  | cons x l ih =>
    refine (ih (b.addEffect x)).trans ?_
    refine (List.Perm.append_left l (insertEffect_perm x b.effects)).trans ?_
    exact List.perm_middle

theorem addEffects_rest (l : List Effect) (b : Band) :
    ∃ es, l.foldl Band.addEffect b = { b with effects := es } := by
  induction l generalizing b with
  | nil => exact ⟨b.effects, rfl⟩
  | cons x l ih =>
    obtain ⟨es, h⟩ := ih (b.addEffect x)
    exact ⟨es, h⟩

theorem each_elements {α : Type} {P : Json → Prop} {f : Json → Except Err (Option α)} {R : Json → α → Prop} {j : Json}
    {key : String} (h : With j key (Each P)) (hf : ∀ x, P x → ∃ a, f x = .ok (some a) ∧ R x a) :
    ∃ a r, j.arr? key = some a ∧ collect f a = .ok r ∧ Elements R j key r := by
  obtain ⟨v, hv, a, ha, hP⟩ := h
  obtain ⟨r, h1, h2⟩ := collect_all (fun x hx => hf x (hP x hx))
  have := (arr?_iff j key a).mpr ⟨v, hv, ha⟩
  exact ⟨a, r, this, h1, .inl ⟨a, ⟨v, hv, ha⟩, h2⟩⟩

theorem band_of {j : Json} (h : BandFormed j) : ∃ b, loadBand j = .ok (some b) ∧ BandOf j b ∧
    ∀ n, b.blockLength = some n → -2 ^ 31 < n ∧ n < 2 ^ 31 := by
  obtain ⟨ty, hn⟩ := h.type
  obtain ⟨t, m, h1, h2, h3⟩ := str?_named same_band hn
  obtain ⟨lo, hlo⟩ := h.lower
  obtain ⟨hi, hhi⟩ := h.upper
  obtain ⟨o, ho, ho'⟩ := optAll_named same_curve h.curve
  have hlo' := (int?_iff _ _ _).mpr hlo
  have hhi' := (int?_iff _ _ _).mpr hhi
  obtain ⟨a, r, ha, hr, hel⟩ := each_elements (f := loadEffect m) (R := EffectOf) h.effects
    (fun x hx => effect_of hx (fun hm => by rw [hm] at h3; exact h3))
  have hblock : m = 3 → ∃ i, j.int? "block_length" = some i ∧ 0 ≤ i := fun hm => by
    rw [hm] at h3
    obtain ⟨i, h4, h5⟩ := h.block h3
    exact ⟨i, (int?_iff _ _ _).mpr h4, h5⟩
  have htext : isText (j.get? "band_type") (lit "WaveletWave") = true → ∃ i, j.int? "block_length" = some i :=
    fun ht => by
      cases hv : j.get? "band_type" with
      | none => rw [hv] at ht; simp [isText] at ht
      | some v =>
        rw [hv] at ht
        cases v <;> simp only [isText, beq_iff_eq, Bool.false_eq_true] at ht
        next t =>
        obtain ⟨i, h4, -⟩ := h.block ⟨_, hv, "WaveletWave", by decide, by rw [ht]; decide +kernel⟩
        exact ⟨i, (int?_iff _ _ _).mpr h4⟩
  have hcond : ¬(isText (j.get? "band_type") (lit "WaveletWave") && (j.int? "block_length").isNone) = true := by
    intro hc
    rw [Bool.and_eq_true] at hc
    obtain ⟨i, hi⟩ := htext hc.1
    rw [hi] at hc
    simp at hc
  unfold loadBand
  simp only [h1, hlo', hhi', ha]
  rw [if_neg hcond]
  simp only [h2, ho, hr, ok_bind]
  refine ⟨_, rfl, ?_⟩
  obtain ⟨es, hes⟩ := addEffects_rest r
    { bandType := m, lowerFrequencyLimit := lo, upperFrequencyLimit := hi, curveType := o
      blockLength := some (if m = BandType.WaveletWave then (j.int? "block_length").getD 0 else 0)
      priority := j.int? "priority" }
  have hperm := addEffects_perm r
    { bandType := m, lowerFrequencyLimit := lo, upperFrequencyLimit := hi, curveType := o
      blockLength := some (if m = BandType.WaveletWave then (j.int? "block_length").getD 0 else 0)
      priority := j.int? "priority" }
  have hsort := (addEffects_spec r
    { bandType := m, lowerFrequencyLimit := lo, upperFrequencyLimit := hi, curveType := o
      blockLength := some (if m = BandType.WaveletWave then (j.int? "block_length").getD 0 else 0)
      priority := j.int? "priority" }).2 (by simp)
  rw [hes] at hperm hsort ⊢
  refine ⟨⟨h3, hlo, hhi, fun hm => ?_, ⟨r, hel, by simpa using hperm⟩, hsort⟩, ?_⟩
  · obtain ⟨i, hi, -⟩ := hblock hm
    refine ⟨i, ?_, (int?_iff _ _ _).mp hi⟩
    simp only at hm
    simp only [hm, hi]
    rfl
  · intro n hn
    have hn := (Option.some.inj hn).symm
    split at hn
    · next hm =>
      obtain ⟨i, hi, h0⟩ := hblock hm
      obtain ⟨v, -, hv⟩ := (int?_iff _ _ _).mp hi
      rw [hi] at hn
      cases v <;> simp only [IsInt] at hv
      simp only [Option.getD_some] at hn
      omega
    · omega

theorem targets_of {l : List Json} (h : ∀ v ∈ l, ∃ n, IsName bodyPartNames n v) :
    ∃ r, mapAll (at? stringToBodyPartTarget) (l.filterMap Json.asStr) = .ok r ∧
      List.Forall₂ (fun v n => IsName bodyPartNames n v) l r := by
  induction l with
  | nil => exact ⟨[], rfl, .nil⟩
  | cons x l ih =>
    obtain ⟨n, hn⟩ := h x (by simp)
    obtain ⟨t, m, h1, h2, h3⟩ := at?_named same_target hn
    obtain ⟨r, hr, hF⟩ := ih (fun y hy => h y (by simp [hy]))
    refine ⟨m :: r, ?_, .cons h3 hF⟩
    rw [List.filterMap_cons_some h1, mapAll, h2, hr]

theorem channel_of {j : Json} (h : ChannelFormed j) : ∃ c, loadChannel j = .ok (some c) ∧ ChannelOf j c ∧
    ∀ b ∈ c.bands, ∀ n, b.blockLength = some n → -2 ^ 31 < n ∧ n < 2 ^ 31 := by
  obtain ⟨i, hi⟩ := h.id
  obtain ⟨s, hs⟩ := h.description
  obtain ⟨g, hg⟩ := h.gain
  obtain ⟨x, hx⟩ := h.mixing
  obtain ⟨k, hk⟩ := h.mask
  have hi' := (int?_iff _ _ _).mpr hi
  have hs' := (str?_iff _ _ _).mpr hs
  have hg' := (float?_iff _ _ _).mpr hg
  have hx' := (float?_iff _ _ _).mpr hx
  have hk' := (uint?_iff _ _ _).mpr hk
  have hf : ∃ q, j.float? "body_part_mask" = some q := by
    obtain ⟨v, hv, hk⟩ := hk
    cases v <;> simp only [IsCount] at hk
    exact ⟨_, (float?_iff _ _ _).mpr ⟨_, hv, rfl⟩⟩
  obtain ⟨q, hq⟩ := hf
  obtain ⟨a, r, ha, hr, hel⟩ := each_elements (f := loadBand)
    (R := fun j b => BandOf j b ∧ ∀ n, b.blockLength = some n → -2 ^ 31 < n ∧ n < 2 ^ 31) h.bands
    (fun x hx => band_of hx)
  have hbands : Elements BandOf j "bands" r := by
    rcases hel with ⟨a, h1, h2⟩ | h1
    · exact .inl ⟨a, h1, h2.imp (fun _ _ h => h.1)⟩
    · exact .inr h1
  have hlen : ∀ b ∈ r, ∀ n, b.blockLength = some n → -2 ^ 31 < n ∧ n < 2 ^ 31 := by
    rcases hel with ⟨a, -, h2⟩ | ⟨-, rfl⟩
    · clear hr ha hbands
      induction h2 with
      | nil => simp
      | cons h3 _ ih =>
        intro b hb
        rcases List.mem_cons.mp hb with rfl | hb
        · exact h3.2
        · exact ih b hb
    · simp
  have ht : ∃ o, optAll (fun l => mapAll (at? stringToBodyPartTarget) (l.filterMap Json.asStr))
      (j.arr? "body_part_target") = .ok o ∧
      ((∃ l, o = some l ∧ Elements (fun v n => IsName bodyPartNames n v) j "body_part_target" l) ∨
        (j.get? "body_part_target" = none ∧ o = none)) := by
    cases hv : j.get? "body_part_target" with
    | none => exact ⟨none, by rw [(none_of hv).2.2]; rfl, .inr ⟨rfl, rfl⟩⟩
    | some v =>
      obtain ⟨l, hl, hl'⟩ := h.target v hv
      obtain ⟨r, h1, h2⟩ := targets_of hl'
      refine ⟨some r, ?_, .inl ⟨r, rfl, .inl ⟨l, ⟨v, hv, hl⟩, h2⟩⟩⟩
      rw [(arr?_iff _ _ _).mpr ⟨v, hv, hl⟩, optAll, h1]
  obtain ⟨o, ho, ho'⟩ := ht
  unfold loadChannel
  simp only [hi', hs', hg', hx', hq, ha, hk', must, ok_bind]
  simp only [ho, hr, ok_bind]
  exact ⟨_, rfl, ⟨hi, hs, hg, hx, hk, ho', hbands⟩, hlen⟩

theorem device_of {j : Json} (h : DeviceFormed j) : ∃ d, loadDevice j = .ok (some d) ∧ DeviceOf j d := by
  obtain ⟨i, hi⟩ := h.id
  obtain ⟨s, hs⟩ := h.name
  obtain ⟨o, ho, ho'⟩ := optAll_named same_actuator h.type
  have hi' := (int?_iff _ _ _).mpr hi
  have hs' := (str?_iff _ _ _).mpr hs
  unfold loadDevice
  simp only [hi', hs', ho, ok_bind]
  exact ⟨_, rfl, hi, hs, ho'⟩

theorem avatar_of {j : Json} (h : AvatarFormed j) : ∃ a, loadAvatar j = .ok (some a) ∧ AvatarOf j a := by
  obtain ⟨i, hi⟩ := h.id
  obtain ⟨l, hl⟩ := h.lod
  obtain ⟨n, hn⟩ := h.type
  obtain ⟨t, m, h1, h2, h3⟩ := str?_named same_avatar hn
  have hi' := (int?_iff _ _ _).mpr hi
  have hl' := (int?_iff _ _ _).mpr hl
  unfold loadAvatar
  simp only [hi', hl', h1, h2, ok_bind]
  exact ⟨_, rfl, hi, hl, h3⟩

theorem sync_of {j : Json} (h : SyncFormed j) : ∃ s, loadSync j = .ok (some s) ∧ SyncOf j s := by
  obtain ⟨i, hi⟩ := h.timestamp
  have hi' := (int?_iff _ _ _).mpr hi
  unfold loadSync
  simp only [hi']
  refine ⟨_, rfl, hi, fun n hn => ?_⟩
  rw [(uint?_iff _ _ _).mpr hn]
  rfl

theorem perception_of {j : Json} (h : PerceptionFormed j) : ∃ p, loadPerception j = .ok (some p) ∧
    PerceptionOf j p ∧ ∀ c ∈ p.channels, ∀ b ∈ c.bands, ∀ n, b.blockLength = some n → -2 ^ 31 < n ∧ n < 2 ^ 31 := by
  obtain ⟨i, hi⟩ := h.id
  obtain ⟨av, hav⟩ := h.avatar
  obtain ⟨s, hs⟩ := h.description
  obtain ⟨n, hn⟩ := h.modality
  obtain ⟨t, m, h1, h2, h3⟩ := str?_named same_modality hn
  have hi' := (int?_iff _ _ _).mpr hi
  have hav' := (int?_iff _ _ _).mpr hav
  have hs' := (str?_iff _ _ _).mpr hs
  obtain ⟨a, r, ha, hr, hel⟩ := each_elements (f := loadLibraryEffect) (R := EffectOf) h.library
    (fun x hx => library_of hx)
  obtain ⟨a', r', ha', hr', hel'⟩ := each_elements (f := loadChannel) (R := fun j c => ChannelOf j c ∧
    ∀ b ∈ c.bands, ∀ n, b.blockLength = some n → -2 ^ 31 < n ∧ n < 2 ^ 31) h.channels (fun x hx => channel_of hx)
  have hch : Elements ChannelOf j "channels" r' := by
    rcases hel' with ⟨a, h1, h2⟩ | h1
    · exact .inl ⟨a, h1, h2.imp (fun _ _ h => h.1)⟩
    · exact .inr h1
  have hlen : ∀ c ∈ r', ∀ b ∈ c.bands, ∀ n, b.blockLength = some n → -2 ^ 31 < n ∧ n < 2 ^ 31 := by
    rcases hel' with ⟨a, -, h2⟩ | ⟨-, rfl⟩
    · clear hr' ha' hch
      induction h2 with
      | nil => simp
      | cons h3 _ ih =>
        intro b hb
        rcases List.mem_cons.mp hb with rfl | hb
        · exact h3.2
        · exact ih b hb
    · simp
  have hd : ∃ ds, collect loadDevice ((j.arr? "reference_devices").getD []) = .ok ds ∧
      Elements DeviceOf j "reference_devices" ds := by
    cases hv : j.get? "reference_devices" with
    | none => exact ⟨[], by rw [(none_of hv).2.2]; rfl, .inr ⟨hv, rfl⟩⟩
    | some v =>
      obtain ⟨a, r, h4, h5, h6⟩ := each_elements (f := loadDevice) (R := DeviceOf) ⟨v, hv, h.devices v hv⟩
        (fun x hx => device_of hx)
      exact ⟨r, by rw [h4]; exact h5, h6⟩
  obtain ⟨ds, hds, hds'⟩ := hd
  unfold loadPerception
  simp only [hi', hav', hs', h1, h2, ha, ha', hr, hr', hds, ok_bind]
  exact ⟨_, rfl, ⟨hi, hav, hs, h3, hel, hch, hds'⟩, hlen⟩

/-- **C90.** A file of the right form is loaded without an exception and without undefined behaviour: the result
is the experience the file stands for, with every element of every array, unless that experience does not conform
to the rules of C34, in which case the file is refused. -/
theorem c90_loads (schema : Json → Bool) (j : Json) (hs : schema j = true) (h : Formed j) :
    ∃ e, ExperienceOf j e ∧ (Conformant e → loadTree schema j = .ok e) ∧
      (¬Conformant e → loadTree schema j = .error .fail) := by
  obtain ⟨v, hv⟩ := h.version
  obtain ⟨p, hp⟩ := h.profile
  obtain ⟨l, hl⟩ := h.level
  obtain ⟨d, hd⟩ := h.date
  obtain ⟨t, ht⟩ := h.description
  obtain ⟨ts, hts⟩ := h.timescale
  obtain ⟨a, as, ha, has, hae⟩ := each_elements (f := loadAvatar) (R := AvatarOf) h.avatars (fun x hx => avatar_of hx)
  obtain ⟨b, ps, hb, hps, hpe⟩ := each_elements (f := loadPerception) (R := fun j p => PerceptionOf j p ∧
    ∀ c ∈ p.channels, ∀ b ∈ c.bands, ∀ n, b.blockLength = some n → -2 ^ 31 < n ∧ n < 2 ^ 31) h.perceptions
    (fun x hx => perception_of hx)
  obtain ⟨c, ss, hc, hss, hse⟩ := each_elements (f := loadSync) (R := SyncOf) h.syncs (fun x hx => sync_of hx)
  have hpp : Elements PerceptionOf j "perceptions" ps := by
    rcases hpe with ⟨a, h1, h2⟩ | h1
    · exact .inl ⟨a, h1, h2.imp (fun _ _ h => h.1)⟩
    · exact .inr h1
  have hlen : ∀ p ∈ ps, ∀ c ∈ p.channels, ∀ b ∈ c.bands, ∀ n, b.blockLength = some n → -2 ^ 31 < n ∧ n < 2 ^ 31 := by
    rcases hpe with ⟨a, -, h2⟩ | ⟨-, rfl⟩
    · clear hps hb hpp
      induction h2 with
      | nil => simp
      | cons h3 _ ih =>
        intro b hb
        rcases List.mem_cons.mp hb with rfl | hb
        · exact h3.2
        · exact ih b hb
    · simp
  have hv' := (str?_iff _ _ _).mpr hv
  have hp' := (str?_iff _ _ _).mpr hp
  have hl' := (uint?_iff _ _ _).mpr hl
  have hd' := (str?_iff _ _ _).mpr hd
  have ht' := (str?_iff _ _ _).mpr ht
  have hts' := (uint?_iff _ _ _).mpr hts
  have hobj : j.isObject = true := by
    obtain ⟨x, hx, -⟩ := hv
    cases j <;> simp [Json.get?] at hx ⊢
    rfl
  have hpres : ∀ key P, With j key P → (j.get? key).isNone = false := by
    rintro key P ⟨x, hx, -⟩
    rw [hx]
    rfl
  let e : Experience := { version := v, profile := p, level := l % 256, date := d, description := t
                          timescale := some ts, avatars := as, perceptions := ps, syncs := ss }
  have hload : loadTree schema j = if checkExperience e then .ok e else .error .fail := by
    unfold loadTree
    simp only [hobj, hs, hpres _ _ hv, hpres _ _ hp, hpres _ _ hl, hpres _ _ hd, hpres _ _ ht, hpres _ _ hts, ha, hb,
      hc, Option.isNone_some, Bool.not_true, Bool.false_eq_true, or_self, if_false]
    unfold loadExperience
    simp only [hv', hp', hl', hd', ht', hts', must, ok_bind, ha, hb, hc, Option.getD_some, has, hps, hss]
    rfl
  have hiff := c34_iff e hlen
  refine ⟨e, ⟨hv, hp, ⟨l, hl, rfl⟩, hd, ht, ⟨ts, hts, rfl⟩, hae, hpp, hse⟩, fun hcf => ?_, fun hcf => ?_⟩
  · rw [hload, if_pos (hiff.mpr hcf)]
  · rw [hload, if_neg (fun h => hcf (hiff.mp h))]

/-! ### Files of another form -/

/-- Text of a file. -/
def txt (s : String) : Json := .str (text s)

/-- Parts of a file: an effect, a band, a channel, a perception and the file itself. -/
def treeEffect : Json := .obj [("effect_type", txt "Basis"), ("position", .num 20), ("base_signal", txt "Sine"),
  ("keyframes", .arr [.obj [("relative_position", .num 0), ("amplitude_modulation", .dbl (1 / 2))]])]
def treeLibrary : Json := .obj [("effect_type", txt "Basis"), ("id", .num 4), ("position", .num 0)]
def treeWave : Json := .obj [("effect_type", txt "Basis"), ("position", .num 0), ("wavelet_stream", txt "Bcd8")]
def treeBand (effects : List Json) : Json := .obj [("band_type", txt "VectorialWave"),
  ("lower_frequency_limit", .num 0), ("upper_frequency_limit", .num 1000), ("effects", .arr effects)]
def treeWavelet (effects : List Json) : Json := .obj [("band_type", txt "WaveletWave"), ("block_length", .num 64),
  ("lower_frequency_limit", .num 0), ("upper_frequency_limit", .num 1000), ("effects", .arr effects)]
def treeChannel (mask : Json) (bands : List Json) : Json := .obj [("id", .num 0), ("description", txt "left"),
  ("gain", .num 1), ("mixing_coefficient", .dbl (3 / 4)), ("body_part_mask", mask), ("bands", .arr bands)]
def treePerception (library channels : List Json) : Json := .obj [("id", .num 0), ("avatar_id", .num 1),
  ("description", txt "vest"), ("perception_modality", txt "Vibration"), ("effect_library", .arr library),
  ("channels", .arr channels)]
def treeAvatar : Json := .obj [("id", .num 1), ("lod", .num 3), ("type", txt "Vibration")]
def treeFile (version level : Json) (perceptions : List Json) : Json := .obj [("version", version),
  ("profile", txt "Main"), ("level", level), ("date", txt "2024-05-06"), ("description", txt "demo"),
  ("timescale", .num 1000), ("avatars", .arr [treeAvatar]), ("perceptions", .arr perceptions),
  ("syncs", .arr [.obj [("timestamp", .num 100)]])]

/-- A file with the given effects, library effects and body part mask. -/
def treeWith (effects waves library : List Json) (mask : Json) : Json :=
  treeFile (txt "2023") (.num 1) [treePerception library [treeChannel mask [treeBand effects, treeWavelet waves]]]

/-- How loading ends; `none` if it succeeds. -/
def ending (r : Except Err Experience) : Option Err :=
  match r with
  | .ok _ => none
  | .error e => some e

theorem ending_eq {r : Except Err Experience} {x : Err} (h : ending r = some x) : r = .error x := by
  cases r with
  | ok e => simp [ending] at h
  | error y => simp [ending] at h; rw [h]

theorem tree_ending {schema : Json → Bool} {j : Json} (hs : schema j = true) {x : Err}
    (h : ending (loadTree (fun _ => true) j) = some x) : loadTree schema j = .error x := by
  have := ending_eq h
  unfold loadTree at this ⊢
  simp only [hs] at this ⊢
  exact this

/-- **C90.** A file in which one of the parts of an experience is missing is refused, whatever else is in it. -/
theorem c90_required (schema : Json → Bool) (j : Json)
    (h : (∃ key ∈ ["version", "profile", "level", "date", "description", "timescale"], j.get? key = none) ∨
      ∃ key ∈ ["perceptions", "avatars", "syncs"], j.arr? key = none) : loadTree schema j = .error .fail := by
  unfold loadTree
  split
  · rfl
  split
  · rfl
  refine if_pos ?_
  simp only [List.mem_cons, List.not_mem_nil, or_false, exists_eq_or_imp, exists_eq_left] at h
  simp only [Option.isNone_iff_eq_none]
  tauto

/-- Non-vacuity: the sample without one part. -/
example : ∀ key ∈ ["version", "profile", "level", "date", "description", "timescale"],
    ∃ members : List (String × Json), treeWith [treeEffect] [treeWave] [treeLibrary] (.num 5) = .obj members ∧
      (Json.obj (members.filter (·.1 ≠ key))).get? key = none := by
  intro key hkey
  refine ⟨_, rfl, ?_⟩
  simp only [List.mem_cons, List.not_mem_nil, or_false] at hkey
  have e : ∀ x : Option Json, x.isNone = true → x = none := fun x => Option.isNone_iff_eq_none.mp
  rcases hkey with rfl | rfl | rfl | rfl | rfl | rfl <;> exact e _ (by decide +kernel)

/-- The sample file is of the right form. -/
theorem treeFormed : Formed (treeWith [treeEffect] [treeWave] [treeLibrary] (.num 5)) := by
  have hb : EffectFormed False (With (treeBand [treeEffect]) "band_type" (IsName bandTypes 3)) treeEffect :=
    ⟨⟨0, _, rfl, "Basis", by decide, by decide +kernel⟩, ⟨20, _, rfl, by simp [IsInt]⟩,
      fun h => by
        rcases h with h | ⟨v, hv, h⟩
        · exact h.elim
        · cases hv
          obtain ⟨name, h1, h2⟩ := h
          simp only [effectTypes, List.mem_cons, Prod.mk.injEq, List.not_mem_nil, or_false] at h1
          rcases h1 with ⟨-, h⟩ | ⟨rfl, -⟩ | ⟨-, h⟩
          · simp at h
          · exact absurd h2 (by decide +kernel)
          · simp at h,
      fun v hv => by cases hv; exact ⟨0, "Sine", by decide, by decide +kernel⟩,
      fun v hv => by cases hv; exact ⟨_, rfl, by simp; rfl⟩,
      fun _ v hv => (by cases hv),
      fun h => by
        obtain ⟨v, hv, h⟩ := h
        cases hv
        obtain ⟨name, h1, h2⟩ := h
        simp only [bandTypes, List.mem_cons, Prod.mk.injEq, List.not_mem_nil, or_false] at h1
        rcases h1 with ⟨-, h⟩ | ⟨-, h⟩ | ⟨-, h⟩ | ⟨rfl, -⟩
        · simp at h
        · simp at h
        · simp at h
        · exact absurd h2 (by decide +kernel)⟩
  have hw : EffectFormed False (With (treeWavelet [treeWave]) "band_type" (IsName bandTypes 3)) treeWave :=
    ⟨⟨0, _, rfl, "Basis", by decide, by decide +kernel⟩, ⟨0, _, rfl, by simp [IsInt]⟩,
      fun h => by
        rcases h with h | ⟨v, hv, h⟩
        · exact h.elim
        · cases hv
          obtain ⟨name, h1, h2⟩ := h
          simp only [effectTypes, List.mem_cons, Prod.mk.injEq, List.not_mem_nil, or_false] at h1
          rcases h1 with ⟨-, h⟩ | ⟨rfl, -⟩ | ⟨-, h⟩
          · simp at h
          · exact absurd h2 (by decide +kernel)
          · simp at h,
      fun v hv => (by cases hv), fun v hv => (by cases hv),
      fun _ v hv => by cases hv; exact .inr ⟨66, by decide +kernel, by decide⟩,
      fun _ _ => ⟨_, rfl⟩⟩
  have hl : EffectFormed True False treeLibrary :=
    ⟨⟨0, _, rfl, "Basis", by decide, by decide +kernel⟩, ⟨0, _, rfl, by simp [IsInt]⟩,
      fun _ => ⟨4, _, rfl, by simp [IsInt]⟩, fun v hv => (by cases hv), fun v hv => (by cases hv),
      fun h => absurd trivial h, fun h => h.elim⟩
  have hband : BandFormed (treeBand [treeEffect]) :=
    ⟨⟨2, _, rfl, "VectorialWave", by decide, by decide +kernel⟩, ⟨0, _, rfl, by simp [IsInt]⟩,
      ⟨1000, _, rfl, by simp [IsInt]⟩, fun v hv => (by cases hv),
      fun h => by
        obtain ⟨v, hv, h⟩ := h
        cases hv
        obtain ⟨name, h1, h2⟩ := h
        simp only [bandTypes, List.mem_cons, Prod.mk.injEq, List.not_mem_nil, or_false] at h1
        rcases h1 with ⟨-, h⟩ | ⟨-, h⟩ | ⟨-, h⟩ | ⟨rfl, -⟩
        · simp at h
        · simp at h
        · simp at h
        · exact absurd h2 (by decide +kernel),
      ⟨_, rfl, [treeEffect], rfl, by simpa using hb⟩⟩
  have hwav : BandFormed (treeWavelet [treeWave]) :=
    ⟨⟨3, _, rfl, "WaveletWave", by decide, by decide +kernel⟩, ⟨0, _, rfl, by simp [IsInt]⟩,
      ⟨1000, _, rfl, by simp [IsInt]⟩, fun v hv => (by cases hv),
      fun _ => ⟨64, ⟨_, rfl, by simp [IsInt]⟩, by norm_num⟩,
      ⟨_, rfl, [treeWave], rfl, by simpa using hw⟩⟩
  have hc : ChannelFormed (treeChannel (.num 5) [treeBand [treeEffect], treeWavelet [treeWave]]) :=
    ⟨⟨0, _, rfl, by simp [IsInt]⟩, ⟨_, _, rfl, rfl⟩, ⟨_, _, rfl, rfl⟩, ⟨_, _, rfl, rfl⟩,
      ⟨5, _, rfl, by simp [IsCount]⟩, fun v hv => (by cases hv),
      ⟨_, rfl, _, rfl, by
        intro x hx
        simp only [List.mem_cons, List.not_mem_nil, or_false] at hx
        rcases hx with rfl | rfl
        · exact hband
        · exact hwav⟩⟩
  exact ⟨⟨_, _, rfl, rfl⟩, ⟨_, _, rfl, rfl⟩, ⟨1, _, rfl, by simp [IsCount]⟩, ⟨_, _, rfl, rfl⟩, ⟨_, _, rfl, rfl⟩,
    ⟨1000, _, rfl, by simp [IsCount]⟩,
    ⟨_, rfl, _, rfl, by
      intro x hx
      simp only [List.mem_cons, List.not_mem_nil, or_false] at hx
      subst hx
      exact ⟨⟨1, _, rfl, by simp [IsInt]⟩, ⟨3, _, rfl, by simp [IsInt]⟩,
        ⟨1, _, rfl, "Vibration", by decide, by decide +kernel⟩⟩⟩,
    ⟨_, rfl, _, rfl, by
      intro x hx
      simp only [List.mem_cons, List.not_mem_nil, or_false] at hx
      subst hx
      exact ⟨⟨0, _, rfl, by simp [IsInt]⟩, ⟨1, _, rfl, by simp [IsInt]⟩, ⟨_, _, rfl, rfl⟩,
        ⟨6, _, rfl, "Vibration", by decide, by decide +kernel⟩,
        ⟨_, rfl, [treeLibrary], rfl, by simpa using hl⟩, ⟨_, rfl, _, rfl, by simpa using hc⟩,
        fun v hv => by cases hv⟩⟩,
    ⟨_, rfl, _, rfl, by
      intro x hx
      simp only [List.mem_cons, List.not_mem_nil, or_false] at hx
      subst hx
      exact ⟨⟨100, _, rfl, by simp [IsInt]⟩⟩⟩⟩

example : ending (loadTree (fun _ => true) (treeWith [treeEffect] [treeWave] [treeLibrary] (.num 5))) = none := by
  decide +kernel

/-- **C90.** A composite effect without a position: the position is read from a member that is not there. -/
theorem c90_position_unsafe (schema : Json → Bool) (j : Json)
    (hj : j = treeWith [treeEffect, .obj [("effect_type", txt "Composite")]] [treeWave] [treeLibrary] (.num 5))
    (hs : schema j = true) : loadTree schema j = .error .ub := by
  refine tree_ending hs ?_
  subst hj
  decide +kernel

/-- **C90.** A library effect without an identifier. -/
theorem c90_library_unsafe (schema : Json → Bool) (j : Json)
    (hj : j = treeWith [treeEffect] [treeWave] [.obj [("effect_type", txt "Basis"), ("position", .num 0)]] (.num 5))
    (hs : schema j = true) : loadTree schema j = .error .ub := by
  refine tree_ending hs ?_
  subst hj
  decide +kernel

/-- **C90.** Keyframes of a library effect that are not an array. -/
theorem c90_keyframes_unsafe (schema : Json → Bool) (j : Json)
    (hj : j = treeWith [treeEffect] [treeWave] [.obj [("effect_type", txt "Basis"), ("id", .num 4),
      ("position", .num 0), ("keyframes", .obj [])]] (.num 5))
    (hs : schema j = true) : loadTree schema j = .error .ub := by
  refine tree_ending hs ?_
  subst hj
  decide +kernel

/-- **C90.** A body part mask that is a number but not one of 32 bits without a sign. -/
theorem c90_mask_unsafe (schema : Json → Bool) (j : Json)
    (hj : j = treeWith [treeEffect] [treeWave] [treeLibrary] (.num (-1)) ∨
      j = treeWith [treeEffect] [treeWave] [treeLibrary] (.num (2 ^ 32)) ∨
      j = treeWith [treeEffect] [treeWave] [treeLibrary] (.dbl (1 / 2)))
    (hs : schema j = true) : loadTree schema j = .error .ub := by
  refine tree_ending hs ?_
  rcases hj with rfl | rfl | rfl <;> decide +kernel

/-- **C90.** A wavelet payload that is not text. -/
theorem c90_stream_unsafe (schema : Json → Bool) (j : Json)
    (hj : j = treeWith [treeEffect] [.obj [("effect_type", txt "Basis"), ("position", .num 0),
      ("wavelet_stream", .num 7)]] [treeLibrary] (.num 5))
    (hs : schema j = true) : loadTree schema j = .error .ub := by
  refine tree_ending hs ?_
  subst hj
  decide +kernel

/-- **C90.** A version or a level of the wrong kind. -/
theorem c90_header_unsafe (schema : Json → Bool) (j : Json)
    (hj : j = treeFile (.num 2023) (.num 1) [] ∨ j = treeFile (txt "2023") (.num (-1)) [])
    (hs : schema j = true) : loadTree schema j = .error .ub := by
  refine tree_ending hs ?_
  rcases hj with rfl | rfl <;> decide +kernel

/-- **C90.** Unknown names, and payloads of zeros only, end with an exception that nothing catches. -/
theorem c90_names_negation (schema : Json → Bool) (j : Json)
    (hj : j = treeWith [.obj [("effect_type", txt "basis"), ("position", .num 0)]] [treeWave] [treeLibrary] (.num 5) ∨
      j = treeWith [treeEffect] [.obj [("effect_type", txt "Basis"), ("position", .num 0),
        ("wavelet_stream", txt "AAAA")]] [treeLibrary] (.num 5) ∨
      j = treeWith [.obj [("effect_type", txt "Basis"), ("position", .num 0), ("base_signal", txt "Noise")]]
        [treeWave] [treeLibrary] (.num 5))
    (hs : schema j = true) : loadTree schema j = .error .throw := by
  refine tree_ending hs ?_
  rcases hj with rfl | rfl | rfl <;> decide +kernel

/-- **C90.** Without the gain, a channel is left out with everything in it, and loading succeeds. -/
theorem c90_skipped_negation (schema : Json → Bool) (j : Json)
    (hj : j = treeFile (txt "2023") (.num 1) [treePerception [treeLibrary] [.obj [("id", .num 0),
      ("description", txt "left"), ("mixing_coefficient", .dbl (3 / 4)), ("body_part_mask", .num 5),
      ("bands", .arr [treeBand [treeEffect]])]]])
    (hs : schema j = true) : ∃ e, loadTree schema j = .ok e ∧ e.perceptions.map (·.channels.length) = [0] := by
  have h : ((loadTree (fun _ => true) j).toOption.map (fun e => e.perceptions.map (·.channels.length))) = some [0] := by
    subst hj
    decide +kernel
  have heq : loadTree schema j = loadTree (fun _ => true) j := by
    unfold loadTree
    simp only [hs]
  rw [heq]
  cases hl : loadTree (fun _ => true) j with
  | error x => rw [hl] at h; simp [Except.toOption] at h
  | ok e =>
    rw [hl] at h
    exact ⟨e, rfl, Option.some.inj h⟩

end Haptics.Json
