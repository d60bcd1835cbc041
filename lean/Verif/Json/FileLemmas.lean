import Verif.Json.Load
import Verif.Json.SpecFile
import Verif.Json.PropsBase64
import Verif.Json.PropsConformance
import Verif.Bits.FloatLemmas

/-! Lemmas for C71: what the `load` functions make of what the `extract` functions make. -/

namespace Haptics.Json
open Haptics

/-! ### Members -/

theorem get?_nil (k : String) : (mk []).get? k = none := rfl

theorem get?_cons (k k' : String) (o : Option Json) (l : List (String × Option Json)) :
    (mk ((k', o) :: l)).get? k = if k = k' then o.or ((mk l).get? k) else (mk l).get? k := by
  cases o with
  | none => simp [mk, Json.get?]
  | some v =>
    simp only [mk, Json.get?, List.filterMap_cons, Option.map_some, List.lookup_cons, Option.or_some]
    by_cases h : k = k'
    · subst h; simp
    · rw [beq_false_of_ne h, if_neg h]

theorem isObject_mk (l : List (String × Option Json)) : (mk l).isObject = true := rfl

/-! ### Values -/

theorem asInt_num {i : Int} (h : Int32 i) : Json.asInt (.num i) = some i := by
  exact if_pos h

theorem bind_asInt {o : Option Int} (h : ∀ i ∈ o, Int32 i) : (o.map Json.num).bind Json.asInt = o := by
  cases o with
  | none => rfl
  | some i => exact asInt_num (h i rfl)

theorem asUint_num {n : Nat} (h : Uint32 n) : Json.asUint (.num n) = some n := by
  unfold Uint32 at h
  have : (0 : Int) ≤ (n : Int) ∧ (n : Int) < 2 ^ 32 := by omega
  simp only [Json.asUint, this, and_self, if_true, Int.toNat_natCast]

theorem bind_asUint {o : Option Nat} (h : ∀ i ∈ o, Uint32 i) :
    (o.map unsignedValue).bind Json.asUint = o := by
  cases o with
  | none => rfl
  | some i =>
    rw [Option.map_some, Option.bind_some]
    exact asUint_num (h i rfl)

theorem fl32_float {q : ℚ} (h : IsFloat q) : fl32 q = q := by
  obtain ⟨m, k, hm, hk, -, rfl⟩ := h
  exact flo_exact 24 (-126) m k (by rw [Int.abs_eq_natAbs]; omega) (by omega)

theorem asFloat_dbl {q : ℚ} (h : IsFloat q) : Json.asFloat (.dbl q) = some q := by
  exact congrArg some (fl32_float h)

theorem bind_asFloat {o : Option ℚ} (h : ∀ q ∈ o, IsFloat q) : (o.map Json.dbl).bind Json.asFloat = o := by
  cases o with
  | none => rfl
  | some i => exact asFloat_dbl (h i rfl)

theorem keptText_eq (s : Str) : keptText s = cstr s := by
  unfold keptText cstr
  congr 1
  funext b
  by_cases h : b = 0 <;> simp [h]

theorem cstr_cstr (s : Str) : cstr (cstr s) = cstr s := by
  unfold cstr
  induction s with
  | nil => rfl
  | cons a s ih =>
    rw [List.takeWhile_cons]
    split
    · next h => rw [List.takeWhile_cons, if_pos h, ih]
    · rfl

theorem cstr_of_noZero {s : Str} (h : NoZero s) : cstr s = s := by
  unfold cstr
  unfold NoZero at h
  induction s with
  | nil => rfl
  | cons a s ih =>
    rw [List.mem_cons, not_or] at h
    rw [List.takeWhile_cons, if_pos (by simpa using fun h0 => h.1 h0.symm), ih h.2]

theorem keptText_of_noZero {s : Str} (h : NoZero s) : keptText s = s := by rw [keptText_eq, cstr_of_noZero h]

theorem asStr_textValue (s : Str) : Json.asStr (textValue s) = some (keptText s) := by
  rw [keptText_eq]
  exact congrArg some (cstr_cstr s)

theorem bind_asStr (o : Option Str) : (o.map textValue).bind Json.asStr = o.map keptText := by
  cases o with
  | none => rfl
  | some i => exact asStr_textValue i

theorem semantic_roundtrip {s : String} (h : ByteText s) :
    (Json.asStr (textValue (semanticBytes s))).map semanticOf = some (keptKeyword s) := by
  rw [asStr_textValue, keptText_eq, Option.map_some]
  congr 1
  unfold semanticOf keptKeyword semanticBytes cstr
  congr 1
  unfold ByteText at h
  generalize s.toList = l at h
  induction l with
  | nil => rfl
  | cons c l ih =>
    have hc := h c (by simp)
    have hch : Char.ofNat (UInt8.ofNat c.toNat).toNat = c := by
      rw [UInt8.toNat_ofNat', Nat.mod_eq_of_lt hc, Char.ofNat_toNat]
    have hz : ((UInt8.ofNat c.toNat) != 0) = decide (c ≠ Char.ofNat 0) := by
      by_cases h0 : c = Char.ofNat 0
      · subst h0; rfl
      · have : UInt8.ofNat c.toNat ≠ 0 := by
          intro hu
          rw [hu] at hch
          exact h0 hch.symm
        simp [h0, this]
    rw [List.map_cons, List.takeWhile_cons, List.takeWhile_cons, hz]
    split
    · rw [List.map_cons, hch, ih (fun c hc => h c (by simp [hc]))]
    · rfl

theorem bind_semantic {o : Option String} (h : ∀ s ∈ o, ByteText s) :
    ((o.map (fun s => textValue (semanticBytes s))).bind Json.asStr).map semanticOf = o.map keptKeyword := by
  cases o with
  | none => rfl
  | some s => exact semantic_roundtrip (h s rfl)

theorem uint?_eq {j v : Json} {key : String} {n : Nat} (h1 : j.get? key = some v) (h2 : v.asUint = some n) :
    j.uint? key = some n := by
  unfold Json.uint?; rw [h1, Option.bind_some, h2]

/-! ### Names of enumerators -/

/-- A name that is a C string and leads back to the enumerator. -/
def Named (names : List (Nat × Str)) (values : List (Str × Nat)) (n : Nat) : Prop :=
  ∃ s, at? names n = .ok s ∧ cstr s = s ∧ at? values s = .ok n

instance (names values n) : Decidable (Named names values n) :=
  match h : at? names n with
  | .error e => .isFalse (by rintro ⟨s, hs, -⟩; rw [h] at hs; cases hs)
  | .ok s =>
    if h2 : cstr s = s ∧ values.lookup s = some n then
      .isTrue ⟨s, h, h2.1, by unfold at?; rw [h2.2]⟩
    else .isFalse (by
      rintro ⟨t, ht, h3, h4⟩
      rw [h] at ht
      cases ht
      apply h2
      refine ⟨h3, ?_⟩
      unfold at? at h4
      split at h4
      · next v hv => cases h4; exact hv
      · cases h4)

theorem named_effectType {n : Nat} (h : n < 3) : Named effectTypeToString stringToEffectType n := by
  have : ∀ i : Fin 3, Named effectTypeToString stringToEffectType i.val := by decide +kernel
  exact this ⟨n, h⟩
theorem named_baseSignal {n : Nat} (h : n < 5) : Named baseSignalToString stringToBaseSignal n := by
  have : ∀ i : Fin 5, Named baseSignalToString stringToBaseSignal i.val := by decide +kernel
  exact this ⟨n, h⟩
theorem named_bandType {n : Nat} (h : n < 4) : Named bandTypeToString stringToBandType n := by
  have : ∀ i : Fin 4, Named bandTypeToString stringToBandType i.val := by decide +kernel
  exact this ⟨n, h⟩
theorem named_curveType {n : Nat} (h : n < 6) : Named curveTypeToString stringToCurveType n := by
  have : ∀ i : Fin 6, Named curveTypeToString stringToCurveType i.val := by decide +kernel
  exact this ⟨n, h⟩
theorem named_avatarType {n : Nat} (h : n < 4) : Named avatarTypeToString stringToAvatarType n := by
  have : ∀ i : Fin 4, Named avatarTypeToString stringToAvatarType i.val := by decide +kernel
  exact this ⟨n, h⟩
theorem named_actuatorType {n : Nat} (h : n < 5) : Named actuatorTypeToString stringToActuatorType n := by
  have : ∀ i : Fin 5, Named actuatorTypeToString stringToActuatorType i.val := by decide +kernel
  exact this ⟨n, h⟩
theorem named_modality {n : Nat} (h : n < 14) : Named perceptionModalityToString stringToPerceptionModality n := by
  have : ∀ i : Fin 14, Named perceptionModalityToString stringToPerceptionModality i.val := by decide +kernel
  exact this ⟨n, h⟩
theorem named_bodyPart : ∀ n ∈ bodyParts, Named bodyPartTargetToString stringToBodyPartTarget n := by decide +kernel

theorem named_opt {names : List (Nat × Str)} {values : List (Str × Nat)} {o : Option Nat}
    (h : ∀ n ∈ o, Named names values n) :
    ∃ s, optAll (at? names) o = .ok s ∧ optAll (at? values) ((s.map Json.str).bind Json.asStr) = .ok o := by
  cases o with
  | none => exact ⟨none, rfl, rfl⟩
  | some n =>
    obtain ⟨s, h1, h2, h3⟩ := h n rfl
    refine ⟨some s, by simp [optAll, h1], ?_⟩
    simp [Json.asStr, h2, optAll, h3]

theorem named_list {names : List (Nat × Str)} {values : List (Str × Nat)} {l : List Nat}
    (h : ∀ n ∈ l, Named names values n) :
    ∃ s, mapAll (at? names) l = .ok s ∧ mapAll (at? values) ((s.map Json.str).filterMap Json.asStr) = .ok l := by
  induction l with
  | nil => exact ⟨[], rfl, rfl⟩
  | cons n l ih =>
    obtain ⟨s, h1, h2, h3⟩ := h n (by simp)
    obtain ⟨ss, h4, h5⟩ := ih (fun n hn => h n (by simp [hn]))
    refine ⟨s :: ss, by simp [mapAll, h1, h4], ?_⟩
    rw [List.map_cons, List.filterMap_cons]
    simp only [Json.asStr, h2, mapAll, h3]
    rw [h5]

/-! ### Lists -/

theorem collect_map {α β : Type} (f : Json → Except Err (Option β)) (g : α → Json) (h : α → β) (l : List α)
    (hl : ∀ a ∈ l, f (g a) = .ok (some (h a))) : collect f (l.map g) = .ok (l.map h) := by
  induction l with
  | nil => rfl
  | cons a l ih =>
    rw [List.map_cons, collect, hl a (by simp), ih (fun a ha => hl a (by simp [ha]))]
    rfl

theorem collect_mapAll {α β : Type} (f : Json → Except Err (Option β)) (g : α → Except Err Json) (h : α → β)
    (l : List α) (hl : ∀ a ∈ l, ∃ j, g a = .ok j ∧ f j = .ok (some (h a))) :
    ∃ js, mapAll g l = .ok js ∧ collect f js = .ok (l.map h) := by
  induction l with
  | nil => exact ⟨[], rfl, rfl⟩
  | cons a l ih =>
    obtain ⟨j, h1, h2⟩ := hl a (by simp)
    obtain ⟨js, h3, h4⟩ := ih (fun a ha => hl a (by simp [ha]))
    exact ⟨j :: js, by simp [mapAll, h1, h3], by simp [collect, h2, h4]⟩

/-! ### Components -/

theorem ok_bind {α β : Type} (a : α) (f : α → Except Err β) : (Except.ok a >>= f) = f a := rfl
theorem must_some {α : Type} (a : α) : must (some a) = .ok a := rfl
theorem pure_ok {α : Type} (a : α) : (pure a : Except Err α) = .ok a := rfl

theorem vector_roundtrip {v : Vector3} (h : VectorTyped v) : loadVector (extractVector v) = some v := by
  have hx := h.X; have hy := h.Y; have hz := h.Z
  unfold Int8 at hx hy hz
  have bm : ∀ i : Int, -128 ≤ i ∧ i < 128 → i.bmod 256 = i := by intro i hi; simp only [Int.bmod]; split <;> omega
  unfold loadVector extractVector
  simp only [Json.int?, get?_cons, get?_nil, String.reduceEq, if_true, if_false, Option.or_some, Option.bind_some,
    asInt_num (show Int32 v.X by unfold Int32; omega), asInt_num (show Int32 v.Y by unfold Int32; omega),
    asInt_num (show Int32 v.Z by unfold Int32; omega), Option.or_none, Option.some_or, Option.getD]
  rw [bm _ hx, bm _ hy, bm _ hz]

theorem keyframe_roundtrip {k : Keyframe} (h : KeyframeTyped k) :
    loadKeyframe (extractKeyframe k) = .ok (some k) := by
  unfold loadKeyframe extractKeyframe
  simp only [isObject_mk, Json.int?, Json.float?, get?_cons, get?_nil, String.reduceEq, if_true, if_false,
    Option.or_none, bind_asInt h.position, bind_asFloat h.amplitude, bind_asInt h.frequency]

theorem sync_roundtrip {s : Sync} (h : Int32 s.timestamp ∧ ∀ t ∈ s.timescale, Uint32 t) :
    loadSync (extractSync s) = .ok (some (keptSync s)) := by
  unfold loadSync extractSync keptSync
  simp only [Json.int?, Json.uint?, get?_cons, get?_nil, String.reduceEq, if_true, if_false,
    Option.or_none, Option.some_or, Option.bind_some, asInt_num h.1, bind_asUint h.2]

theorem avatar_roundtrip {a : Avatar} (h : AvatarTyped a) :
    ∃ j, extractAvatar a = .ok j ∧ loadAvatar j = .ok (some (keptAvatar a)) := by
  obtain ⟨s, h1, h2, h3⟩ := named_avatarType h.type
  refine ⟨_, by unfold extractAvatar; rw [h1]; rfl, ?_⟩
  unfold loadAvatar keptAvatar
  simp only [Json.int?, Json.str?, get?_cons, get?_nil, String.reduceEq, if_true, if_false,
    Option.or_none, Option.some_or, Option.bind_some, asInt_num h.id, asInt_num h.lod, Json.asStr, h2, h3]
  split
  · rw [bind_asStr]; rfl
  · rfl

theorem device_roundtrip {d : ReferenceDevice} (h : DeviceTyped d) :
    ∃ j, extractDevice d = .ok j ∧ loadDevice j = .ok (some (keptDevice d)) := by
  obtain ⟨s, h1, h2⟩ := named_opt (fun n hn => named_actuatorType (h.type n hn))
  refine ⟨_, by unfold extractDevice; rw [h1]; rfl, ?_⟩
  unfold loadDevice keptDevice
  simp only [Json.int?, Json.uint?, Json.float?, Json.str?, get?_cons, get?_nil, String.reduceEq, if_true, if_false,
    Option.or_none, Option.some_or, Option.bind_some, asInt_num h.id, asStr_textValue, h2, bind_asUint h.bodyPartMask,
    bind_asFloat h.maximumFrequency, bind_asFloat h.minimumFrequency, bind_asFloat h.resonanceFrequency,
    bind_asFloat h.maximumAmplitude, bind_asFloat h.impedance, bind_asFloat h.maximumVoltage,
    bind_asFloat h.maximumCurrent, bind_asFloat h.maximumDisplacement, bind_asFloat h.weight, bind_asFloat h.size,
    bind_asFloat h.custom]
  rfl

theorem keyframes_roundtrip {l : List Keyframe} (h : ∀ k ∈ l, KeyframeTyped k) :
    collect loadKeyframe (l.map extractKeyframe) = .ok l := by
  rw [collect_map loadKeyframe extractKeyframe id l (fun k hk => keyframe_roundtrip (h k hk)), List.map_id]

theorem library_roundtrip {f : Effect} (h : EffectTyped f) :
    ∃ j, extractLibraryEffect f = .ok j ∧ loadLibraryEffect j = .ok (some (keptLibraryEffect f)) := by
  obtain ⟨s, h1, h2, h3⟩ := named_effectType h.effectType
  obtain ⟨t, h4, h5⟩ := named_opt (fun n hn => named_baseSignal (h.baseSignal n hn))
  refine ⟨_, by unfold extractLibraryEffect; rw [h1, h4]; rfl, ?_⟩
  unfold loadLibraryEffect keptLibraryEffect
  simp only [Json.int?, Json.float?, Json.str?, get?_cons, get?_nil, String.reduceEq, if_true, if_false,
    Option.or_none, Option.some_or, Option.bind_some, asInt_num h.id, asInt_num h.position, Json.asStr, h2, h3, must,
    bind_asFloat h.phase, Option.isNone_some, Json.asArr]
  have h6 := bind_semantic h.semantic
  simp only [h5, h6]
  simp only [ok_bind, pure_ok, Bool.false_eq_true, and_false, or_false, if_false, keyframes_roundtrip h.keyframes]

theorem payload_noZero {s text : List UInt8} (h : writePayload s = .ok text) : cstr text = text := by
  apply cstr_of_noZero
  intro h0
  exact absurd (c25_alphabet s text h 0 h0) (by decide +kernel)

theorem effect_roundtrip {n : Nat} (hn : n < 4) {f : Effect} (h : EffectTyped f) :
    ∃ j, extractEffect n f = .ok j ∧ loadEffect n j = .ok (some (keptEffect n f)) := by
  obtain ⟨s, h1, h2, h3⟩ := named_effectType h.effectType
  obtain ⟨t, h4, h5⟩ := named_opt (fun n hn => named_baseSignal (h.baseSignal n hn))
  obtain ⟨w, h7, h8⟩ := c25_roundtrip f.waveletBitstream h.payload
  have h6 := bind_semantic h.semantic
  have h9 := keyframes_roundtrip h.keyframes
  have hty : f.effectType = 0 ∨ f.effectType = 1 ∨ f.effectType = 2 := by have := h.effectType; omega
  have hnil : optAll (at? stringToBaseSignal) none = .ok none := rfl
  have hmap : (Except.ok w : Except Err _).map some = .ok (some w) := rfl
  have hz : textValue w = .str w := congrArg Json.str (payload_noZero h7)
  rcases hty with hty | hty | hty
  · rw [hty] at h1 h3
    have hb : n = 0 ∨ n = 1 ∨ n = 2 ∨ n = 3 := by omega
    rcases hb with rfl | rfl | rfl | rfl
    all_goals
      refine ⟨_, by unfold extractEffect; simp [h1, h4, hty, h7, ok_bind, pure_ok, hmap]; rfl, ?_⟩
      generalize f.semantic.map (fun s => textValue (semanticBytes s)) = js at h6 ⊢
      unfold loadEffect keptEffect
      simp [Json.int?, Json.float?, Json.str?, Json.arr?, get?_cons, get?_nil, asInt_num h.position, Json.asStr, h2,
        h3, must, bind_asFloat h.phase, Json.asArr, h5, h6, h9, hty, ok_bind, pure_ok, hnil, hz, h8, -Option.map_bind]
  · rw [hty] at h1 h3
    refine ⟨_, by unfold extractEffect; simp [h1, hty, ok_bind, pure_ok]; rfl, ?_⟩
    generalize f.semantic.map (fun s => textValue (semanticBytes s)) = js at h6 ⊢
    unfold loadEffect keptEffect
    simp [Json.int?, Json.float?, Json.str?, Json.arr?, get?_cons, get?_nil, asInt_num h.position, asInt_num h.id,
      Json.asStr, h2, h3, must, h6, hty, ok_bind, pure_ok, hnil, -Option.map_bind]
  · rw [hty] at h1 h3
    refine ⟨_, by unfold extractEffect; simp [h1, hty, ok_bind, pure_ok]; rfl, ?_⟩
    generalize f.semantic.map (fun s => textValue (semanticBytes s)) = js at h6 ⊢
    unfold loadEffect keptEffect
    simp [Json.int?, Json.float?, Json.str?, Json.arr?, get?_cons, get?_nil, asInt_num h.position,
      Json.asStr, h2, h3, must, h6, hty, ok_bind, pure_ok, hnil, -Option.map_bind]

theorem keptEffect_position (n : Nat) (f : Effect) : (keptEffect n f).position = f.position := by
  unfold keptEffect
  simp only
  repeat' split
  all_goals rfl

theorem insert_last (new : Effect) (l : List Effect) (h : ∀ f ∈ l, f.position ≤ new.position) :
    insertEffect new l = l ++ [new] := by
  induction l with
  | nil => rfl
  | cons e l ih =>
    have h1 := h e (by simp)
    rw [insertEffect, if_neg (by omega), ih (fun x hx => h x (by simp [hx]))]
    rfl

theorem addEffects (l : List Effect) : ∀ b : Band,
    (b.effects ++ l).Pairwise (fun f g => f.position ≤ g.position) →
    l.foldl Band.addEffect b = { b with effects := b.effects ++ l } := by
  induction l with
  | nil => intro b _; cases b; simp
  | cons e l ih =>
    intro b hb
    have h1 : b.addEffect e = { b with effects := b.effects ++ [e] } := by
      unfold Band.addEffect
      congr 1
      apply insert_last
      intro x hx
      exact (List.pairwise_append.mp hb).2.2 x hx e (by simp)
    rw [List.foldl_cons, h1, ih]
    · simp
    · simpa using hb

theorem band_roundtrip {b : Band} (h : BandTyped b) :
    ∃ j, extractBand b = .ok j ∧ loadBand j = .ok (some (keptBand b)) := by
  obtain ⟨s, h1, h2, h3⟩ := named_bandType h.bandType
  obtain ⟨t, h4, h5⟩ := named_opt (fun n hn => named_curveType (h.curveType n hn))
  obtain ⟨js, h6, h7⟩ := collect_mapAll (loadEffect b.bandType) (extractEffect b.bandType) (keptEffect b.bandType)
    b.effects (fun f hf => effect_roundtrip h.bandType (h.effects f hf))
  have hord : (b.effects.map (keptEffect b.bandType)).Pairwise (fun f g => f.position ≤ g.position) := by
    rw [List.pairwise_map]
    simpa only [keptEffect_position] using h.ordered
  have hnil : optAll (at? stringToCurveType) none = .ok none := rfl
  have hbl : Int32 b.blockLengthOrDefault := by
    unfold Band.blockLengthOrDefault Int32
    cases hb : b.blockLength with
    | none => simp
    | some i => have := h.blockLength i hb; simp only [Option.getD_some]; omega
  have hw : b.bandType ≠ 3 → (s == lit "WaveletWave") = false := by
    intro hne
    rw [beq_eq_false_iff_ne]
    rintro rfl
    have hl : stringToBandType.lookup (lit "WaveletWave") = some 3 := by decide +kernel
    have : at? stringToBandType (lit "WaveletWave") = .ok 3 := by unfold at?; rw [hl]
    rw [this] at h3
    exact hne (Except.ok.inj h3).symm
  have hty : b.bandType = 1 ∨ b.bandType = 3 ∨ (b.bandType ≠ 1 ∧ b.bandType ≠ 3) := by omega
  rcases hty with hty | hty | hty
  · have hw' := hw (by omega)
    refine ⟨_, by unfold extractBand; rw [h1, h6]; simp only [hty, if_true, h4, ok_bind]; rfl, ?_⟩
    unfold loadBand keptBand
    simp only [Json.int?, Json.str?, Json.arr?, get?_cons, get?_nil, asInt_num h.lower, asInt_num h.upper, Json.asStr,
      h2, h3, Json.asArr, h5, ok_bind, pure_ok, isText, bind_asInt h.priority, hw', String.reduceEq, if_true,
      if_false, Option.or_none, Option.some_or, Option.bind_some, Bool.false_and, Bool.false_eq_true, h7]
    rw [addEffects _ _ (by simpa using hord)]
    simp [hty]
  · refine ⟨_, by unfold extractBand; rw [h1, h6]; simp only [hty, if_true, h4, ok_bind]; rfl, ?_⟩
    unfold loadBand keptBand
    simp only [Json.int?, Json.str?, Json.arr?, get?_cons, get?_nil, asInt_num h.lower, asInt_num h.upper, Json.asStr,
      h2, h3, Json.asArr, ok_bind, pure_ok, isText, bind_asInt h.priority, String.reduceEq, if_true, asInt_num hbl,
      if_false, Option.or_none, Option.some_or, Option.bind_some, Option.isNone_some, Bool.and_false,
      Bool.false_eq_true, h7, Option.map_none, Option.bind_none, hnil]
    rw [addEffects _ _ (by simpa using hord)]
    simp [hty, Band.blockLengthOrDefault]
  · have hw' := hw (by omega)
    refine ⟨_, by unfold extractBand; rw [h1, h6]; simp only [hty, if_true, h4, ok_bind]; rfl, ?_⟩
    unfold loadBand keptBand
    simp only [Json.int?, Json.str?, Json.arr?, get?_cons, get?_nil, asInt_num h.lower, asInt_num h.upper, Json.asStr,
      h2, h3, Json.asArr, ok_bind, pure_ok, isText, bind_asInt h.priority, String.reduceEq, if_true, hw',
      if_false, Option.or_none, Option.some_or, Option.bind_some, Bool.false_and,
      Bool.false_eq_true, h7, Option.map_none, Option.bind_none, hnil]
    rw [addEffects _ _ (by simpa using hord)]
    simp [hty]

theorem filterMap_vectors {l : List Vector3} (h : ∀ v ∈ l, VectorTyped v) :
    (l.map extractVector).filterMap loadVector = l := by
  induction l with
  | nil => rfl
  | cons v l ih =>
    rw [List.map_cons, List.filterMap_cons, vector_roundtrip (h v (by simp)), ih (fun v hv => h v (by simp [hv]))]

theorem filterMap_ints {l : List Int} (h : ∀ i ∈ l, Int32 i) : (l.map Json.num).filterMap Json.asInt = l := by
  induction l with
  | nil => rfl
  | cons v l ih =>
    rw [List.map_cons, List.filterMap_cons, asInt_num (h v (by simp)), ih (fun v hv => h v (by simp [hv]))]

theorem bind_vector {o : Option Vector3} (h : ∀ v ∈ o, VectorTyped v) : (o.map extractVector).bind loadVector = o := by
  cases o with
  | none => rfl
  | some i => exact vector_roundtrip (h i rfl)

theorem bind_vectors {o : Option (List Vector3)} (h : ∀ l ∈ o, ∀ v ∈ l, VectorTyped v) :
    ((o.map (fun l => Json.arr (l.map extractVector))).bind Json.asArr).map (·.filterMap loadVector) = o := by
  cases o with
  | none => rfl
  | some i => exact congrArg some (filterMap_vectors (h i rfl))

theorem vertices_roundtrip {l : List Int} (h : ∀ i ∈ l, Int32 i) :
    ((((if 0 < l.length then some (Json.arr (l.map .num)) else none).bind Json.asArr).getD []).filterMap Json.asInt)
      = l := by
  cases l with
  | nil => rfl
  | cons a l => exact filterMap_ints h

theorem bodyParts_roundtrip {o : Option (List Nat)} (h : ∀ l ∈ o, ∀ n ∈ l, n ∈ bodyParts) :
    ∃ t, optAll (mapAll (at? bodyPartTargetToString)) o = .ok t ∧
      optAll (fun l => mapAll (at? stringToBodyPartTarget) (l.filterMap Json.asStr))
        ((t.map (fun l => Json.arr (l.map .str))).bind Json.asArr) = .ok o := by
  cases o with
  | none => exact ⟨none, rfl, rfl⟩
  | some l =>
    obtain ⟨s, h1, h2⟩ := named_list (fun n hn => named_bodyPart n (h l rfl n hn))
    exact ⟨some s, by simp [optAll, h1], by simp only [Option.map_some, Option.bind_some, Json.asArr, optAll, h2]⟩

theorem channel_roundtrip {c : Channel} (h : ChannelTyped c) :
    ∃ j, extractChannel c = .ok j ∧ loadChannel j = .ok (some (keptChannel c)) := by
  obtain ⟨t, h1, h2⟩ := bodyParts_roundtrip h.bodyPartTarget
  obtain ⟨js, h3, h4⟩ := collect_mapAll loadBand extractBand keptBand c.bands (fun b hb => band_roundtrip (h.bands b hb))
  refine ⟨_, by unfold extractChannel; rw [h1, h3]; rfl, ?_⟩
  generalize hj : mk _ = j
  have k1 : j.int? "id" = some c.id := by
    subst hj; simp [Json.int?, get?_cons, get?_nil, asInt_num h.id]
  have k2 : j.str? "description" = some (keptText c.description) := by
    subst hj; simp [Json.str?, get?_cons, get?_nil, asStr_textValue]
  have k3 : j.float? "gain" = some c.gain := by
    subst hj; simp [Json.float?, get?_cons, get?_nil, asFloat_dbl h.gain]
  have k4 : j.float? "mixing_coefficient" = some c.mixingWeight := by
    subst hj; simp [Json.float?, get?_cons, get?_nil, asFloat_dbl h.mixingWeight]
  obtain ⟨q, k5⟩ : ∃ q, j.float? "body_part_mask" = some q := by
    subst hj; simp [Json.float?, get?_cons, get?_nil, Json.asFloat]
  have k6 : j.uint? "body_part_mask" = some c.bodyPartMask := by
    refine uint?_eq ?_ (asUint_num h.bodyPartMask)
    subst hj; simp only [get?_cons, get?_nil, String.reduceEq, if_true, if_false, Option.some_or]
  have k7 : j.arr? "bands" = some js := by
    subst hj; simp [Json.arr?, get?_cons, get?_nil, Json.asArr]
  have k8 : j.int? "priority" = c.priority := by
    subst hj; simp only [Json.int?, get?_cons, get?_nil, String.reduceEq, if_true, if_false, Option.or_none,
      bind_asInt h.priority]
  have k9 : j.int? "reference_device_id" = c.referenceDeviceId := by
    subst hj; simp only [Json.int?, get?_cons, get?_nil, String.reduceEq, if_true, if_false, Option.or_none,
      bind_asInt h.referenceDeviceId]
  have k10 : j.uint? "frequency_sampling" = c.frequencySampling := by
    subst hj; simp only [Json.uint?, get?_cons, get?_nil, String.reduceEq, if_true, if_false, Option.or_none,
      bind_asUint h.frequencySampling]
  have k11 : j.uint? "sample_count" = c.sampleCount := by
    subst hj; simp only [Json.uint?, get?_cons, get?_nil, String.reduceEq, if_true, if_false, Option.or_none,
      bind_asUint h.sampleCount]
  have k12 : (j.get? "direction").bind loadVector = c.direction := by
    subst hj; simp only [get?_cons, get?_nil, String.reduceEq, if_true, if_false, Option.or_none,
      bind_vector h.direction]
  have k13 : (j.get? "actuator_resolution").bind loadVector = c.actuatorResolution := by
    subst hj; simp only [get?_cons, get?_nil, String.reduceEq, if_true, if_false, Option.or_none,
      bind_vector h.actuatorResolution]
  have k14 : optAll (fun l => mapAll (at? stringToBodyPartTarget) (l.filterMap Json.asStr))
      (j.arr? "body_part_target") = .ok c.bodyPartTarget := by
    subst hj; simp only [Json.arr?, get?_cons, get?_nil, String.reduceEq, if_true, if_false, Option.or_none, h2]
  have k15 : (j.arr? "actuator_target").map (·.filterMap loadVector) = c.actuatorTarget := by
    subst hj; simp only [Json.arr?, get?_cons, get?_nil, String.reduceEq, if_true, if_false, Option.or_none,
      bind_vectors h.actuatorTarget]
  have k16 : ((j.arr? "vertices").getD []).filterMap Json.asInt = c.vertices := by
    subst hj; simp only [Json.arr?, get?_cons, get?_nil, String.reduceEq, if_true, if_false, Option.or_none,
      vertices_roundtrip h.vertices]
  unfold loadChannel keptChannel
  simp only [k1, k2, k3, k4, k5, k6, k7, k8, k9, k10, k11, k12, k13, k14, k15, k16, h4, must_some, ok_bind, pure_ok]

theorem perception_roundtrip {p : Perception} (h : PerceptionTyped p) :
    ∃ j, extractPerception p = .ok j ∧ loadPerception j = .ok (some (keptPerception p)) := by
  obtain ⟨s, h1, h2, h3⟩ := named_modality h.modality
  obtain ⟨ds, h4, h5⟩ := collect_mapAll loadDevice extractDevice keptDevice p.referenceDevices
    (fun d hd => device_roundtrip (h.devices d hd))
  obtain ⟨ls, h6, h7⟩ := collect_mapAll loadLibraryEffect extractLibraryEffect keptLibraryEffect p.effectLibrary
    (fun f hf => library_roundtrip (h.library f hf))
  obtain ⟨cs, h8, h9⟩ := collect_mapAll loadChannel extractChannel keptChannel p.channels
    (fun c hc => channel_roundtrip (h.channels c hc))
  refine ⟨_, by unfold extractPerception; rw [h1, h4, h6, h8]; rfl, ?_⟩
  have hs : Json.asStr (.str s) = some s := congrArg some h2
  unfold loadPerception keptPerception
  simp only [Json.int?, Json.str?, Json.arr?, get?_cons, get?_nil, String.reduceEq, if_true,
    if_false, Option.or_none, Option.some_or, Option.bind_some, asInt_num h.id, asInt_num h.avatarId, asStr_textValue,
    Json.asArr, hs, h3, h5, h7, h9, ok_bind, pure_ok, Option.getD_some,
    bind_asInt h.priority, bind_asInt h.unitExponent, bind_asInt h.perceptionUnitExponent, bind_asStr]

theorem version_noZero {s : Str} (h : IsVersion s) : NoZero s := by
  obtain ⟨a, b, c, d, ha, hb, hc, hd, -, h⟩ := h
  have hdig : ∀ x, IsDigit x → (0 : UInt8) ≠ x := by rintro x ⟨hx, -⟩ rfl; exact absurd hx (by decide)
  unfold NoZero
  rcases h with rfl | ⟨y, hy, -, rfl⟩
  · simp [hdig a ha, hdig b hb, hdig c hc, hdig d hd]
  · simp [hdig a ha, hdig b hb, hdig c hc, hdig d hd, hdig y hy]

theorem version_written (e : Experience) : Json.asStr (if versionCheck e.version then textValue e.version
    else .str (lit "2023")) = some (by classical exact if IsVersion e.version then e.version else text "2023") := by
  by_cases h : IsVersion e.version
  · rw [if_pos ((c69_version _).mpr h), asStr_textValue, keptText_of_noZero (version_noZero h), if_pos h]
  · rw [if_neg (fun hc => h ((c69_version _).mp hc)), if_neg h]
    have : cstr (lit "2023") = text "2023" := by decide +kernel
    exact congrArg some this

theorem date_written (now : Str) (e : Experience) : Json.asStr (if dateCheck e.date then textValue e.date
    else textValue now) = some (keptText (by classical exact if HasFourDigits e.date then e.date else now)) := by
  by_cases h : HasFourDigits e.date
  · rw [if_pos ((date_iff _).mpr h), asStr_textValue, if_pos h]
  · rw [if_neg (fun hc => h ((date_iff _).mp hc)), if_neg h, asStr_textValue]

theorem load_written (schema : Json → Bool) (now : Str) (e : Experience) (h : Typed e) :
    ∃ j, writeTree now e = .ok j ∧ (schema j = true → loadTree schema j =
      if e.timescale.isSome ∧ checkExperience (kept now e) then .ok (kept now e) else .error .fail) := by
  obtain ⟨as, h1, h2⟩ := collect_mapAll loadAvatar extractAvatar keptAvatar e.avatars
    (fun d hd => avatar_roundtrip (h.avatars d hd))
  obtain ⟨ps, h3, h4⟩ := collect_mapAll loadPerception extractPerception keptPerception e.perceptions
    (fun d hd => perception_roundtrip (h.perceptions d hd))
  have h5 := collect_map loadSync extractSync keptSync e.syncs (fun s hs => sync_roundtrip (h.syncs s hs))
  have hlev : Json.asUint (.num e.level) = some e.level :=
    asUint_num (by have := h.level; unfold Uint32; omega)
  refine ⟨_, by unfold writeTree; rw [h1, h3]; rfl, fun hs => ?_⟩
  generalize hj : mk _ = j at hs ⊢
  have k1 : j.str? "version" = some (kept now e).version := by
    subst hj; simp only [Json.str?, get?_cons, get?_nil, String.reduceEq, if_true, if_false, Option.some_or,
      Option.bind_some, version_written]; rfl
  have k2 : j.str? "profile" = some (kept now e).profile := by
    subst hj; simp only [Json.str?, get?_cons, get?_nil, String.reduceEq, if_true, if_false, Option.some_or,
      Option.bind_some, asStr_textValue]; rfl
  have k3 : j.uint? "level" = some (kept now e).level := by
    refine uint?_eq ?_ hlev
    subst hj; simp only [get?_cons, get?_nil, String.reduceEq, if_true, if_false, Option.some_or]
  have k4 : j.str? "date" = some (kept now e).date := by
    subst hj; simp only [Json.str?, get?_cons, get?_nil, String.reduceEq, if_true, if_false, Option.some_or,
      Option.bind_some, date_written]; rfl
  have k5 : j.str? "description" = some (kept now e).description := by
    subst hj; simp only [Json.str?, get?_cons, get?_nil, String.reduceEq, if_true, if_false, Option.some_or,
      Option.bind_some, asStr_textValue]; rfl
  have k6 : j.uint? "timescale" = e.timescale := by
    subst hj; simp only [Json.uint?, get?_cons, get?_nil, String.reduceEq, if_true, if_false, Option.or_none,
      bind_asUint h.timescale]
  have k7 : j.arr? "avatars" = some as := by
    subst hj; simp [Json.arr?, get?_cons, get?_nil, Json.asArr]
  have k8 : j.arr? "perceptions" = some ps := by
    subst hj; simp [Json.arr?, get?_cons, get?_nil, Json.asArr]
  have k9 : j.arr? "syncs" = some (e.syncs.map extractSync) := by
    subst hj; simp [Json.arr?, get?_cons, get?_nil, Json.asArr]
  have k10 : (j.get? "timescale").isNone = e.timescale.isNone := by
    subst hj; simp [get?_cons, get?_nil]
  have hsome : ∀ key v, j.str? key = some v → (j.get? key).isNone = false := by
    intro key v hv
    unfold Json.str? at hv
    cases hk : j.get? key with
    | none => rw [hk] at hv; cases hv
    | some _ => rfl
  have hlevel : (j.get? "level").isNone = false := by
    subst hj; simp [get?_cons, get?_nil]
  have hobj : j.isObject = true := by subst hj; rfl
  clear hj
  unfold loadTree
  rw [hobj, hs]
  simp only [hsome _ _ k1, hsome _ _ k2, hlevel, hsome _ _ k4, hsome _ _ k5, k7, k8, k9, k10, Option.isNone_some,
    Bool.not_true, Bool.false_eq_true, if_false, false_or, or_false]
  cases ht : e.timescale with
  | none => simp
  | some t =>
    rw [if_neg (by simp)]
    unfold loadExperience
    simp only [k1, k2, k3, k4, k5, k6, k7, k8, k9, ht, must_some, ok_bind, pure_ok, Option.getD_some, h2, h4, h5]
    have hk : kept now e = { version := (kept now e).version
                             profile := (kept now e).profile, level := (kept now e).level % 256
                             date := (kept now e).date
                             description := (kept now e).description
                             perceptions := e.perceptions.map keptPerception
                             avatars := e.avatars.map keptAvatar
                             timescale := some t, syncs := e.syncs.map keptSync } := by
      have hl : (kept now e).level % 256 = (kept now e).level := Nat.mod_eq_of_lt h.level
      have htt : (kept now e).timescale = some t := ht
      rw [hl, ← htt]
      rfl
    rw [← hk]
    simp

end Haptics.Json
