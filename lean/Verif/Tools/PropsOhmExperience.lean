import Verif.Tools.PropsOhm
import Mathlib.Data.Nat.Digits.Lemmas

/-! C79: OHM metadata and experiences. -/

namespace Haptics.Ohm
open Haptics

/-! ### Numbers as text -/

theorem foldl_digits (l : List Nat) (h : ∀ d ∈ l, d < 10) :
    digitsValue (l.reverse.map (fun d => UInt8.ofNat (48 + d))) = Nat.ofDigits 10 l := by
  unfold digitsValue
  rw [List.map_reverse, List.foldl_reverse]
  induction l with
  | nil => rfl
  | cons d l ih =>
    rw [List.map_cons, List.foldr_cons, ih (fun x hx => h x (List.mem_cons_of_mem _ hx)), Nat.ofDigits_cons]
    have := h d List.mem_cons_self
    rw [UInt8.toNat_ofNat']
    push_cast
    omega

theorem digit_byte {d : Nat} (h : d < 10) : isDigit (UInt8.ofNat (48 + d)) = true ∧ isSpace (UInt8.ofNat (48 + d)) = false ∧
    UInt8.ofNat (48 + d) ≠ 45 ∧ UInt8.ofNat (48 + d) ≠ 43 := by
  have : ∀ d : Fin 10, isDigit (UInt8.ofNat (48 + d.val)) = true ∧ isSpace (UInt8.ofNat (48 + d.val)) = false ∧
    UInt8.ofNat (48 + d.val) ≠ 45 ∧ UInt8.ofNat (48 + d.val) ≠ 43 := by decide
  exact this ⟨d, h⟩

theorem digitsOf_spec (n : Nat) : digitsValue (digitsOf n) = n ∧ digitsOf n ≠ [] ∧
    ∀ b ∈ digitsOf n, isDigit b = true ∧ isSpace b = false ∧ b ≠ 45 ∧ b ≠ 43 := by
  unfold digitsOf
  split
  · rename_i h
    subst h
    decide
  · rename_i h
    refine ⟨?_, ?_, ?_⟩
    · rw [foldl_digits _ (fun d hd => Nat.digits_lt_base (by norm_num) hd), Nat.ofDigits_digits]
    · simpa using Nat.digits_ne_nil_iff_ne_zero.mpr h
    · intro b hb
      obtain ⟨d, hd, rfl⟩ := List.mem_map.mp hb
      exact digit_byte (Nat.digits_lt_base (by norm_num) (List.mem_reverse.mp hd))

/-- A number that is written as text is read as that number. -/
theorem stoi_toText {z : Int} (h1 : -2 ^ 31 ≤ z) (h2 : z < 2 ^ 31) : stoi (toText z) = .ok z := by
  obtain ⟨e1, e2, e3⟩ := digitsOf_spec z.natAbs
  have ht : (digitsOf z.natAbs).takeWhile isDigit = digitsOf z.natAbs := by
    rw [List.takeWhile_eq_self_iff]
    exact fun b hb => (e3 b hb).1
  unfold toText stoi
  by_cases hz : z < 0
  · rw [if_pos hz]
    simp only [List.dropWhile_cons_of_neg (show ¬ isSpace 45 = true by decide), signOf, if_true]
    rw [ht, if_neg (by simpa using e2), e1]
    rw [show -((z.natAbs : Nat) : Int) = z by omega, if_pos ⟨h1, h2⟩]
  · rw [if_neg hz]
    cases hd : digitsOf z.natAbs with
    | nil => exact absurd hd e2
    | cons b t =>
      obtain ⟨f1, f2, f3, f4⟩ := e3 b (by rw [hd]; exact List.mem_cons_self)
      simp only [List.dropWhile_cons_of_neg (show ¬ isSpace b = true by rw [f2]; decide), signOf, if_neg f3, if_neg f4]
      rw [← hd, ht, if_neg (by simpa using e2), e1]
      simp only [Bool.false_eq_true, if_false]
      rw [show ((z.natAbs : Nat) : Int) = z by omega, if_pos ⟨h1, h2⟩]

/-! ### Channels and perceptions -/

/-- The perception of an element. -/
def perceptionFrom (value : BitVec 32 → ℚ) (i : Nat) (e : ElementInfo) : Perception :=
  { id := i, avatarId := 0, description := e.description, perceptionModality := convertToModality e.description,
    channels := e.channels.mapIdx (channelFrom value) }

theorem channelsOf_ok (value : BitVec 32 → ℚ) (l : List ChannelInfo) (n j : Nat) (h : j + n ≤ l.length) :
    ∃ r, channelsOf value l n j = .ok r ∧ r.length = n ∧
      ∀ k c, k < n → l[j + k]? = some c → r[k]? = some (channelFrom value (j + k) c) := by
  induction n generalizing j with
  | zero => exact ⟨[], rfl, rfl, fun k c hk => absurd hk (Nat.not_lt_zero k)⟩
  | succ n ih =>
    obtain ⟨r, h1, h2, h3⟩ := ih (j + 1) (by omega)
    obtain ⟨c, hc⟩ : ∃ c, l[j]? = some c := ⟨l[j], List.getElem?_eq_getElem (by omega)⟩
    refine ⟨channelFrom value j c :: r, ?_, by rw [List.length_cons, h2], ?_⟩
    · rw [channelsOf, hc]
      show (channelsOf value l n (j + 1)).bind _ = _
      rw [h1]
      rfl
    · intro k c' hk hc'
      cases k with
      | zero =>
        rw [Nat.add_zero, hc] at hc'
        rw [← Option.some.inj hc']
        rfl
      | succ k =>
        rw [List.getElem?_cons_succ]
        have := h3 k c' (by omega) (by rw [← hc']; congr 1; omega)
        rw [this, show j + 1 + k = j + (k + 1) by omega]

theorem channelsOf_all (value : BitVec 32 → ℚ) (l : List ChannelInfo) :
    channelsOf value l l.length 0 = .ok (l.mapIdx (channelFrom value)) := by
  obtain ⟨r, h1, h2, h3⟩ := channelsOf_ok value l l.length 0 (by omega)
  rw [h1]
  refine congrArg Except.ok (List.ext_getElem? fun k => ?_)
  rw [List.getElem?_mapIdx]
  by_cases hk : k < l.length
  · rw [h3 k l[k] hk (by rw [Nat.zero_add]; exact List.getElem?_eq_getElem hk), List.getElem?_eq_getElem hk, Nat.zero_add]
    rfl
  · rw [List.getElem?_eq_none (by omega), List.getElem?_eq_none (by omega)]
    rfl

theorem perceptionsOf_ok (value : BitVec 32 → ℚ) (l : List ElementInfo)
    (h : ∀ e ∈ l, e.numChannels.toNat = e.channels.length) (i : Nat) :
    perceptionsOf value l i = .ok (l.mapIdx (fun k e => perceptionFrom value (i + k) e)) := by
  induction l generalizing i with
  | nil => rfl
  | cons e l ih =>
    rw [perceptionsOf, h e List.mem_cons_self, channelsOf_all]
    show (perceptionsOf value l (i + 1)).bind _ = _
    rw [ih (fun x hx => h x (List.mem_cons_of_mem _ hx))]
    refine congrArg Except.ok ?_
    rw [List.mapIdx_cons]
    congr 1
    refine List.mapIdx_eq_mapIdx_iff.mpr fun k hk => ?_
    rw [show i + 1 + k = i + (k + 1) by omega]

theorem loadMetadata_ok (value : BitVec 32 → ℚ) (date : Str) (d : Data) (x : Experience)
    (h : ∀ e ∈ d.elements, e.numChannels.toNat = e.channels.length) :
    loadMetadata value date d x = .ok { x with
      version := toText d.version, date := date, description := d.description,
      perceptions := x.perceptions ++ d.elements.mapIdx (perceptionFrom value) } := by
  unfold loadMetadata
  rw [perceptionsOf_ok value d.elements h 0]
  simp only [Nat.zero_add]
  rfl

theorem readMany_length {α : Type} (f : List UInt8 → α × List UInt8) (n : Nat) (s : List UInt8) :
    (readMany f n s).1.length = n := by
  induction n generalizing s with
  | zero => rfl
  | succ n ih => rw [readMany, List.length_cons, ih]

theorem readMany_mem {α : Type} {f : List UInt8 → α × List UInt8} {n : Nat} {s : List UInt8} {x : α}
    (h : x ∈ (readMany f n s).1) : ∃ t, x = (f t).1 := by
  induction n generalizing s with
  | zero => cases h
  | succ n ih =>
    rw [readMany] at h
    rcases List.mem_cons.mp h with rfl | h
    · exact ⟨s, rfl⟩
    · exact ih h

/-- **C79.** Whatever file is loaded, its metadata becomes an experience: one perception for each element, with the
description of it, and one channel for each of its channels, with description, gain and mask. -/
theorem c79_loaded (value : BitVec 32 → ℚ) (date : Str) (bytes : List UInt8) (d : Data)
    (h : load bytes {} = (true, d)) : ∃ x, loadMetadata value date d {} = .ok x ∧ x.description = d.description ∧
      x.perceptions.length = d.elements.length ∧
      ∀ (i : Nat) (e : ElementInfo), d.elements[i]? = some e → ∃ p : Perception, x.perceptions[i]? = some p ∧ p.id = i ∧ p.description = e.description ∧
        p.channels.length = e.channels.length ∧
        ∀ (j : Nat) (c : ChannelInfo), e.channels[j]? = some c → ∃ k : Channel, p.channels[j]? = some k ∧ k.id = j ∧ k.description = c.description ∧
          k.gain = value c.gain ∧ k.bodyPartMask = c.mask.toNat := by
  have hd : ∀ e ∈ d.elements, e.numChannels.toNat = e.channels.length := by
    unfold load at h
    by_cases h0 : bytes.isEmpty
    · rw [if_pos h0] at h; cases h
    · rw [if_neg h0] at h
      by_cases h1 : (grab 4 bytes).1 = ohmHeader
      · simp only [h1, ne_eq, not_true_eq_false, if_false] at h
        have h := (Prod.mk.inj h).2
        rw [← h]
        intro e he
        rw [List.nil_append] at he
        obtain ⟨t, rfl⟩ := readMany_mem he
        unfold readElement
        simp only
        rw [readMany_length]
      · simp only [ne_eq, h1, not_false_eq_true, if_true] at h
        cases h
  refine ⟨_, loadMetadata_ok value date d {} hd, rfl, ?_, ?_⟩
  · simp
  · intro i e he
    refine ⟨perceptionFrom value i e, ?_, rfl, rfl, ?_, ?_⟩
    · simp [List.getElem?_mapIdx, he]
    · unfold perceptionFrom
      simp
    · intro j c hc
      refine ⟨channelFrom value j c, ?_, rfl, rfl, rfl, rfl⟩
      unfold perceptionFrom
      simp [List.getElem?_mapIdx, hc]

example : (load (ohmHeader ++ [0, 1, 0, 1, 65]) {}).1 = true := by decide +kernel

/-- **C79.** Metadata that is made an experience and then OHM metadata again is the same, except for the names of the
files, which are all the given one. -/
theorem c79_metadata (value : BitVec 32 → ℚ) (bits : ℚ → BitVec 32) (date filename : Str) (d : Data) (h : Writable d)
    (hb : ∀ e ∈ d.elements, ∀ c ∈ e.channels, bits (value c.gain) = c.gain) : ∃ x, loadMetadata value date d {} = .ok x ∧
      extractMetadata bits filename x = .ok { d with
        elements := d.elements.map (fun e => { e with filename := filename }) } := by
  refine ⟨_, loadMetadata_ok value date d {} (fun e he => by have := (h.channels e he).1; omega), ?_⟩
  unfold extractMetadata
  have hv : (toText d.version).isEmpty = false := by
    unfold toText
    split
    · rfl
    · have := (digitsOf_spec d.version.natAbs).2.1
      cases hd : digitsOf d.version.natAbs with
      | nil => exact absurd hd this
      | cons b t => rfl
  have h1 := h.version.1
  have h2 := h.version.2
  simp only [hv, Bool.false_eq_true, if_false]
  rw [stoi_toText (by omega) (by omega)]
  refine congrArg Except.ok ?_
  rw [show (d.version + 32768) % 65536 - 32768 = d.version by omega, ← h.header]
  congr 1
  simp only [List.nil_append]
  refine List.ext_getElem? fun i => ?_
  rw [List.getElem?_map, List.getElem?_mapIdx, List.getElem?_map]
  cases he : d.elements[i]? with
  | none => rfl
  | some e =>
    simp only [Option.map_some, Option.some.injEq]
    obtain ⟨h3, h4⟩ := h.channels e (List.mem_of_getElem? he)
    unfold elementOf perceptionFrom
    simp only [List.length_mapIdx]
    rw [toShort_id h4, ← h3]
    congr 1
    rw [h3, Int.toNat_natCast, List.take_of_length_le (by simp)]
    refine List.ext_getElem? fun j => ?_
    rw [List.getElem?_map, List.getElem?_mapIdx]
    cases hc : e.channels[j]? with
    | none => rfl
    | some c =>
      simp only [Option.map_some, Option.some.injEq, channelFrom]
      rw [hb e (List.mem_of_getElem? he) c (List.mem_of_getElem? hc), BitVec.ofNat_toNat, BitVec.setWidth_eq]

example : ohmSample.elements ≠ [] ∧ Writable ohmSample := ⟨by decide +kernel, by
  constructor <;> decide +kernel⟩

/-- **C79.** What comes back of an experience whose version begins with a number: the descriptions, and for each
channel description, gain and mask.  Identifiers are those of the order, modalities are guessed from the descriptions,
and everything else is gone. -/
theorem c79_experience (value : BitVec 32 → ℚ) (bits : ℚ → BitVec 32) (date filename : Str) (x : Experience) (v : Int)
    (hv : stoi x.version = .ok v) (hne : x.version ≠ [])
    (hx : ∀ p ∈ x.perceptions, p.channels.length < 32768 ∧
      ∀ c ∈ p.channels, value (bits c.gain) = c.gain ∧ c.bodyPartMask < 2 ^ 32) :
    ∃ d y, extractMetadata bits filename x = .ok d ∧ loadMetadata value date d {} = .ok y ∧
      y.description = x.description ∧
      y.perceptions = x.perceptions.mapIdx backPerception := by
  have hd : extractMetadata bits filename x = .ok ⟨ohmHeader, (v + 32768) % 65536 - 32768, x.description,
      x.perceptions.map (elementOf bits filename)⟩ := by
    unfold extractMetadata
    rw [if_neg (by simpa using hne), hv]
    rfl
  have hc : ∀ p ∈ x.perceptions, (elementOf bits filename p).channels = p.channels.map (fun c =>
      ⟨c.description, bits c.gain, BitVec.ofNat 32 c.bodyPartMask⟩) := by
    intro p hp
    unfold elementOf
    simp only
    rw [toShort_id (hx p hp).1, Int.toNat_natCast, List.take_of_length_le le_rfl]
  refine ⟨_, _, hd, loadMetadata_ok value date _ {} ?_, rfl, ?_⟩
  · intro e he
    obtain ⟨p, hp, rfl⟩ := List.mem_map.mp he
    rw [hc p hp]
    unfold elementOf
    simp only
    rw [toShort_id (hx p hp).1, Int.toNat_natCast, List.length_map]
  · simp only [List.nil_append]
    refine List.ext_getElem? fun i => ?_
    rw [List.getElem?_mapIdx, List.getElem?_map, List.getElem?_mapIdx]
    cases hp : x.perceptions[i]? with
    | none => rfl
    | some p =>
      have hpm := List.mem_of_getElem? hp
      simp only [Option.map_some, Option.some.injEq]
      unfold perceptionFrom backPerception
      rw [hc p hpm]
      simp only [elementOf]
      congr 1
      refine List.ext_getElem? fun j => ?_
      rw [List.getElem?_mapIdx, List.getElem?_map, List.getElem?_mapIdx]
      cases hcj : p.channels[j]? with
      | none => rfl
      | some c =>
        obtain ⟨g1, g2⟩ := (hx p hpm).2 c (List.mem_of_getElem? hcj)
        simp only [Option.map_some, Option.some.injEq, channelFrom, backChannel]
        rw [g1, BitVec.toNat_ofNat, Nat.mod_eq_of_lt g2]

example : let x : Experience := { version := Json.lit "2023", perceptions := [{ channels := [{ gain := 1, bodyPartMask := 7 }] }] }
    stoi x.version = .ok 2023 ∧ x.version ≠ [] ∧ ∀ p ∈ x.perceptions, p.channels.length < 32768 ∧
      ∀ c ∈ p.channels, c.bodyPartMask < 2 ^ 32 := by decide +kernel

/-- **C79, what does not hold.** The version of an experience is not any text: without a number at its begin it makes
the conversion throw, and what follows the number is lost. -/
theorem c79_version_negation (bits : ℚ → BitVec 32) (filename : Str) :
    extractMetadata bits filename { version := Json.lit "RM1" } = .error .throw ∧
    (extractMetadata bits filename { version := Json.lit "2023-AMD1" }).map (·.version) = .ok 2023 := by
  have h1 : stoi (Json.lit "RM1") = .error .throw := by decide +kernel
  have h2 : stoi (Json.lit "2023-AMD1") = .ok 2023 := by decide +kernel
  have h3 : (Json.lit "RM1").isEmpty = false := by decide +kernel
  have h4 : (Json.lit "2023-AMD1").isEmpty = false := by decide +kernel
  unfold extractMetadata
  simp only [h3, h4, Bool.false_eq_true, if_false]
  rw [h1, h2]
  exact ⟨rfl, rfl⟩

/-- **C79, what does not hold.** The modality of a perception does not come back, unless its description says it. -/
theorem c79_modality_negation : convertToModality (Json.lit "Vibration effect") = 6 ∧
    convertToModality (Json.lit "vibration") = 0 ∧ convertToModality [] = 0 ∧
    convertToModality (Json.lit "Electrotactile effect") = 0 := by decide +kernel

end Haptics.Ohm
