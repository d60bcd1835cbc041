import Verif.Tools.SpecOhm
import Mathlib.Tactic.IntervalCases
import Mathlib.Tactic.Tauto

/-! C38: OHM files. -/

namespace Haptics.Ohm
open Haptics

/-! ### Fields -/

theorem grab_append {n : Nat} {a s : List UInt8} (h : a.length = n) : grab n (a ++ s) = (a, s) := by
  unfold grab
  subst h
  simp

theorem fillString_length (s : Str) (n : Nat) : (fillString s n).length = n := by
  unfold fillString
  simp only
  split
  · simp; omega
  · simp

theorem fillString_eq (s : Str) (n : Nat) : fillString s n = s.take n ++ List.replicate (n - (s.take n).length) 0 := by
  unfold fillString
  simp only
  split
  · rename_i h
    rw [List.take_of_length_le h]
  · rfl

theorem dropWhile_replicate (n : Nat) (l : List UInt8) :
    (List.replicate n 0 ++ l).dropWhile (· == 0) = l.dropWhile (· == 0) := by
  induction n with
  | zero => rfl
  | succ n ih =>
    rw [List.replicate_succ, List.cons_append, List.dropWhile_cons_of_pos (by decide)]
    exact ih

theorem trim_fill (s : Str) (n : Nat) : trim (fillString s n) = kept n s := by
  unfold trim kept List.rdropWhile
  rw [fillString_eq, List.reverse_append, List.reverse_replicate, dropWhile_replicate]

theorem readText_fill (n : Nat) (s : Str) (t : List UInt8) : readText n (fillString s n ++ t) = (kept n s, t) := by
  unfold readText
  rw [grab_append (fillString_length s n), trim_fill]

theorem kept_fits {n : Nat} {s : Str} (h : Fits n s) : kept n s = s := by
  unfold kept
  rw [List.take_of_length_le h.1, List.rdropWhile_eq_self_iff]
  intro hl hz
  refine h.2 ?_
  rw [List.getLast?_eq_some_getLast hl]
  simpa using hz

theorem readShort_bytes {v : Int} (h : -32768 ≤ v ∧ v < 32768) (t : List UInt8) :
    readShort (shortBytes v ++ t) = (v, t) := by
  unfold readShort
  rw [grab_append (by rfl)]
  have h1 : ((v % 65536).toNat / 256) < 256 := by omega
  have h2 : ((v % 65536).toNat % 256) < 256 := by omega
  have e0 : (byte (shortBytes v) 0).toNat = (v % 65536).toNat / 256 := by
    simp only [byte, shortBytes, List.getD_cons_zero, UInt8.toNat_ofNat']
    omega
  have e1 : (byte (shortBytes v) 1).toNat = (v % 65536).toNat % 256 := by
    simp only [byte, shortBytes, List.getD_cons_succ, List.getD_cons_zero, UInt8.toNat_ofNat']
    omega
  simp only [e0, e1]
  refine Prod.ext ?_ rfl
  simp only
  split <;> omega

theorem toShort_id {n : Nat} (h : n < 32768) : toShort n = n := by unfold toShort; omega

theorem gain_bytes (g : BitVec 32) (t : List UInt8) :
    readGain ([byteAt g 0, byteAt g 1, byteAt g 2, byteAt g 3] ++ t) = (g, t) := by
  unfold readGain
  rw [grab_append (by rfl)]
  refine Prod.ext ?_ rfl
  simp only [byte, List.getD_cons_zero, List.getD_cons_succ, byteAt]
  ext i hi
  simp only [← BitVec.getLsbD_eq_getElem]
  simp only [BitVec.getLsbD_or, BitVec.getLsbD_shiftLeft, BitVec.getLsbD_setWidth, BitVec.getLsbD_extractLsb']
  clear t
  interval_cases i <;> simp

/-- The mask that is loaded. -/
def loaded (m : BitVec 32) : BitVec 32 :=
  (readMask [byteAt m 3, byteAt m 2, byteAt m 1, byteAt m 0]).1

theorem mask_bytes (m : BitVec 32) (t : List UInt8) :
    readMask ([byteAt m 3, byteAt m 2, byteAt m 1, byteAt m 0] ++ t) = (loaded m, t) := by
  unfold loaded readMask
  rw [grab_append (by rfl)]
  rfl

theorem loaded_bit (m : BitVec 32) (j : Nat) (hj : j < 32) :
    (loaded m).getLsbD j = true ↔ m.getLsbD j = true ∨ ∃ i ∈ [7, 15, 23], i < j ∧ m.getLsbD i = true := by
  unfold loaded readMask grab
  simp only [byte, byteAt, List.take, List.length_cons, List.length_nil, Nat.sub_self, List.replicate_zero,
    List.append_nil, List.getD_cons_zero, List.getD_cons_succ]
  simp only [BitVec.getLsbD_or, BitVec.getLsbD_shiftLeft, BitVec.getLsbD_signExtend, BitVec.getLsbD_extractLsb',
    BitVec.msb_eq_getLsbD_last]
  interval_cases j <;> simp <;> tauto

/-! ### Files -/

/-- What is loaded of a channel, of an element and of a file. -/
def loadedChannel (c : ChannelInfo) : ChannelInfo := ⟨kept 32 c.description, c.gain, loaded c.mask⟩
def loadedElement (e : ElementInfo) : ElementInfo :=
  ⟨kept 64 e.filename, kept 32 e.description, e.numChannels, e.channels.map loadedChannel⟩
def loadedData (d : Data) : Data :=
  ⟨ohmHeader, d.version, kept 32 d.description, d.elements.map loadedElement⟩

theorem readChannel_write (c : ChannelInfo) (t : List UInt8) : readChannel (writeChannel c ++ t) = (loadedChannel c, t) := by
  unfold readChannel writeChannel
  simp only [List.append_assoc]
  rw [readText_fill]
  simp only
  rw [gain_bytes]
  simp only
  rw [mask_bytes]
  rfl

theorem readMany_write {α : Type} {f : List UInt8 → α × List UInt8} {w : α → List UInt8} {g : α → α}
    (l : List α) (h : ∀ x ∈ l, ∀ t, f (w x ++ t) = (g x, t)) (t : List UInt8) :
    readMany f l.length (l.flatMap w ++ t) = (l.map g, t) := by
  induction l with
  | nil => rfl
  | cons x l ih =>
    have hx : f ((x :: l).flatMap w ++ t) = (g x, l.flatMap w ++ t) := by
      rw [List.flatMap_cons, List.append_assoc]
      exact h x List.mem_cons_self _
    rw [List.length_cons, readMany, hx, ih (fun y hy => h y (List.mem_cons_of_mem _ hy))]
    rfl

theorem readElement_write (e : ElementInfo) (he : e.numChannels = e.channels.length ∧ e.channels.length < 32768)
    (t : List UInt8) : readElement (writeElement e ++ t) = (loadedElement e, t) := by
  unfold readElement writeElement
  simp only [List.append_assoc]
  rw [readText_fill]
  simp only
  rw [readText_fill]
  simp only
  rw [readShort_bytes (by omega)]
  simp only
  rw [show e.numChannels.toNat = e.channels.length by omega,
    readMany_write e.channels (fun c _ t => readChannel_write c t)]
  rfl

/-- **C38.** What is loaded of a file that was written: all elements and all their channels, with all gains; of each
text what its field holds; and the masks with some more bits set (`c38_mask_bits`).  They are added to the elements
that were there. -/
theorem c38_file (d : Data) (h : Writable d) (old : Data) :
    ∃ bytes, write d = .ok bytes ∧
      load bytes old = (true, { loadedData d with elements := old.elements ++ d.elements.map loadedElement }) := by
  unfold write
  rw [if_neg (by rw [h.header]; decide)]
  refine ⟨_, rfl, ?_⟩
  have hh : (d.header ++ [0]).take 4 = ohmHeader := by rw [h.header]; rfl
  rw [hh]
  unfold load
  rw [if_neg (by simp [ohmHeader])]
  simp only [List.append_assoc]
  rw [grab_append (by rfl)]
  simp only
  rw [if_neg (by simp), readShort_bytes h.version]
  simp only
  rw [readShort_bytes (by rw [toShort_id h.elements]; have := h.elements; omega)]
  simp only
  rw [readText_fill, toShort_id h.elements, Int.toNat_natCast]
  have := readMany_write d.elements (fun e he t => readElement_write e (h.channels e he) t) []
  rw [List.append_nil] at this
  simp only [this]
  rfl

/-- **C38.** Bit `j` of the mask that is loaded is set when it was, or when one of the bits 7, 15 and 23 below it
was. -/
theorem c38_mask_bits (m : BitVec 32) (j : Nat) (hj : j < 32) :
    (loaded m).getLsbD j = true ↔ m.getLsbD j = true ∨ ∃ i ∈ [7, 15, 23], i < j ∧ m.getLsbD i = true :=
  loaded_bit m j hj

theorem loaded_iff (m : BitVec 32) : loaded m = m ↔ Plain m := by
  constructor
  · intro h i hi hm j h1 h2
    rw [← h]
    exact (loaded_bit m j h2).mpr (Or.inr ⟨i, hi, h1, hm⟩)
  · intro h
    refine BitVec.eq_of_getLsbD_eq fun j hj => ?_
    rw [Bool.eq_iff_iff, loaded_bit m j hj]
    constructor
    · rintro (h1 | ⟨i, hi, h1, h2⟩)
      · exact h1
      · exact h i hi h2 j h1 hj
    · exact Or.inl

theorem map_self {α : Type} {l : List α} {f : α → α} (h : ∀ x ∈ l, f x = x) : l.map f = l :=
  (List.map_congr_left h).trans (List.map_id _)

/-- **C38.** A file with texts that fit and plain masks is loaded as it was written. -/
theorem c38_round_trip (d : Data) (h : Writable d) (hx : Exact d) :
    ∃ bytes, write d = .ok bytes ∧ load bytes {} = (true, d) := by
  obtain ⟨bytes, h1, h2⟩ := c38_file d h {}
  refine ⟨bytes, h1, h2.trans (congrArg (Prod.mk true) ?_)⟩
  have he : d.elements.map loadedElement = d.elements := by
    refine map_self fun e he => ?_
    unfold loadedElement
    rw [kept_fits (hx.elements e he).1, kept_fits (hx.elements e he).2, map_self fun c hc => ?_]
    unfold loadedChannel
    rw [kept_fits (hx.channels e he c hc).1, (loaded_iff _).mpr (hx.channels e he c hc).2]
  unfold loadedData
  rw [kept_fits hx.description, ← h.header]
  simp only [List.nil_append, he]

/-- A device with one channel at the head and one at the left foot. -/
def ohmSample : Data :=
  ⟨ohmHeader, 1, [1, 2], [⟨[3], [4, 5], 2, [⟨[6], 0x3f800000#32, 0x0000000F#32⟩, ⟨[], 0, 0xA8000000#32⟩]⟩,
    ⟨[7], [], 0, []⟩]⟩

example : Writable ohmSample ∧ Exact ohmSample := by
  refine ⟨⟨rfl, by decide, by decide, by decide⟩, ⟨by unfold Fits; decide, by unfold Fits; decide, ?_⟩⟩
  unfold Fits
  decide

/-! ### What does not hold -/

/-- **C38, what does not hold.** Of the masks of a single body part, those of waist, left wrist and left thigh are not
loaded as they were written. -/
theorem c38_mask_negation : loaded 0x80#32 = 0xFFFFFF80#32 ∧ loaded 0x8000#32 = 0xFFFF8000#32 ∧
    loaded 0x800000#32 = 0xFF800000#32 ∧
    ∀ k < 32, (loaded (1#32 <<< k) = 1#32 <<< k ↔ k ≠ 7 ∧ k ≠ 15 ∧ k ≠ 23) := by decide +kernel

/-- **C38, what does not hold.** Every file that begins with "OHM " is accepted, however short it is; what is missing
is taken for zeros. -/
theorem c38_accepted (bytes : List UInt8) (old : Data) : (load bytes old).1 = true ↔ bytes.take 4 = ohmHeader := by
  unfold load
  by_cases h0 : bytes.isEmpty
  · rw [if_pos h0, List.isEmpty_iff.mp h0]
    simp [ohmHeader]
  · rw [if_neg h0]
    have hg : (grab 4 bytes).1 = ohmHeader ↔ bytes.take 4 = ohmHeader := by
      unfold grab
      simp only
      by_cases hl : 4 ≤ bytes.length
      · rw [show 4 - bytes.length = 0 by omega, List.replicate_zero, List.append_nil]
      · constructor
        · intro h
          have h3 := congrArg (fun l : List UInt8 => l.getLast?) h
          obtain ⟨n, hn⟩ : ∃ n, 4 - bytes.length = n + 1 := ⟨3 - bytes.length, by omega⟩
          rw [hn] at h3
          simp only [List.replicate_succ', ← List.append_assoc, List.getLast?_append, List.getLast?_singleton,
            Option.some_or] at h3
          exact absurd h3 (by decide)
        · intro h
          have := congrArg List.length h
          simp only [List.length_take, ohmHeader, List.length_cons, List.length_nil] at this
          omega
    by_cases h1 : (grab 4 bytes).1 = ohmHeader
    · simp only [h1, ne_eq, not_true_eq_false, if_false, true_iff]
      exact hg.mp h1
    · simp only [ne_eq, h1, not_false_eq_true, if_true]
      constructor
      · intro h; cases h
      · intro h; exact absurd (hg.mpr h) h1

/-- **C38, what does not hold.** Loading into an object that was loaded before keeps the elements it had. -/
theorem c38_reload_negation : ∃ bytes, load bytes {} = (true, ohmSample) ∧
    (load bytes ohmSample).2.elements = ohmSample.elements ++ ohmSample.elements := by
  have hw : Writable ohmSample := ⟨rfl, by decide, by decide, by decide⟩
  have hx : Exact ohmSample := by
    refine ⟨by unfold Fits; decide, by unfold Fits; decide, ?_⟩
    unfold Fits
    decide
  obtain ⟨b1, h1, h2⟩ := c38_file ohmSample hw ohmSample
  obtain ⟨b2, h3, h4⟩ := c38_round_trip ohmSample hw hx
  obtain rfl : b1 = b2 := Except.ok.inj (h1.symm.trans h3)
  refine ⟨b1, h4, ?_⟩
  rw [h2]
  decide +kernel

/-- **C38, what does not hold.** With 32768 elements or more, up to 65535, none is loaded. -/
theorem c38_count_negation (d : Data) (h : d.header = ohmHeader) (hv : -32768 ≤ d.version ∧ d.version < 32768)
    (h1 : 32768 ≤ d.elements.length) (h2 : d.elements.length < 65536) :
    ∃ bytes, write d = .ok bytes ∧ (load bytes {}).1 = true ∧ (load bytes {}).2.elements = [] := by
  unfold write
  rw [if_neg (by rw [h]; decide)]
  refine ⟨_, rfl, ?_⟩
  have hh : (d.header ++ [0]).take 4 = ohmHeader := by rw [h]; rfl
  rw [hh]
  unfold load
  rw [if_neg (by simp [ohmHeader])]
  simp only [List.append_assoc]
  rw [grab_append (by rfl)]
  simp only
  rw [if_neg (by simp), readShort_bytes hv]
  simp only
  have hs : toShort d.elements.length < 0 ∧ -32768 ≤ toShort d.elements.length := by unfold toShort; omega
  rw [readShort_bytes (by omega)]
  simp only
  rw [readText_fill, show (toShort d.elements.length).toNat = 0 by omega]
  exact ⟨trivial, rfl⟩

example : ∃ d : Data, d.header = ohmHeader ∧ (-32768 ≤ d.version ∧ d.version < 32768) ∧ 32768 ≤ d.elements.length ∧
    d.elements.length < 65536 :=
  ⟨⟨ohmHeader, 1, [], List.replicate 40000 {}⟩, rfl, by decide, (by rw [List.length_replicate]; omega : 32768 ≤ (List.replicate 40000 ({} : ElementInfo)).length),
    (by rw [List.length_replicate]; omega : (List.replicate 40000 ({} : ElementInfo)).length < 65536)⟩

/-- **C38, what does not hold.** Writing an object that was made without a header reads behind the end of a string. -/
theorem c38_default_unsafe : write {} = .error .ub := rfl

end Haptics.Ohm
