import Verif.Tools.SpecOhmCut
import Verif.Tools.PropsOhmExperience

/-! ## C119: an OHM file that was cut off -/

namespace Haptics.Ohm
open Haptics

/-- `grab` takes missing bytes for zeros. -/
theorem grab_zeros (n m : Nat) (s : List UInt8) :
    (grab n (s ++ List.replicate m 0)).1 = (grab n s).1 ∧ (grab n (s ++ List.replicate m 0)).2 = (grab n s).2 ++ List.replicate (m - (n - s.length)) 0 := by
  unfold grab
  simp only
  constructor
  · rw [List.take_append, List.take_replicate, List.append_assoc, List.replicate_append_replicate, List.length_append, List.length_replicate]
    congr 2
    omega
  · rw [List.drop_append, List.drop_replicate]

/-- A reader that does not tell the end of the file from zeros. -/
def Blind {α : Type} (f : List UInt8 → α × List UInt8) : Prop :=
  ∀ (s : List UInt8) (m : Nat), ∃ m', (f (s ++ List.replicate m 0)).1 = (f s).1 ∧ (f (s ++ List.replicate m 0)).2 = (f s).2 ++ List.replicate m' 0

theorem blind_text (n : Nat) : Blind (readText n) := by
  intro s m
  obtain ⟨h1, h2⟩ := grab_zeros n m s
  refine ⟨_, ?_, h2⟩
  unfold readText
  rw [h1]

theorem blind_short : Blind readShort := by
  intro s m
  obtain ⟨h1, h2⟩ := grab_zeros 2 m s
  refine ⟨_, ?_, h2⟩
  unfold readShort
  rw [h1]

theorem blind_gain : Blind readGain := by
  intro s m
  obtain ⟨h1, h2⟩ := grab_zeros 4 m s
  refine ⟨_, ?_, h2⟩
  unfold readGain
  rw [h1]

theorem blind_mask : Blind readMask := by
  intro s m
  obtain ⟨h1, h2⟩ := grab_zeros 4 m s
  refine ⟨_, ?_, h2⟩
  unfold readMask
  rw [h1]

theorem blind_channel : Blind readChannel := by
  intro s m
  obtain ⟨m1, a1, a2⟩ := blind_text descriptionByteSize s m
  obtain ⟨m2, b1, b2⟩ := blind_gain (readText descriptionByteSize s).2 m1
  obtain ⟨m3, c1, c2⟩ := blind_mask (readGain (readText descriptionByteSize s).2).2 m2
  refine ⟨m3, ?_, ?_⟩
  · unfold readChannel
    simp only
    rw [a1, a2, b1, b2, c1]
  · unfold readChannel
    simp only
    rw [a2, b2, c2]

theorem blind_many {α : Type} {f : List UInt8 → α × List UInt8} (hf : Blind f) (n : Nat) : Blind (readMany f n) := by
  induction n with
  | zero => intro s m; exact ⟨m, rfl, rfl⟩
  | succ n ih =>
    intro s m
    obtain ⟨m1, a1, a2⟩ := hf s m
    obtain ⟨m2, b1, b2⟩ := ih (f s).2 m1
    refine ⟨m2, ?_, ?_⟩
    · simp only [readMany]
      rw [a1, a2, b1]
    · simp only [readMany]
      rw [a2, b2]

theorem blind_element : Blind readElement := by
  intro s m
  obtain ⟨m1, a1, a2⟩ := blind_text fileNameByteSize s m
  obtain ⟨m2, b1, b2⟩ := blind_text descriptionByteSize (readText fileNameByteSize s).2 m1
  obtain ⟨m3, c1, c2⟩ := blind_short (readText descriptionByteSize (readText fileNameByteSize s).2).2 m2
  obtain ⟨m4, d1, d2⟩ := blind_many blind_channel (readShort (readText descriptionByteSize (readText fileNameByteSize s).2).2).1.toNat
    (readShort (readText descriptionByteSize (readText fileNameByteSize s).2).2).2 m3
  refine ⟨m4, ?_, ?_⟩
  · unfold readElement
    simp only
    rw [a1, a2, b1, b2, c1, c2, d1]
  · unfold readElement
    simp only
    rw [a2, b2, c1, c2, d2]

/-- **C119 (partial)** What is missing at the end of a file is taken for zeros. -/
theorem c119_zeros_partial (bytes : List UInt8) (hb : bytes ≠ []) (m : Nat) (old : Data) : load (bytes ++ List.replicate m 0) old = load bytes old := by
  unfold load
  rw [if_neg (by simp [hb]), if_neg (by simpa using hb)]
  obtain ⟨h1, h2⟩ := grab_zeros 4 m bytes
  simp only
  rw [h1, h2]
  generalize m - (4 - bytes.length) = m1
  split
  · rfl
  · obtain ⟨m2, a1, a2⟩ := blind_short (grab 4 bytes).2 m1
    rw [a1, a2]
    obtain ⟨m3, b1, b2⟩ := blind_short (readShort (grab 4 bytes).2).2 m2
    rw [b1, b2]
    obtain ⟨m4, c1, c2⟩ := blind_text descriptionByteSize (readShort (readShort (grab 4 bytes).2).2).2 m3
    rw [c1, c2]
    obtain ⟨m5, d1, -⟩ := blind_many blind_element (readShort (readShort (grab 4 bytes).2).2).1.toNat
      (readText descriptionByteSize (readShort (readShort (grab 4 bytes).2).2).2).2 m4
    rw [d1]

theorem writeElement_length (e : ElementInfo) : (writeElement e).length = elementSize e := by
  have hc : ∀ l : List ChannelInfo, (l.flatMap writeChannel).length = l.length * (32 + 4 + 4) := by
    intro l
    induction l with
    | nil => rfl
    | cons c l ih =>
      rw [List.flatMap_cons, List.length_append, ih, List.length_cons]
      unfold writeChannel
      simp only [List.length_append, fillString_length, List.length_cons, List.length_nil, descriptionByteSize]
      omega
  unfold writeElement elementSize shortBytes
  simp only [List.length_append, fillString_length, hc, List.length_cons, List.length_nil]

theorem writeElements_length (l : List ElementInfo) : (l.flatMap writeElement).length = (l.map elementSize).sum := by
  induction l with
  | nil => rfl
  | cons e l ih => rw [List.flatMap_cons, List.length_append, ih, writeElement_length, List.map_cons, List.sum_cons]

theorem readMany_add {α : Type} (f : List UInt8 → α × List UInt8) (a b : Nat) (s : List UInt8) :
    (readMany f (a + b) s).1 = (readMany f a s).1 ++ (readMany f b (readMany f a s).2).1 := by
  induction a generalizing s with
  | zero => simp [readMany]
  | succ a ih =>
    rw [show a + 1 + b = (a + b) + 1 by omega]
    simp only [readMany]
    rw [ih, List.cons_append]

/-- What is loaded of a file whose first elements are there, followed by anything. -/
theorem load_prefix (d : Data) (h : Writable d) (j : Nat) (hj : j ≤ d.elements.length) (rest : List UInt8) (old : Data) :
    load (ohmHeader ++ shortBytes d.version ++ shortBytes (toShort d.elements.length) ++ fillString d.description descriptionByteSize
      ++ (d.elements.take j).flatMap writeElement ++ rest) old
    = (true, ⟨ohmHeader, d.version, kept 32 d.description, old.elements ++ ((d.elements.take j).map loadedElement
        ++ (readMany readElement (d.elements.length - j) rest).1)⟩) := by
  unfold load
  rw [if_neg (by simp [ohmHeader])]
  simp only [List.append_assoc]
  rw [grab_append (by rfl)]
  simp only
  rw [if_neg (by simp), readShort_bytes h.version]
  simp only
  rw [readShort_bytes (by rw [toShort_id h.elements]; have := h.elements; omega)]
  simp only
  rw [readText_fill, toShort_id h.elements, Int.toNat_natCast]
  have hm := readMany_write (d.elements.take j) (fun e he t => readElement_write e (h.channels e (List.mem_of_mem_take he)) t) rest
  have hl : (d.elements.take j).length = j := by rw [List.length_take]; omega
  rw [hl] at hm
  have ha := readMany_add readElement j (d.elements.length - j) ((d.elements.take j).flatMap writeElement ++ rest)
  rw [hm, show j + (d.elements.length - j) = d.elements.length by omega] at ha
  simp only [ha]

theorem readMany_empty (n : Nat) : (readMany readElement n []).1 = List.replicate n emptyElement := by
  have e : readElement [] = (emptyElement, []) := by decide +kernel
  induction n with
  | zero => rfl
  | succ n ih =>
    simp only [readMany]
    rw [e, List.replicate_succ]
    simp only
    rw [ih]

/-- A file that was cut off at or after the end of its first `j` elements. -/
theorem cut_split (d : Data) (h : Writable d) (k j : Nat) (hk : sizeUpTo d j ≤ k) :
    ∃ bytes, write d = .ok bytes ∧ ∃ rest, bytes.take k = ohmHeader ++ shortBytes d.version ++ shortBytes (toShort d.elements.length)
      ++ fillString d.description descriptionByteSize ++ (d.elements.take j).flatMap writeElement ++ rest ∧ (k = sizeUpTo d j → rest = []) := by
  unfold write
  rw [if_neg (by rw [h.header]; decide)]
  refine ⟨_, rfl, ?_⟩
  have hh : (d.header ++ [0]).take 4 = ohmHeader := by rw [h.header]; rfl
  rw [hh]
  have hsplit : d.elements.flatMap writeElement = (d.elements.take j).flatMap writeElement ++ (d.elements.drop j).flatMap writeElement := by
    rw [← List.flatMap_append, List.take_append_drop]
  rw [hsplit, ← List.append_assoc]
  have hlen : (ohmHeader ++ shortBytes d.version ++ shortBytes (toShort d.elements.length)
      ++ fillString d.description descriptionByteSize ++ (d.elements.take j).flatMap writeElement).length = sizeUpTo d j := by
    simp only [List.length_append, fillString_length, writeElements_length]
    rfl
  refine ⟨((d.elements.drop j).flatMap writeElement).take (k - sizeUpTo d j), ?_, ?_⟩
  · rw [List.take_append, hlen, List.take_of_length_le (by rw [hlen]; exact hk)]
  · intro e
    rw [e, Nat.sub_self, List.take_zero]

/-- **C119 (partial)** From a file that was cut off anywhere after its first `j` elements, those elements are loaded as from the whole file. -/
theorem c119_prefix_partial (d : Data) (h : Writable d) (k j : Nat) (hj : j ≤ d.elements.length) (hk : sizeUpTo d j ≤ k) :
    ∃ bytes, write d = .ok bytes ∧ (load (bytes.take k) {}).2.elements.take j = (load bytes {}).2.elements.take j := by
  obtain ⟨bytes, hw, rest, hb, -⟩ := cut_split d h k j hk
  refine ⟨bytes, hw, ?_⟩
  obtain ⟨bytes', hw', hl⟩ := c38_file d h {}
  rw [hw] at hw'
  have := Except.ok.inj hw'
  subst this
  have hlj : ((d.elements.take j).map loadedElement).length = j := by rw [List.length_map, List.length_take]; omega
  rw [hl, hb, load_prefix d h j hj rest {}]
  show ([] ++ _).take j = ([] ++ d.elements.map loadedElement).take j
  rw [List.nil_append, List.nil_append, List.take_append, hlj, Nat.sub_self, List.take_zero, List.append_nil, List.take_of_length_le (by omega), List.map_take]

/-- **C119, negation.** A file that was cut off after its first `j` elements is accepted, and has as many elements as before: those that are missing are there without name,
description and channels. -/
theorem c119_cut_negation (d : Data) (h : Writable d) (j : Nat) (hj : j ≤ d.elements.length) :
    ∃ bytes, write d = .ok bytes ∧ (load (bytes.take (sizeUpTo d j)) {}).1 = true ∧
      (load (bytes.take (sizeUpTo d j)) {}).2.elements = (load bytes {}).2.elements.take j ++ List.replicate (d.elements.length - j) emptyElement := by
  obtain ⟨bytes, hw, rest, hb, hr⟩ := cut_split d h (sizeUpTo d j) j le_rfl
  refine ⟨bytes, hw, ?_⟩
  rw [hr rfl] at hb
  obtain ⟨bytes', hw', hl⟩ := c38_file d h {}
  rw [hw] at hw'
  have := Except.ok.inj hw'
  subst this
  rw [hl, hb, load_prefix d h j hj [] {}]
  refine ⟨rfl, ?_⟩
  show [] ++ _ = ([] ++ d.elements.map loadedElement).take j ++ _
  rw [List.nil_append, List.nil_append, readMany_empty, List.map_take]

/-- Non-vacuity: a file of two elements, cut off after the first. -/
example : Writable ohmSample ∧ ohmSample.elements.length = 2 ∧ sizeUpTo ohmSample 1 = 40 + (98 + 2 * 40) ∧ sizeUpTo ohmSample 2 = 40 + (98 + 2 * 40) + 98 := by
  refine ⟨⟨rfl, by decide, by decide, by decide⟩, by decide, by decide, by decide⟩

end Haptics.Ohm
