import Verif.Tools.Args
import Verif.Tools.SpecArgs
import Verif.Json.Tables
import Mathlib.Data.List.TakeWhile

/-! C44: the command line. -/

namespace Haptics.Args
open Haptics

/-- **C44.** The value of an option is the word after its first occurrence; it is empty when the option is the last word
or is not there. -/
theorem c44_option (option : Str) (before : List Str) (h : option ∉ before) :
    (∀ v after, getCmdOption (before ++ option :: v :: after) option = v) ∧
    getCmdOption (before ++ [option]) option = [] ∧ getCmdOption before option = [] := by
  have hd : ∀ rest, (before ++ option :: rest).dropWhile (fun t => t ≠ option) = option :: rest := by
    intro rest
    rw [List.dropWhile_append_of_pos (fun t ht => by
      simp only [ne_eq, decide_eq_true_eq]
      rintro rfl
      exact h ht)]
    simp
  refine ⟨fun v after => ?_, ?_, ?_⟩
  · unfold getCmdOption
    rw [hd]
  · unfold getCmdOption
    rw [hd]
  · unfold getCmdOption
    have : before.dropWhile (fun t => t ≠ option) = [] := List.dropWhile_eq_nil_iff.mpr (fun t ht => by
      simp only [ne_eq, decide_eq_true_eq]
      rintro rfl
      exact h ht)
    rw [this]

/-- **C44.** An option exists exactly when it is one of the words. -/
theorem c44_exists (tokens : List Str) (option : Str) : cmdOptionExists tokens option = true ↔ option ∈ tokens := by
  unfold cmdOptionExists
  simp

/-- **C44.** The extension is what follows the last dot; without dot it is empty. -/
theorem c44_extension (stem ext : Str) (h : 46 ∉ ext) : getFileExt (stem ++ 46 :: ext) = ext ∧ getFileExt ext = [] := by
  constructor
  · unfold getFileExt
    rw [if_pos (by simp), List.reverse_append, List.reverse_cons, List.append_assoc]
    have : (ext.reverse ++ ([46] ++ stem.reverse)).takeWhile (fun b => b ≠ 46) = ext.reverse := by
      rw [List.takeWhile_append_of_pos (fun b hb => by
        simp only [ne_eq, decide_eq_true_eq]
        rintro rfl
        exact h (List.mem_reverse.mp hb))]
      simp
    rw [this, List.reverse_reverse]
  · unfold getFileExt
    rw [if_neg (by simpa using h)]

theorem words_mem {names : List Str} {items : List Item} {o : Str} (ho : o ∈ names)
    (hv : ∀ i ∈ items, ∀ v, i.value = some v → v ∉ names) :
    o ∈ items.flatMap Item.words ↔ o ∈ items.map Item.name := by
  simp only [List.mem_flatMap, List.mem_map]
  constructor
  · rintro ⟨i, hi, h⟩
    unfold Item.words at h
    rcases List.mem_cons.mp h with rfl | h
    · exact ⟨i, hi, rfl⟩
    · exact absurd ho (hv i hi o (Option.mem_toList.mp h))
  · rintro ⟨i, hi, rfl⟩
    exact ⟨i, hi, List.mem_cons_self⟩

/-- **C44.** On a plain command line every option that is given has its value, and those that are not given have none;
so the order of the options does not matter. -/
theorem c44_plain (names : List Str) (program : Str) (items : List Item) (h : Plain names program items) :
    (∀ i ∈ items, ∀ v, i.value = some v → getCmdOption (commandLine program items) i.name = v) ∧
    (∀ o ∈ names, cmdOptionExists (commandLine program items) o = true ↔ ∃ i ∈ items, i.name = o) ∧
    (∀ o ∈ names, (∀ i ∈ items, i.name ≠ o) → getCmdOption (commandLine program items) o = []) := by
  obtain ⟨h1, h2, h3, h4⟩ := h
  refine ⟨fun i hi v hv => ?_, fun o ho => ?_, fun o ho hn => ?_⟩
  · obtain ⟨l1, l2, e⟩ := List.append_of_mem hi
    have hb : i.name ∉ program :: l1.flatMap Item.words := by
      intro hm
      rcases List.mem_cons.mp hm with hm | hm
      · exact h3 (hm ▸ h1 i hi)
      · rw [words_mem (h1 i hi) (fun j hj => h4 j (by rw [e]; simp [hj]))] at hm
        rw [e, List.map_append, List.map_cons, List.nodup_append] at h2
        exact h2.2.2 _ hm _ List.mem_cons_self rfl
    have := (c44_option i.name _ hb).1 v (l2.flatMap Item.words)
    unfold commandLine
    rw [e, List.flatMap_append, List.flatMap_cons]
    rw [show i.words = [i.name, v] by unfold Item.words; rw [hv]; rfl]
    simpa using this
  · rw [c44_exists]
    unfold commandLine
    rw [List.mem_cons, words_mem ho h4, List.mem_map]
    constructor
    · rintro (rfl | h)
      · exact absurd ho h3
      · exact h
    · exact Or.inr
  · refine (c44_option o _ ?_).2.2
    intro hm
    rcases List.mem_cons.mp hm with rfl | hm
    · exact h3 ho
    · rw [words_mem ho h4] at hm
      obtain ⟨i, hi, e⟩ := List.mem_map.mp hm
      exact hn i hi e

open Json in
example : Plain [lit "-f", lit "-o", lit "-b"] (lit "Encoder") [⟨lit "-f", some (lit "a.wav")⟩, ⟨lit "-b", none⟩] := by
  refine ⟨?_, ?_, ?_, ?_⟩
  · decide +kernel
  · decide +kernel
  · decide +kernel
  · intro i hi v hv
    simp only [List.mem_cons, List.not_mem_nil, or_false] at hi
    rcases hi with rfl | rfl
    · have := Option.some.inj hv
      subst this
      decide +kernel
    · cases hv

open Json in
/-- **C44, what does not hold.** A value that is missing is taken from the next option, a value may be taken for an option
(here a file that is called "-b"), and a dot in the name of a folder makes an extension. -/
theorem c44_negation : getCmdOption [lit "Encoder", lit "-o", lit "-b", lit "-f", lit "x"] (lit "-o") = lit "-b" ∧
    cmdOptionExists [lit "Encoder", lit "-f", lit "-b"] (lit "-b") = true ∧
    getFileExt (lit "data.d/file") = lit "d/file" := by decide +kernel

end Haptics.Args
