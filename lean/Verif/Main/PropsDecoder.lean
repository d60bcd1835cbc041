import Verif.Main.Decoder
import Verif.Stream.PropsSizes
import Verif.Stream.PropsJoin

/-! C83: the decoder as a program. -/

namespace Haptics.DecoderMain
open Haptics Haptics.Args
open Haptics.Json (lit)

theorem readNamed_true (c : Option (List UInt8)) (b : Bool) (x : Option Experience)
    (h : readNamed c = .ok (b, x)) : b = true := by
  unfold readNamed at h
  cases c with
  | none => exact (Prod.mk.inj (Except.ok.inj h)).1.symm
  | some bytes =>
    simp only at h
    unfold readStream readFile at h
    split at h
    · cases h
    · split at h
      · cases h
      · exact (Prod.mk.inj (Except.ok.inj h)).1.symm
      · exact (Prod.mk.inj (Except.ok.inj h)).1.symm

/-- A command line that names an input and an output and does not ask for help. -/
structure Asked (tokens : List Str) (input output : Str) : Prop where
  noHelp : lit "-h" ∉ tokens ∧ lit "--help" ∉ tokens
  input : valueOf tokens (lit "-f") (lit "--file") = input ∧ input ≠ []
  output : valueOf tokens (lit "-o") (lit "--output") = output ∧ output ≠ []

theorem run_asked (files : Str → Option (List UInt8)) (tokens : List Str) (i o : Str) (h : Asked tokens i o) :
    run files tokens = (readNamed (files i)).map (fun r => (0, some (o, r.2.getD {}))) := by
  obtain ⟨⟨h1, h2⟩, ⟨h3, h4⟩, ⟨h5, h6⟩⟩ := h
  have n : ∀ x : Str, x ∉ tokens → cmdOptionExists tokens x = false := by
    intro x hx
    unfold cmdOptionExists
    simp only [List.any_eq_false, decide_eq_true_eq]
    rintro t ht rfl
    exact hx ht
  unfold run
  rw [h3, h5, n _ h1, n _ h2, if_neg (by simp), if_neg (by simpa using h4), if_neg (by simpa using h6)]
  cases hr : readNamed (files i) with
  | error e => rfl
  | ok r =>
    have := readNamed_true _ r.1 r.2 hr
    change (if !r.1 then _ else _) = _
    rw [this]
    rfl

/-- **C83.** Decoding a file that holds the stream of an experience writes that experience, as the stream carries it,
under the name that was asked for, and succeeds.  (The hypotheses are those of `c57_streamed_partial`.) -/
theorem c83_decodes_partial (files : Str → Option (List UInt8)) (tokens : List Str) (i o : Str)
    (ha : Asked tokens i o) (h : Experience) (d : Nat) (hd : 0 < d) (hd2 : d < 2 ^ 24) (hs : h.Spaced)
    (hf : h.prune.assignIds.StreamFits d) (hid : h.prune.Identified)
    (hm : h.prune.assignIds.Modest d)
    (file : List UInt8) (hw : writeStream h d = .ok file) (hi : files i = some file) :
    run files tokens = .ok (0, some (o, h.prune.assignIds.receivedStream)) := by
  obtain ⟨file', e1, e2⟩ := c57_streamed_partial h d hd hd2 hs hf hid hm
  rw [hw] at e1
  have := Except.ok.inj e1
  subst this
  rw [run_asked files tokens i o ha, hi]
  change (readStream file).map _ = _
  rw [e2]
  rfl

/-- **C83.** The same for streams with any number of sync points: what is written has the first few of them, or all if they are
timely.  (The hypotheses are those of `c57_sync_partial`.) -/
theorem c83_sync_partial (files : Str → Option (List UInt8)) (tokens : List Str) (i o : Str)
    (ha : Asked tokens i o) (h : Experience) (d : Nat) (hd : 0 < d) (hd2 : d < 2 ^ 24) (hs : h.Spaced)
    (hf : h.prune.assignIds.unsynced.StreamFits d) (hid : h.prune.Identified)
    (hm : h.prune.assignIds.Modest d) (hres : h.prune.Resendable)
    (file : List UInt8) (hw : writeStream h d = .ok file) (hi : files i = some file) :
    ∃ times : List Nat, run files tokens = .ok (0, some (o, h.prune.assignIds.receivedWith ((0 :: times).map h.syncAt))) ∧
      times.map (fun t : Nat => (t : Int)) <+: (h.syncs.drop 1).map (·.timestamp) ∧
      (h.prune.assignIds.SyncsTimely d → times.map (fun t : Nat => (t : Int)) = (h.syncs.drop 1).map (·.timestamp)) := by
  obtain ⟨file', times, e1, e2, e3, e4⟩ := c57_sync_partial h d hd hd2 hs hf hid hm hres
  rw [hw] at e1
  have := Except.ok.inj e1
  subst this
  refine ⟨times, ?_, e3, e4⟩
  rw [run_asked files tokens i o ha, hi]
  change (readStream file).map _ = _
  rw [e2]
  rfl

/-- Non-vacuity of `c83_sync_partial`: three sync points. -/
example : ∃ h : Experience, h.syncs.length = 3 ∧ h.Spaced ∧ h.prune.assignIds.unsynced.StreamFits 128 ∧ h.prune.Identified ∧
    h.prune.assignIds.Modest 128 ∧ h.prune.Resendable ∧ ∃ file, writeStream h 128 = .ok file := by
  obtain ⟨h1, h2, h3, h4, -, -, h7⟩ := exampleJoined_meets _ rfl
  obtain ⟨file, -, hw, -⟩ := c57_sync_partial _ 128 (by norm_num) (by norm_num) h1 h2 h3 h4 h7
  exact ⟨exampleJoined [{ timestamp := 0 }, { timestamp := 128 }, { timestamp := 256 }], rfl, h1, h2, h3, h4, h7, file, hw⟩

/-- **C83.** Without input or output nothing is written and the program fails; with help nothing is written and it
succeeds. -/
theorem c83_refused (files : Str → Option (List UInt8)) (tokens : List Str) :
    ((lit "-h" ∈ tokens ∨ lit "--help" ∈ tokens) → run files tokens = .ok (0, none)) ∧
    (lit "-h" ∉ tokens → lit "--help" ∉ tokens → (valueOf tokens (lit "-f") (lit "--file") = [] ∨
      valueOf tokens (lit "-o") (lit "--output") = []) → run files tokens = .ok (1, none)) := by
  have n : ∀ x : Str, cmdOptionExists tokens x = true ↔ x ∈ tokens := by
    intro x
    unfold cmdOptionExists
    simp
  constructor
  · intro h
    unfold run
    rw [if_pos (by rw [Bool.or_eq_true, n, n]; exact h)]
  · intro h1 h2 h3
    unfold run
    rw [if_neg (by rw [Bool.or_eq_true, n, n]; tauto)]
    by_cases h4 : valueOf tokens (lit "-f") (lit "--file") = []
    · rw [if_pos (by rw [h4]; rfl)]
    · rw [if_neg (by simpa using h4), if_pos (by rw [h3.resolve_left h4]; rfl)]

/-- **C83, what does not hold.** The program does not fail when the file cannot be read: a file that is missing is
"decoded" into an empty experience, with success; … -/
theorem c83_missing_negation (files : Str → Option (List UInt8)) (tokens : List Str) (i o : Str) (h : Asked tokens i o)
    (hi : files i = none) : run files tokens = .ok (0, some (o, {})) := by
  rw [run_asked files tokens i o h, hi]
  rfl

/-- … and whatever a file holds, the program does not report failure. -/
theorem c83_failure_negation (files : Str → Option (List UInt8)) (tokens : List Str) (i o : Str) (h : Asked tokens i o)
    (code : Nat) (out : Option (Str × Experience)) (hr : run files tokens = .ok (code, out)) : code = 0 ∧ out.isSome := by
  rw [run_asked files tokens i o h] at hr
  cases hn : readNamed (files i) with
  | error e => rw [hn] at hr; cases hr
  | ok r =>
    rw [hn] at hr
    have := Prod.mk.inj (Except.ok.inj hr)
    exact ⟨this.1.symm, by rw [← this.2]; rfl⟩

example : Asked [lit "Decoder", lit "-f", lit "a.hmpg", lit "-o", lit "b.hjif"] (lit "a.hmpg") (lit "b.hjif") :=
  ⟨by decide +kernel, by decide +kernel, by decide +kernel⟩

end Haptics.DecoderMain
