import Verif.Encoder.Main
import Verif.Encoder.SpecMain
import Verif.Encoder.SpecPcmEncode
import Mathlib.Tactic.Linarith
import Mathlib.Tactic.Ring
import Mathlib.Algebra.Order.Floor.Ring
import Mathlib.Data.Rat.Floor
import Verif.Bits.FloatDouble

/-! C81: the encoder as a program. -/

namespace Haptics.EncoderMain
open Haptics Haptics.Args
open Haptics.Json (lit)

theorem given_iff (tokens : List Str) (a b : Str) : given tokens a b = true ↔ a ∈ tokens ∨ b ∈ tokens := by
  unfold given cmdOptionExists
  simp

/-- The cases of a run. -/
theorem run_cases (env : Env) (tokens : List Str) (code : Int) (out : Option Output)
    (h : run env tokens = .ok (code, out)) :
    (given tokens (lit "-h") (lit "--help") = true ∧ code = 0 ∧ out = none) ∨
    (given tokens (lit "-h") (lit "--help") = false ∧ code = 1 ∧ out = none) ∨
    (given tokens (lit "-h") (lit "--help") = false ∧
      (valueOf tokens (lit "-f") (lit "--file")).isEmpty = false ∧
      env.isFile (valueOf tokens (lit "-f") (lit "--file")) = true ∧
      ∃ o ts x w, options env tokens = .ok o ∧ timescaleOf tokens = .ok ts ∧
        encodeFile env o (valueOf tokens (lit "-f") (lit "--file")) { timescale := some ts } = .ok (some (code, x)) ∧
        write tokens x = .ok w ∧ out = some w) := by
  unfold run at h
  by_cases hh : given tokens (lit "-h") (lit "--help") = true
  · rw [if_pos hh] at h
    have := Except.ok.inj h
    exact Or.inl ⟨hh, (Prod.mk.inj this).1.symm, (Prod.mk.inj this).2.symm⟩
  · have hh' : given tokens (lit "-h") (lit "--help") = false := by simpa using hh
    rw [if_neg hh] at h
    refine Or.inr ?_
    simp only at h
    by_cases hf : ((valueOf tokens (lit "-f") (lit "--file")).isEmpty ||
        !env.isFile (valueOf tokens (lit "-f") (lit "--file"))) = true
    · rw [if_pos hf] at h
      have := Except.ok.inj h
      exact Or.inl ⟨hh', (Prod.mk.inj this).1.symm, (Prod.mk.inj this).2.symm⟩
    · rw [if_neg hf] at h
      simp only [Bool.or_eq_true, Bool.not_eq_true', not_or, Bool.not_eq_true, Bool.not_eq_false] at hf
      cases ho : options env tokens with
      | error e => rw [ho] at h; cases h
      | ok o =>
        rw [ho] at h
        change (timescaleOf tokens).bind _ = _ at h
        cases ht : timescaleOf tokens with
        | error e => rw [ht] at h; cases h
        | ok ts =>
          rw [ht] at h
          change (encodeFile env o _ { timescale := some ts }).bind _ = _ at h
          cases he : encodeFile env o (valueOf tokens (lit "-f") (lit "--file")) { timescale := some ts } with
          | error e => rw [he] at h; cases h
          | ok r =>
            rw [he] at h
            cases r with
            | none =>
              have := Except.ok.inj h
              exact Or.inl ⟨hh', (Prod.mk.inj this).1.symm, (Prod.mk.inj this).2.symm⟩
            | some r =>
              obtain ⟨c, x⟩ := r
              change (write tokens x).bind _ = _ at h
              cases hw : write tokens x with
              | error e => rw [hw] at h; cases h
              | ok w =>
                rw [hw] at h
                have := Except.ok.inj h
                refine Or.inr ⟨hh', hf.1, hf.2, o, ts, x, w, rfl, rfl, ?_, hw, (Prod.mk.inj this).2.symm⟩
                rw [(Prod.mk.inj this).1.symm]
                exact he

/-- The exit code of a file that is encoded is 0, or -1 for HJIF files. -/
theorem encodeFile_code (env : Env) (o : Options) (file : Str) (x y : Experience) (code : Int)
    (h : encodeFile env o file x = .ok (some (code, y))) :
    (code = -1 ∧ getFileExt file = lit "hjif") ∨ (code = 0 ∧ getFileExt file ≠ lit "hjif") := by
  have n1 : lit "ohm" ≠ lit "hjif" := by decide +kernel
  have n2 : kindOf (lit "hjif") = none := by decide +kernel
  unfold encodeFile at h
  simp only at h
  by_cases h1 : getFileExt file = lit "ohm"
  · rw [if_pos h1] at h
    cases hr : encodeOhm env o file x with
    | error e => rw [hr] at h; cases h
    | ok r =>
      rw [hr] at h
      cases r with
      | none => cases h
      | some r =>
        have := Option.some.inj (Except.ok.inj h)
        exact Or.inr ⟨(Prod.mk.inj this).1.symm, fun e => n1 (h1.symm.trans e)⟩
  · rw [if_neg h1] at h
    cases hk : kindOf (getFileExt file) with
    | some k =>
      rw [hk] at h
      simp only at h
      cases hr : encodeKind env o (x.timescale.getD 1000) file blank k with
      | error e => rw [hr] at h; cases h
      | ok r =>
        rw [hr] at h
        cases r with
        | none => cases h
        | some r =>
          have := Option.some.inj (Except.ok.inj h)
          refine Or.inr ⟨(Prod.mk.inj this).1.symm, fun e => ?_⟩
          rw [e, n2] at hk
          cases hk
    | none =>
      rw [hk] at h
      simp only at h
      by_cases h2 : getFileExt file = lit "hjif"
      · rw [if_pos h2] at h
        cases hr : env.loadJson file x with
        | error e => rw [hr] at h; cases h
        | ok r =>
          rw [hr] at h
          have := Option.some.inj (Except.ok.inj h)
          exact Or.inl ⟨(Prod.mk.inj this).1.symm, h2⟩
      · rw [if_neg h2] at h
        cases h

theorem write_spec (tokens : List Str) (x : Experience) (w : Output) (h : write tokens x = .ok w) :
    w.file = outputName tokens ∧ w.content = finish tokens x ∧
    (w.packets.isSome = true ↔ given tokens (lit "-b") (lit "--binary") = true) ∧
    (∀ d, w.packets = some d → lit "--packet_duration" ∉ tokens → d = 128) := by
  unfold write at h
  by_cases hb : given tokens (lit "-b") (lit "--binary") = true
  · rw [if_pos hb] at h
    cases hd : intOption tokens (lit "--packet_duration") with
    | error e => rw [hd] at h; cases h
    | ok d =>
      rw [hd] at h
      have := Except.ok.inj h
      rw [← this]
      refine ⟨rfl, rfl, by simp [hb], fun d' hd' hn => ?_⟩
      have hn' : cmdOptionExists tokens (lit "--packet_duration") = false := by
        unfold cmdOptionExists
        simp only [List.any_eq_false, decide_eq_true_eq]
        rintro t ht rfl
        exact hn ht
      unfold intOption at hd
      rw [hn'] at hd
      have h0 : d = none := (Except.ok.inj hd).symm
      subst h0
      exact (Option.some.inj hd').symm
  · rw [if_neg hb] at h
    have := Except.ok.inj h
    rw [← this]
    exact ⟨rfl, rfl, by simp [hb], fun d hd => by cases hd⟩

/-- **C81.** A file is written exactly when the program does not report failure and was not asked for help; its exit code
is 0, 1, or −1. -/
theorem c81_written (env : Env) (tokens : List Str) (code : Int) (out : Option Output)
    (h : run env tokens = .ok (code, out)) :
    (code = 0 ∨ code = 1 ∨ code = -1) ∧
    (out.isSome = true ↔ code ≠ 1 ∧ lit "-h" ∉ tokens ∧ lit "--help" ∉ tokens) := by
  have hg : given tokens (lit "-h") (lit "--help") = false ↔ lit "-h" ∉ tokens ∧ lit "--help" ∉ tokens := by
    rw [← not_or, ← given_iff, Bool.not_eq_true]
  rcases run_cases env tokens code out h with ⟨a, rfl, rfl⟩ | ⟨a, rfl, rfl⟩ | ⟨a, -, -, o, ts, x, w, -, -, he, -, rfl⟩
  · refine ⟨Or.inl rfl, ?_⟩
    rw [← hg, a]
    simp
  · exact ⟨Or.inr (Or.inl rfl), by simp⟩
  · rcases encodeFile_code _ _ _ _ _ _ he with ⟨rfl, -⟩ | ⟨rfl, -⟩
    · refine ⟨Or.inr (Or.inr rfl), ?_⟩
      rw [← hg, a]
      simp
    · refine ⟨Or.inl rfl, ?_⟩
      rw [← hg, a]
      simp

/-- **C81.** What is written has the name that was asked for or else the default name of its format, is binary exactly
when that was asked for, and then has packets of 128 unless another duration was asked for. -/
theorem c81_output (env : Env) (tokens : List Str) (code : Int) (w : Output)
    (h : run env tokens = .ok (code, some w)) :
    (Named tokens (lit "-o") (lit "--output") w.file ∨
      (getCmdOption tokens (lit "-o") = [] ∧ getCmdOption tokens (lit "--output") = [] ∧
        w.file = if w.packets.isSome then lit "out.hmpg" else lit "out.hjif")) ∧
    (w.packets.isSome = true ↔ lit "-b" ∈ tokens ∨ lit "--binary" ∈ tokens) ∧
    (∀ d, w.packets = some d → lit "--packet_duration" ∉ tokens → d = 128) := by
  rcases run_cases env tokens code _ h with ⟨-, -, e⟩ | ⟨-, -, e⟩ | ⟨-, -, -, o, ts, x, w', -, -, -, hw, e⟩
  · cases e
  · cases e
  · have e := Option.some.inj e
    subst e
    obtain ⟨h1, h2, h3, h4⟩ := write_spec _ _ _ hw
    refine ⟨?_, ?_, h4⟩
    · rw [h1]
      unfold outputName valueOf Named
      by_cases e1 : getCmdOption tokens (lit "-o") = []
      · by_cases e2 : getCmdOption tokens (lit "--output") = []
        · right
          refine ⟨e1, e2, ?_⟩
          rw [e1, e2]
          simp only [List.isEmpty_nil, if_true]
          cases hb : given tokens (lit "-b") (lit "--binary") with
          | true => rw [if_pos rfl, if_pos (h3.mpr hb)]
          | false =>
            rw [if_neg (by simp), if_neg (fun h => by rw [h3.mp h] at hb; cases hb)]
        · left
          rw [e1]
          simp only [List.isEmpty_nil, if_true]
          rw [if_neg (by simpa using e2)]
          exact ⟨e2, Or.inr ⟨trivial, rfl⟩⟩
      · left
        have e1' : ¬ (getCmdOption tokens (lit "-o")).isEmpty = true := by simpa using e1
        rw [if_neg e1', if_neg e1']
        exact ⟨e1, Or.inl rfl⟩
    · rw [h3, given_iff]

theorem intOption_spec (tokens : List Str) (name : Str) (r : Option Int) (h : intOption tokens name = .ok r) :
    (name ∉ tokens → r = none) ∧ (name ∈ tokens → ∃ v, stoi (getCmdOption tokens name) = .ok v ∧ r = some v) := by
  unfold intOption at h
  have hc : cmdOptionExists tokens name = true ↔ name ∈ tokens := by unfold cmdOptionExists; simp
  by_cases hn : name ∈ tokens
  · rw [if_pos (hc.2 hn)] at h
    cases hs : stoi (getCmdOption tokens name) with
    | error e => rw [hs] at h; cases h
    | ok v => rw [hs] at h; exact ⟨fun h' => absurd hn h', fun _ => ⟨v, rfl, (Except.ok.inj h).symm⟩⟩
  · rw [if_neg (fun h' => hn (hc.1 h'))] at h
    exact ⟨fun _ => (Except.ok.inj h).symm, fun h' => absurd h' hn⟩

/-- **C81.** What is written is what has been encoded at the timescale that was asked for, or else at 1000 ticks per second;
refactored if that was asked for, then linearized if that was asked for, and nothing else. -/
theorem c81_content (env : Env) (tokens : List Str) (code : Int) (w : Output)
    (h : run env tokens = .ok (code, some w)) :
    ∃ o ts x, encodeFile env o (valueOf tokens (lit "-f") (lit "--file")) { timescale := some ts } = .ok (some (code, x)) ∧
      (lit "-ts" ∉ tokens → ts = 1000) ∧
      (lit "-ts" ∈ tokens → ∃ v, stoi (getCmdOption tokens (lit "-ts")) = .ok v ∧ (ts : Int) = v % 2 ^ 32) ∧
      ((lit "-r" ∉ tokens ∧ lit "--refactor" ∉ tokens) → (lit "-l" ∉ tokens ∧ lit "--linearize" ∉ tokens) → w.content = x) ∧
      ((lit "-r" ∈ tokens ∨ lit "--refactor" ∈ tokens) → (lit "-l" ∉ tokens ∧ lit "--linearize" ∉ tokens) →
        w.content = x.refactor) ∧
      ((lit "-r" ∉ tokens ∧ lit "--refactor" ∉ tokens) → (lit "-l" ∈ tokens ∨ lit "--linearize" ∈ tokens) →
        w.content = x.linearize) ∧
      ((lit "-r" ∈ tokens ∨ lit "--refactor" ∈ tokens) → (lit "-l" ∈ tokens ∨ lit "--linearize" ∈ tokens) →
        w.content = x.refactor.linearize) := by
  rcases run_cases env tokens code _ h with ⟨-, -, e⟩ | ⟨-, -, e⟩ | ⟨-, -, -, o, ts, x, w', -, ht, he, hw, e⟩
  · cases e
  · cases e
  · have e := Option.some.inj e
    subst e
    refine ⟨o, ts, x, he, ?_, ?_, ?_⟩
    · intro hn
      unfold timescaleOf at ht
      cases hi : intOption tokens (lit "-ts") with
      | error e => rw [hi] at ht; cases ht
      | ok r =>
        rw [hi] at ht
        rw [(intOption_spec _ _ _ hi).1 hn] at ht
        exact (Except.ok.inj ht).symm
    · intro hn
      unfold timescaleOf at ht
      cases hi : intOption tokens (lit "-ts") with
      | error e => rw [hi] at ht; cases ht
      | ok r =>
        rw [hi] at ht
        obtain ⟨v, hv, rfl⟩ := (intOption_spec _ _ _ hi).2 hn
        refine ⟨v, hv, ?_⟩
        rw [← Except.ok.inj ht, Option.getD_some, Int.toNat_of_nonneg (Int.emod_nonneg _ (by norm_num))]
    · have hr := given_iff tokens (lit "-r") (lit "--refactor")
      have hl := given_iff tokens (lit "-l") (lit "--linearize")
      rw [(write_spec _ _ _ hw).2.1]
      unfold finish
      refine ⟨fun h1 h2 => ?_, fun h1 h2 => ?_, fun h1 h2 => ?_, fun h1 h2 => ?_⟩
      · rw [if_neg (fun h' => not_or.2 h1 (hr.1 h')), if_neg (fun h' => not_or.2 h2 (hl.1 h'))]
      · rw [if_pos (hr.2 h1), if_neg (fun h' => not_or.2 h2 (hl.1 h'))]
      · rw [if_neg (fun h' => not_or.2 h1 (hr.1 h')), if_pos (hl.2 h2)]
      · rw [if_pos (hr.2 h1), if_pos (hl.2 h2)]

/-- **C81.** A file of one signal is encoded into one perception that is otherwise blank, at the timescale of the
experience, and the program succeeds exactly when its encoder does. -/
theorem c81_signal (env : Env) (o : Options) (ts : Nat) (file : Str) (k : Kind) (hk : kindOf (getFileExt file) = some k)
    (r : Option Perception) (h : encodeKind env o ts file blank k = .ok r) :
    encodeFile env o file { timescale := some ts } =
      .ok (r.map (fun p => (0, { timescale := some ts, perceptions := [p] }))) := by
  have n : kindOf (lit "ohm") = none := by decide +kernel
  unfold encodeFile
  simp only
  rw [if_neg (fun e => by rw [e, n] at hk; cases hk), hk]
  simp only [Option.getD_some]
  rw [h]
  cases r <;> rfl

theorem elements_spec (env : Env) (o : Options) (ohm : Str) (l : List Ohm.ElementInfo) (i : Nat) (x y : Experience)
    (h : elementsLoop env o ohm l i x = .ok (some y)) :
    y.perceptions.length = x.perceptions.length ∧ y.timescale = x.timescale ∧
    (∀ (j : Nat), j < i → y.perceptions[j]? = x.perceptions[j]?) ∧
    (∀ (j : Nat), i + l.length ≤ j → y.perceptions[j]? = x.perceptions[j]?) ∧
    ∀ (j : Nat) (e : Ohm.ElementInfo), l[j]? = some e → ∃ p q, x.perceptions[i + j]? = some p ∧
      y.perceptions[i + j]? = some q ∧ Encoded env o ohm (x.timescale.getD 1000) e p q := by
  induction l generalizing i x with
  | nil =>
    have := Option.some.inj (Except.ok.inj h)
    subst this
    exact ⟨rfl, rfl, fun _ _ => rfl, fun _ _ => rfl, fun j e hj => by simp at hj⟩
  | cons e l ih =>
    unfold elementsLoop at h
    simp only at h
    by_cases hf : env.isFile (env.beside ohm e.filename) = true
    · rw [if_neg (by simp [hf])] at h
      cases hp : x.perceptions[i]? with
      | none => rw [hp] at h; cases h
      | some p =>
        rw [hp] at h
        simp only at h
        cases hk : kindOf (getFileExt (env.beside ohm e.filename)) with
        | none =>
          rw [hk] at h
          simp only at h
          obtain ⟨h1, h2, h3, h4, h5⟩ := ih _ _ h
          refine ⟨h1, h2, fun j hj => h3 j (by omega), fun j hj => h4 j (by rw [List.length_cons] at hj; omega), ?_⟩
          intro j e' hj
          cases j with
          | zero =>
            have : e = e' := Option.some.inj hj
            subst this
            refine ⟨p, p, hp, by rw [Nat.add_zero, h3 i (by omega)]; exact hp, hf, ?_⟩
            rw [hk]
          | succ j =>
            have := h5 j e' (by simpa using hj)
            rw [show i + (j + 1) = i + 1 + j by omega]
            exact this
        | some k =>
          rw [hk] at h
          simp only at h
          cases hr : encodeKind env o (x.timescale.getD 1000) (env.beside ohm e.filename) p k with
          | error err => rw [hr] at h; cases h
          | ok r =>
            rw [hr] at h
            cases r with
            | none => cases h
            | some q =>
              change elementsLoop env o ohm l (i + 1) { x with perceptions := x.perceptions.set i q } = _ at h
              obtain ⟨h1, h2, h3, h4, h5⟩ := ih _ _ h
              simp only [List.length_set] at h1
              have hlt : i < x.perceptions.length := (List.getElem?_eq_some_iff.mp hp).1
              refine ⟨h1, h2, fun j hj => ?_, fun j hj => ?_, ?_⟩
              · rw [h3 j (by omega)]
                exact List.getElem?_set_ne (by omega)
              · rw [h4 j (by rw [List.length_cons] at hj; omega)]
                exact List.getElem?_set_ne (by rw [List.length_cons] at hj; omega)
              · intro j e' hj
                cases j with
                | zero =>
                  have : e = e' := Option.some.inj hj
                  subst this
                  refine ⟨p, q, hp, ?_, hf, ?_⟩
                  · rw [Nat.add_zero, h3 i (by omega)]
                    exact List.getElem?_set_self hlt
                  · rw [hk]
                    exact hr
                | succ j =>
                  obtain ⟨p', q', a, b, c⟩ := h5 j e' (by simpa using hj)
                  rw [show i + (j + 1) = i + 1 + j by omega]
                  refine ⟨p', q', ?_, b, c⟩
                  rw [← a]
                  exact (List.getElem?_set_ne (by omega)).symm
    · rw [if_pos (by simpa using hf)] at h
      cases h

/-- **C81.** An OHM file that is encoded gives one perception per element: the one of the metadata, with the file of the
element, which is looked for beside the OHM file, encoded into it. -/
theorem c81_ohm (env : Env) (o : Options) (ts : Nat) (file : Str) (hk : getFileExt file = lit "ohm") (code : Int)
    (y : Experience) (h : encodeFile env o file { timescale := some ts } = .ok (some (code, y))) :
    code = 0 ∧ ∃ d x, env.loadOhm file = some d ∧ env.metadata d { timescale := some ts } = .ok x ∧
      y.perceptions.length = d.elements.length ∧ y.timescale = x.timescale ∧
      ∀ (i : Nat) (e : Ohm.ElementInfo), d.elements[i]? = some e → ∃ p q, x.perceptions[i]? = some p ∧
        y.perceptions[i]? = some q ∧ Encoded env o file (x.timescale.getD 1000) e p q := by
  unfold encodeFile at h
  simp only at h
  rw [if_pos hk] at h
  cases hr : encodeOhm env o file { timescale := some ts } with
  | error e => rw [hr] at h; cases h
  | ok r =>
    rw [hr] at h
    cases r with
    | none => cases h
    | some r =>
      have := Option.some.inj (Except.ok.inj h)
      obtain ⟨rfl, rfl⟩ := Prod.mk.inj this
      refine ⟨rfl, ?_⟩
      unfold encodeOhm at hr
      cases hd : env.loadOhm file with
      | none => rw [hd] at hr; cases hr
      | some d =>
        rw [hd] at hr
        simp only at hr
        cases hm : env.metadata d { timescale := some ts } with
        | error e => rw [hm] at hr; cases hr
        | ok x =>
          rw [hm] at hr
          change (if d.elements.length ≠ x.perceptions.length then _ else _) = _ at hr
          by_cases hl : d.elements.length = x.perceptions.length
          · rw [if_neg (by simpa using hl)] at hr
            obtain ⟨h1, h2, -, -, h5⟩ := elements_spec _ _ _ _ _ _ _ hr
            refine ⟨d, x, rfl, hm, h1.trans hl.symm, h2, ?_⟩
            simpa using h5
          · rw [if_pos hl] at hr
            cases hr

/-! ### Settings -/

/-- **C81.** The options of WAV files are used as they are given, as soon as a bit rate or a budget is given. -/
theorem c81_settings (o : Options) (s : Settings) (h : settings o = .ok s) :
    s.wavelet = o.wavelet ∧ s.vectorial = o.vectorial ∧
    ((o.bitrate.isSome ∨ o.budget.isSome) → s.limit = o.cutoff ∧ s.blockLength = o.blockLength.getD 1024) ∧
    (o.bitrate = none → ∀ b, o.budget = some b → s.budget = b) ∧
    (o.bitrate = none → o.budget = none → s = ⟨145 / 2, 1024, 16, o.wavelet, o.vectorial⟩) := by
  unfold settings at h
  cases hb : o.bitrate with
  | some b =>
    rw [hb] at h
    simp only at h
    cases hr : budgetFor b (o.blockLength.getD defaultBlockLength) with
    | error e => rw [hr] at h; cases h
    | ok v =>
      rw [hr] at h
      have := Except.ok.inj h
      subst this
      exact ⟨rfl, rfl, fun _ => ⟨rfl, rfl⟩, fun e => by simp at e, fun e => by simp at e⟩
  | none =>
    cases hu : o.budget with
    | some b =>
      rw [hb, hu] at h
      have := Except.ok.inj h
      subst this
      exact ⟨rfl, rfl, fun _ => ⟨rfl, rfl⟩, fun _ b' e => Option.some.inj e, fun _ e => by simp at e⟩
    | none =>
      rw [hb, hu] at h
      have := Except.ok.inj h
      subst this
      exact ⟨rfl, rfl, fun e => by simp at e, fun _ b' e => by simp at e, fun _ _ => rfl⟩

theorem bitsAt_mono (a b : ℚ) (h : a ≤ b) : bitsAt a ≤ bitsAt b := by
  unfold bitsAt
  have key : (2573 / 10000000 * b ^ 3 - 4421 / 100000 * b ^ 2 + 3433 / 1000 * b - 6506 / 1000) -
      (2573 / 10000000 * a ^ 3 - 4421 / 100000 * a ^ 2 + 3433 / 1000 * a - 6506 / 1000) =
      (b - a) * (2573 / 10000000 * (a ^ 2 + a * b + b ^ 2) - 4421 / 100000 * (a + b) + 3433 / 1000) := by ring
  have pos : 0 ≤ 2573 / 10000000 * (a ^ 2 + a * b + b ^ 2) - 4421 / 100000 * (a + b) + 3433 / 1000 := by
    have e : 2573 / 10000000 * (a ^ 2 + a * b + b ^ 2) - 4421 / 100000 * (a + b) + 3433 / 1000 =
        2573 / 40000000 * (a - b) ^ 2 + 7719 / 40000000 * ((a + b) - 884200 / 7719) ^ 2 +
          (3433 / 1000 - 7719 / 40000000 * (884200 / 7719) ^ 2) := by ring
    rw [e]
    have h1 := sq_nonneg (a - b)
    have h2 := sq_nonneg ((a + b) - 884200 / 7719)
    have h3 : (0 : ℚ) ≤ 3433 / 1000 - 7719 / 40000000 * (884200 / 7719) ^ 2 := by norm_num
    linarith
  have := mul_nonneg (sub_nonneg.mpr h) pos
  linarith

theorem fl64_nonpos {x : ℚ} (h : x ≤ 0) : fl64 x ≤ 0 := by
  have := fl64_mono h
  rwa [fl64_zero] at this

theorem fl64_nonneg' {x : ℚ} (h : 0 ≤ x) : 0 ≤ fl64 x := by
  have := fl64_mono h
  rwa [fl64_zero] at this

/-- Without a positive bit rate there is nothing to spend. -/
theorem budgetCurve_low (t : ℚ) (h : t ≤ 0) : budgetCurve t ≤ 0 := by
  unfold budgetCurve
  have c1 : 0 ≤ fl64 (2573 / 10000000) := fl64_nonneg' (by norm_num)
  have c2 : fl64 (-4421 / 100000) ≤ 0 := fl64_nonpos (by norm_num)
  have c3 : 0 ≤ fl64 (3433 / 1000) := fl64_nonneg' (by norm_num)
  have c4 : fl64 (-6506 / 1000) ≤ 0 := fl64_nonpos (by norm_num)
  have p3 : fl64 (t ^ 3) ≤ 0 := fl64_nonpos (by rw [pow_succ]; exact mul_nonpos_of_nonneg_of_nonpos (sq_nonneg t) h)
  have p2 : 0 ≤ fl64 (t ^ 2) := fl64_nonneg' (sq_nonneg t)
  have a1 := fl64_nonpos (mul_nonpos_of_nonneg_of_nonpos c1 p3)
  have a2 := fl64_nonpos (mul_nonpos_of_nonpos_of_nonneg c2 p2)
  have a3 := fl64_nonpos (mul_nonpos_of_nonneg_of_nonpos c3 h)
  exact fl64_nonpos (add_nonpos (fl64_nonpos (add_nonpos (fl64_nonpos (add_nonpos a1 a2)) a3)) c4)

/-- From 165 kb/s on it is more than any block can hold. -/
theorem budgetCurve_high (t : ℚ) (h : 165 ≤ t) : 490 ≤ budgetCurve t := by
  unfold budgetCurve
  have c1 : |fl64 (2573 / 10000000) - 2573 / 10000000| ≤ 1 / 2 ^ 50 := (fl64_within _).trans (by norm_num [abs_of_pos])
  have c2 : |fl64 (-4421 / 100000) - -4421 / 100000| ≤ 1 / 2 ^ 50 := (fl64_within _).trans (by norm_num [abs_of_neg])
  have c3 : |fl64 (3433 / 1000) - 3433 / 1000| ≤ 1 / 2 ^ 50 := (fl64_within _).trans (by norm_num [abs_of_pos])
  have c4 : |fl64 (-6506 / 1000) - -6506 / 1000| ≤ 1 / 2 ^ 50 := (fl64_within _).trans (by norm_num [abs_of_neg])
  rw [abs_le] at c1 c2 c3 c4
  set D := fl64 (2573 / 10000000)
  set C := fl64 (-4421 / 100000)
  set B := fl64 (3433 / 1000)
  set A := fl64 (-6506 / 1000)
  have ht2 : 0 < t ^ 2 := by positivity
  have ht3 : 0 < t ^ 3 := by positivity
  have e1 : (1 : ℚ) ≤ t ^ 2 := by nlinarith
  have e2 : (1 : ℚ) ≤ t ^ 3 := by nlinarith
  have key : ∀ x lo hi v : ℚ, 1 ≤ v → 0 ≤ lo → lo * v ≤ x → x ≤ hi * v →
      (lo - hi / 2 ^ 52 - 1 / 2 ^ 99) * v ≤ fl64 x ∧ fl64 x ≤ (hi + hi / 2 ^ 52 + 1 / 2 ^ 99) * v := by
    intro x lo hi v hv hl h1 h2
    have hx : 0 ≤ x := le_trans (mul_nonneg hl (by linarith)) h1
    have := abs_le.1 (fl64_within x)
    rw [abs_of_nonneg hx] at this
    constructor <;> nlinarith [this.1, this.2]
  obtain ⟨p3l, p3u⟩ := key (t ^ 3) 1 1 (t ^ 3) e2 (by norm_num) (by linarith) (by linarith)
  obtain ⟨p2l, p2u⟩ := key (t ^ 2) 1 1 (t ^ 2) e1 (by norm_num) (by linarith) (by linarith)
  set P3 := fl64 (t ^ 3)
  set P2 := fl64 (t ^ 2)
  have p3l' : (1 - 1 / 2 ^ 50) * t ^ 3 ≤ P3 := le_trans (mul_le_mul_of_nonneg_right (by norm_num) ht3.le) p3l
  have p3u' : P3 ≤ (1 + 1 / 2 ^ 50) * t ^ 3 := p3u.trans (mul_le_mul_of_nonneg_right (by norm_num) ht3.le)
  have p2l' : (1 - 1 / 2 ^ 50) * t ^ 2 ≤ P2 := le_trans (mul_le_mul_of_nonneg_right (by norm_num) ht2.le) p2l
  have p2u' : P2 ≤ (1 + 1 / 2 ^ 50) * t ^ 2 := p2u.trans (mul_le_mul_of_nonneg_right (by norm_num) ht2.le)
  obtain ⟨xl, xu⟩ := key (D * P3) (2572 / 10000000) (2574 / 10000000) (t ^ 3) e2 (by norm_num)
    (by nlinarith) (by nlinarith)
  obtain ⟨yl, yu⟩ := key (-(C * P2)) (4420 / 100000) (4422 / 100000) (t ^ 2) e1 (by norm_num)
    (by nlinarith) (by nlinarith)
  rw [show fl64 (-(C * P2)) = -fl64 (C * P2) from flo_neg _ _ _] at yl yu
  set X := fl64 (D * P3)
  set Y := fl64 (C * P2)
  obtain ⟨zl, -⟩ := key (B * t) (3432 / 1000) (3434 / 1000) t (by linarith) (by norm_num) (by nlinarith) (by nlinarith)
  set Z := fl64 (B * t)
  have hw := abs_le.1 (fl64_within (X + Y))
  have habs : |X + Y| ≤ 1 / 1000 * t ^ 3 + 1 / 10 * t ^ 2 := by
    rw [abs_le]
    constructor <;> linarith
  set S := fl64 (X + Y)
  have hs : 2571 / 10000000 * t ^ 3 - 4423 / 100000 * t ^ 2 - 1 ≤ S := by linarith [hw.1]
  have hsz : 500 ≤ S + Z := by
    have hz : 3431 / 1000 * t ≤ Z := le_trans (mul_le_mul_of_nonneg_right (by norm_num) (by linarith)) zl
    have hp : ∀ u : ℚ, 0 ≤ u → 500 ≤ 2571 / 10000000 * (165 + u) ^ 3 - 4423 / 100000 * (165 + u) ^ 2 - 1 +
        3431 / 1000 * (165 + u) := by
      intro u hu
      have h3 : 0 ≤ u ^ 3 := by positivity
      have h2 : 0 ≤ u ^ 2 := by positivity
      ring_nf
      linarith
    have := hp (t - 165) (by linarith)
    rw [show 165 + (t - 165) = t by ring] at this
    linarith
  have n500 : fl64 500 = 500 := by simpa using fl64_int 500 (by norm_num)
  have n490 : fl64 490 = 490 := by simpa using fl64_int 490 (by norm_num)
  have h1 : 500 ≤ fl64 (S + Z) := by rw [← n500]; exact fl64_mono hsz
  rw [← n490]
  exact fl64_mono (by linarith [c4.1])

/-- Between them, rounding does not matter. -/
theorem budgetCurve_mid : ∀ t : Fin 165, ⌊budgetCurve (t : ℕ)⌋ = ⌊bitsAt (t : ℕ)⌋ := by
  decide +kernel

/-- The largest number of bits for a block of `n` samples: 15 for each level. -/
def mostBits (n : Int) : Int := (Nat.log2 n.toNat - 1) * 15

theorem budgetFor_ok (b n v : Int) (hn : 4 ≤ n) (hn' : n < 2 ^ 31) (h : budgetFor b n = .ok v) :
    v = max 1 (min (mostBits n) ⌊bitsAt b⌋) := by
  have ht : truncQ (⌊budgetCurve b⌋ : ℚ) = ⌊budgetCurve b⌋ := by
    unfold truncQ
    split <;> simp
  have hl : 2 ≤ Nat.log2 n.toNat := (Nat.le_log2 (by omega)).mpr (by omega)
  have hl' : Nat.log2 n.toNat < 31 := (Nat.log2_lt (by omega)).mpr (by omega)
  unfold budgetFor castInt at h
  rw [ht] at h
  by_cases hc : -2 ^ 31 ≤ ⌊budgetCurve (b : ℚ)⌋ ∧ ⌊budgetCurve (b : ℚ)⌋ < 2 ^ 31
  swap
  · rw [if_neg hc] at h
    cases h
  rw [if_pos hc] at h
  unfold maxBudget at h
  rw [if_neg (by omega)] at h
  have h := (Except.ok.inj h).symm
  subst h
  unfold mostBits
  generalize Nat.log2 n.toNat = l at *
  rcases le_or_gt b 0 with hb | hb
  · have h1 : ⌊budgetCurve (b : ℚ)⌋ ≤ 0 := by
      have := Int.floor_mono (budgetCurve_low b (by exact_mod_cast hb))
      simpa using this
    have h2 : ⌊bitsAt (b : ℚ)⌋ ≤ 0 := by
      have := Int.floor_mono (bitsAt_mono b 0 (by exact_mod_cast hb))
      have e : ⌊bitsAt 0⌋ = -7 := by decide +kernel
      omega
    split_ifs <;> omega
  · rcases le_or_gt 165 b with hb' | hb'
    · have h1 : 490 ≤ ⌊budgetCurve (b : ℚ)⌋ := Int.le_floor.2 (by exact_mod_cast budgetCurve_high b (by exact_mod_cast hb'))
      have h2 : 490 ≤ ⌊bitsAt (b : ℚ)⌋ := by
        have := Int.floor_mono (bitsAt_mono 165 b (by exact_mod_cast hb'))
        have e : ⌊bitsAt 165⌋ = 512 := by decide +kernel
        omega
      split_ifs <;> omega
    · obtain ⟨m, rfl⟩ := Int.eq_ofNat_of_zero_le hb.le
      have := budgetCurve_mid ⟨m, by omega⟩
      simp only at this
      push_cast at *
      rw [this]
      split_ifs <;> omega

/-- **C81.** A bit rate gives the budget of the polynomial, but at least 1 and at most 15 for each of the levels of a block:
rounding does not change it.  A higher bit rate never gives a smaller budget. -/
theorem c81_bitrate (n : Int) (hn : 4 ≤ n) (hn' : n < 2 ^ 31) (a v : Int) (ha : budgetFor a n = .ok v) :
    v = max 1 (min (((Nat.log2 n.toNat : Int) - 1) * 15) ⌊bitsAt a⌋) ∧ 1 ≤ v ∧ v ≤ (Nat.log2 n.toNat - 1) * 15 ∧
      ∀ b w, a ≤ b → budgetFor b n = .ok w → v ≤ w := by
  have e1 := budgetFor_ok _ _ _ hn hn' ha
  have hl : 2 ≤ Nat.log2 n.toNat := (Nat.le_log2 (by omega)).mpr (by omega)
  refine ⟨e1, ?_, ?_, fun b w hab hb => ?_⟩
  · omega
  · unfold mostBits at e1
    omega
  · have e2 := budgetFor_ok _ _ _ hn hn' hb
    have hm : ⌊bitsAt a⌋ ≤ ⌊bitsAt b⌋ := Int.floor_mono (bitsAt_mono _ _ (by exact_mod_cast hab))
    omega

example : (budgetFor 2 1024).toOption = some 1 ∧ (budgetFor 16 1024).toOption = some 38 ∧
    (budgetFor 200 1024).toOption = some 135 := by decide +kernel

/-! ### A run -/

/-- Everything is a file, and all encoders succeed; the limit of the settings ends up in the identifier of the perception,
as does the duration of blocks. -/
def sampleEnv : Env where
  isFile _ := true
  stod _ := .ok 100
  loadOhm _ := some { elements := [{ filename := lit "a.txt" }] }
  metadata _ x := .ok { x with perceptions := [{ id := 7 }] }
  beside _ g := g
  ahap _ _ p := .ok (some { p with id := 1 })
  ivs _ _ p := .ok (some { p with id := 2 })
  wav _ s _ p := .ok (some { p with id := ⌊s.limit⌋, avatarId := s.blockLength })
  loadJson _ x := .ok x

/-- What a run leaves: the exit code, the file, the identifiers of its perceptions and the duration of packets. -/
structure Summary where
  code : Int
  file : Option Str
  ids : List (Int × Int)
  packets : Option Int
deriving DecidableEq

def summary (r : Except Err (Int × Option Output)) : Option Summary :=
  r.toOption.map (fun (c, o) => ⟨c, o.map (·.file), (o.map (fun w => w.content.perceptions.map
    (fun p => (p.id, p.avatarId)))).getD [], o.bind (·.packets)⟩)

example : summary (run sampleEnv [lit "Encoder", lit "-f", lit "a.ahap", lit "-b"]) =
    some ⟨0, some (lit "out.hmpg"), [(1, 0)], some 128⟩ := by decide +kernel
example : summary (run sampleEnv [lit "Encoder", lit "-f", lit "a.mp3"]) = some ⟨1, none, [], none⟩ := by decide +kernel

/-- **C81, what does not hold.** For HJIF files the program ends with code −1, although a file is written. -/
theorem c81_hjif_negation : summary (run sampleEnv [lit "Encoder", lit "-f", lit "a.hjif", lit "-o", lit "b"]) =
    some ⟨-1, some (lit "b"), [], none⟩ := by decide +kernel

/-- **C81.** This is so for every HJIF file that is encoded, whether it can be loaded or not. -/
theorem c81_hjif (env : Env) (tokens : List Str) (code : Int) (w : Output)
    (h : run env tokens = .ok (code, some w)) :
    code = 0 ↔ getFileExt (valueOf tokens (lit "-f") (lit "--file")) ≠ lit "hjif" := by
  rcases run_cases env tokens code _ h with ⟨-, -, e⟩ | ⟨-, -, e⟩ | ⟨-, -, -, o, ts, x, w', -, -, he, -, -⟩
  · cases e
  · cases e
  · rcases encodeFile_code _ _ _ _ _ _ he with ⟨rfl, e⟩ | ⟨rfl, e⟩
    · simp [e]
    · simp [e]

/-- **C81, what does not hold.** A cutoff frequency and a block length are ignored when neither a bit rate nor a budget is
given; a bit rate is ignored under its long name. -/
theorem c81_cutoff_negation :
    summary (run sampleEnv [lit "Encoder", lit "-f", lit "a.wav", lit "-cf", lit "100", lit "-bl", lit "512"]) =
      some ⟨0, some (lit "out.hjif"), [(72, 1024)], none⟩ ∧
    summary (run sampleEnv [lit "Encoder", lit "-f", lit "a.wav", lit "-cf", lit "100", lit "-bl", lit "512", lit "--bitrate", lit "2"]) =
      some ⟨0, some (lit "out.hjif"), [(72, 1024)], none⟩ ∧
    summary (run sampleEnv [lit "Encoder", lit "-f", lit "a.wav", lit "-cf", lit "100", lit "-bl", lit "512", lit "-kb", lit "2"]) =
      some ⟨0, some (lit "out.hjif"), [(100, 512)], none⟩ := by decide +kernel

/-- **C81, what does not hold.** Without vectorial bands there should be one wavelet band "for the whole frequency
spectrum".  With no other option it is made of what the low-pass filter leaves: low frequencies are lost. -/
theorem c81_spectrum_negation (o : Options) (h1 : o.bitrate = none) (h2 : o.budget = none) (h3 : o.vectorial = false)
    (h4 : o.wavelet = true) (s : Settings) (h : settings o = .ok s) (parts : Pcm.Parts) (ts modality rate : Nat)
    (signal : List ℚ) (bands : List Band)
    (hb : Pcm.Bands parts ⟨s.limit, s.wavelet, s.vectorial⟩ ts modality rate signal bands) :
    ∃ r w, Pcm.Minus signal (parts.lowPass signal (145 / 2)) r ∧ parts.wavelet r = .ok w ∧ bands = w.toList := by
  have e := (c81_settings o s h).2.2.2.2 h1 h2
  subst e
  cases hb with
  | none a b => simp only at b; rw [h4] at b; cases b
  | curve b a c => simp only at a; rw [h3] at a; cases a
  | low b a c => simp only at a; rw [h3] at a; cases a
  | wavelet w a b c => norm_num at b
  | high r w a b c d f => exact ⟨r, w, d, f, rfl⟩
  | both b e r w a => simp only at a; rw [h3] at a; cases a

/-- **C81, what does not hold.** An element of an OHM file that is of no known kind is not encoded, and yet the program
succeeds. -/
theorem c81_element_negation : summary (run sampleEnv [lit "Encoder", lit "-f", lit "a.ohm"]) =
    some ⟨0, some (lit "out.hjif"), [(7, -1)], none⟩ := by decide +kernel

end Haptics.EncoderMain
