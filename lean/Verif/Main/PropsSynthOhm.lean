import Verif.Main.SpecSynthOhm
import Verif.Main.Beside
import Verif.Main.PropsSynth
import Verif.Encoder.PropsMain
import Verif.Encoder.PropsPcmEncode
import Verif.Tools.PropsOhmExperience

/-! C101: the OHM file that the synthesizer writes beside the sound file, and what the encoder makes of the two. -/

namespace Haptics.SynthMain
open Haptics Haptics.Args
open Haptics.Json (lit)

/-! ### Names of files -/

theorem splits_path (path : Str) : Splits path (folderPart path) (fileName path) := by
  refine ⟨?_, ?_, ?_⟩
  · unfold folderPart fileName
    rw [← List.reverse_append, List.takeWhile_append_dropWhile, List.reverse_reverse]
  · unfold fileName
    intro h
    have := List.mem_takeWhile_imp (List.mem_reverse.mp h)
    simp at this
  · unfold folderPart
    rw [List.getLast?_reverse, List.reverse_eq_nil_iff]
    cases hd : path.reverse.dropWhile (fun b => b ≠ 47) with
    | nil => exact Or.inl rfl
    | cons a t =>
      right
      have h := List.head?_dropWhile_not (fun b : UInt8 => decide (b ≠ 47)) path.reverse
      rw [hd] at h
      simp at h
      rw [List.head?_cons, h]

theorem takeWhile_all {α : Type} (p : α → Bool) (a b : List α) (ha : ∀ x ∈ a, p x = true) (hb : ∀ y, b.head? = some y → p y = false) :
    (a ++ b).takeWhile p = a ∧ (a ++ b).dropWhile p = b := by
  induction a with
  | nil =>
    cases b with
    | nil => exact ⟨rfl, rfl⟩
    | cons y t =>
      have := hb y rfl
      simp [List.takeWhile, List.dropWhile, this]
  | cons x a ih =>
    have hx := ha x List.mem_cons_self
    obtain ⟨h1, h2⟩ := ih (fun z hz => ha z (List.mem_cons_of_mem _ hz))
    simp [hx, h1, h2]

/-- A path can be split in one way only. -/
theorem splits_unique (path folder name : Str) (h : Splits path folder name) :
    folderPart path = folder ∧ fileName path = name := by
  obtain ⟨h1, h2, h3⟩ := h
  have := takeWhile_all (fun b : UInt8 => decide (b ≠ 47)) name.reverse folder.reverse
    (fun x hx => by
      simp only [decide_eq_true_eq]
      intro e
      subst e
      exact h2 (List.mem_reverse.mp hx))
    (fun y hy => by
      rw [List.head?_reverse] at hy
      rcases h3 with e | e
      · subst e; cases hy
      · rw [e] at hy
        have := Option.some.inj hy
        subst this
        rfl)
  subst h1
  unfold folderPart fileName
  rw [List.reverse_append, this.1, this.2, List.reverse_reverse, List.reverse_reverse]
  exact ⟨rfl, rfl⟩

theorem stem_spec (name : Str) : WithoutEnding name (stem name) := by
  unfold stem WithoutEnding
  have hl : lit ".." = [46, 46] := by decide +kernel
  rw [hl]
  simp only
  by_cases hd : name = [46, 46]
  · rw [if_pos (Or.inl hd)]
    exact Or.inr ⟨rfl, Or.inl hd⟩
  · have hsplit := List.takeWhile_append_dropWhile (p := fun b : UInt8 => decide (b ≠ 46)) (l := name.reverse)
    have hn : ∀ x ∈ name.reverse.takeWhile (fun b : UInt8 => decide (b ≠ 46)), x ≠ 46 := by
      intro x hx
      have := List.mem_takeWhile_imp hx
      simpa using this
    cases hw : name.reverse.dropWhile (fun b : UInt8 => decide (b ≠ 46)) with
    | nil =>
      rw [hw, List.append_nil] at hsplit
      rw [if_pos (Or.inr (by simp))]
      refine Or.inr ⟨rfl, Or.inr ?_⟩
      intro a e h
      exfalso
      rw [hsplit] at hn
      exact hn 46 (by rw [h]; simp) rfl
    | cons y t =>
      have hy : y = 46 := by
        have h := List.head?_dropWhile_not (fun b : UInt8 => decide (b ≠ 46)) name.reverse
        rw [hw] at h
        simpa using h
      subst hy
      rw [hw] at hsplit
      generalize name.reverse.takeWhile (fun b : UInt8 => decide (b ≠ 46)) = e at hsplit hn
      have hname : name = t.reverse ++ 46 :: e.reverse := by
        have := congrArg List.reverse hsplit
        rw [List.reverse_append, List.reverse_reverse, List.reverse_cons, List.append_assoc] at this
        exact this.symm
      by_cases ht : t = []
      · subst ht
        rw [if_pos (Or.inr (by simp))]
        refine Or.inr ⟨rfl, Or.inr ?_⟩
        intro a e' h
        rw [hname, List.reverse_nil, List.nil_append] at h
        cases a with
        | nil => rfl
        | cons z a =>
          exfalso
          have := (List.cons.inj h).2
          exact hn 46 (List.mem_reverse.mp (by rw [this]; simp)) rfl
      · have hlen : ¬ (name = [46, 46] ∨ ((46 : UInt8) :: t).reverse.length ≤ 1) := by
          rintro (h | h)
          · exact hd h
          · simp at h
            exact ht h
        rw [if_neg hlen]
        refine Or.inl ⟨hd, ?_, e.reverse, ?_, ?_⟩
        · simpa using ht
        · rw [List.reverse_cons, List.dropLast_concat]
          exact hname
        · intro h
          exact hn 46 (List.mem_reverse.mp h) rfl

example : stem (lit "a.b.wav") = lit "a.b" ∧ stem (lit ".wav") = lit ".wav" ∧ stem (lit "a") = lit "a" ∧
    fileName (lit "x/y.wav") = lit "y.wav" ∧ replaceExtension (lit "x.d/y.wav") (lit ".ohm") = lit "x.d/y.ohm" ∧
    replaceExtension (lit "x.d/y") (lit ".ohm") = lit "x.d/y.ohm" := by decide +kernel

theorem run_file (env : Env) (tokens : List Str) (code : Int) (w : Output) (h : run env tokens = .ok (code, some w)) :
    w.file = outputName tokens := by
  obtain ⟨-, -, h3⟩ := c82_run env tokens code _ h
  obtain ⟨hf, -⟩ := h3 w rfl
  unfold outputName
  rcases hf with ⟨e1, e2⟩ | ⟨e1, e2⟩
  · rw [if_neg (by simpa using e1), e2]
  · rw [if_pos (by simp [e1]), e2]

/-- **C101.** The OHM file is written exactly when asked for, beside the sound file and under the same name but for the
ending. -/
theorem c101_name (env : Env) (tokens : List Str) (code : Int) (w : Output) (h : run env tokens = .ok (code, some w)) :
    (w.ohm.isSome = true ↔ lit "--generate_ohm" ∈ tokens) ∧
    ∀ n bytes, w.ohm = some (n, bytes) → ∃ folder name s, Splits w.file folder name ∧ WithoutEnding name s ∧
      n = folder ++ s ++ lit ".ohm" := by
  obtain ⟨-, -, h3⟩ := c82_run env tokens code _ h
  obtain ⟨-, -, -, x, pad, -, -, -, ho⟩ := h3 w rfl
  have hfile := run_file env tokens code w h
  unfold ohmFile at ho
  by_cases hc : cmdOptionExists tokens (lit "--generate_ohm") = true
  · rw [if_pos hc] at ho
    cases hd : Ohm.extractMetadata env.bits (fileName (outputName tokens)) x.linearize with
    | error e => rw [hd] at ho; cases ho
    | ok d =>
      rw [hd] at ho
      change (Ohm.write d).bind _ = _ at ho
      cases hb : Ohm.write d with
      | error e => rw [hb] at ho; cases ho
      | ok bytes =>
        rw [hb] at ho
        have ho := Except.ok.inj ho
        refine ⟨⟨fun _ => by unfold cmdOptionExists at hc; simpa using hc, fun _ => by rw [← ho]; rfl⟩, ?_⟩
        intro n bytes' e
        rw [← ho] at e
        have := (Prod.mk.inj (Option.some.inj e)).1
        subst this
        refine ⟨folderPart w.file, fileName w.file, stem (fileName w.file), splits_path _, stem_spec _, ?_⟩
        rw [hfile]
        rfl
  · rw [if_neg hc] at ho
    have ho := Except.ok.inj ho
    refine ⟨⟨fun e => ?_, fun e => absurd (by unfold cmdOptionExists; simpa using e) hc⟩, fun n bytes e => ?_⟩
    · rw [← ho] at e
      cases e
    · rw [← ho] at e
      cases e

/-! ### What it says -/

theorem extract_linearize (bits : ℚ → BitVec 32) (name : Str) (x : Experience) :
    Ohm.extractMetadata bits name x.linearize = Ohm.extractMetadata bits name x := by
  have hp : x.linearize.perceptions.map (Ohm.elementOf bits name) = x.perceptions.map (Ohm.elementOf bits name) := by
    unfold Experience.linearize
    simp only [List.map_map]
    refine List.map_congr_left fun p _ => ?_
    unfold Ohm.elementOf Perception.linearizeLibrary
    simp only [Function.comp_apply, List.length_map, ← List.map_take, List.map_map]
    rfl
  unfold Ohm.extractMetadata
  rw [hp]
  rfl

theorem element_describes (bits : ℚ → BitVec 32) (name : Str) (p : Perception) (h : p.channels.length < 32768) :
    Describes bits name p (Ohm.elementOf bits name p) ∧
    (Ohm.elementOf bits name p).channels = p.channels.map (fun c => ⟨c.description, bits c.gain, BitVec.ofNat 32 c.bodyPartMask⟩) := by
  have hc : (Ohm.elementOf bits name p).channels = p.channels.map (fun c =>
      ⟨c.description, bits c.gain, BitVec.ofNat 32 c.bodyPartMask⟩) := by
    unfold Ohm.elementOf
    simp only
    rw [Ohm.toShort_id h, Int.toNat_natCast, List.take_of_length_le le_rfl]
  refine ⟨⟨rfl, rfl, Ohm.toShort_id h, by rw [hc, List.length_map], fun j c hj => ?_⟩, hc⟩
  exact ⟨_, by rw [hc, List.getElem?_map, hj]; rfl, rfl, rfl, rfl⟩

/-- What is written of an experience that an OHM file can hold. -/
theorem describable_written (bits : ℚ → BitVec 32) (name : Str) (x : Experience) (hx : Describable name x) :
    ∃ d bytes, Ohm.extractMetadata bits name x = .ok d ∧ Ohm.write d = .ok bytes ∧ Ohm.load bytes {} = (true, d) ∧
      d.description = x.description ∧ d.elements = x.perceptions.map (Ohm.elementOf bits name) := by
  have hv : ∃ v, (if x.version.isEmpty then Except.ok 0 else stoi x.version) = (.ok v : Except Err Int) := by
    rcases hx.version with e | ⟨v, e⟩
    · exact ⟨0, by rw [e]; rfl⟩
    · by_cases hn : x.version.isEmpty = true
      · exact ⟨0, by rw [if_pos hn]⟩
      · exact ⟨v, by rw [if_neg hn, e]⟩
  obtain ⟨v, hv⟩ := hv
  have hd : Ohm.extractMetadata bits name x = .ok ⟨Ohm.ohmHeader, (v + 32768) % 65536 - 32768, x.description,
      x.perceptions.map (Ohm.elementOf bits name)⟩ := by
    unfold Ohm.extractMetadata
    split at hv
    · rename_i hi
      rw [if_pos hi]
      have := Except.ok.inj hv
      subst this
      rfl
    · rename_i hi
      rw [if_neg hi, hv]
      rfl
  have hwr : Ohm.Writable ⟨Ohm.ohmHeader, (v + 32768) % 65536 - 32768, x.description,
      x.perceptions.map (Ohm.elementOf bits name)⟩ := by
    refine ⟨rfl, by simp only; omega, by simpa using hx.perceptions, ?_⟩
    intro e he
    obtain ⟨p, hp, rfl⟩ := List.mem_map.mp he
    have hl := (hx.channels p hp).2
    obtain ⟨⟨-, -, h1, h2, -⟩, -⟩ := element_describes bits name p hl
    exact ⟨by rw [h1, h2], by rw [h2]; exact hl⟩
  have hex : Ohm.Exact ⟨Ohm.ohmHeader, (v + 32768) % 65536 - 32768, x.description,
      x.perceptions.map (Ohm.elementOf bits name)⟩ := by
    refine ⟨hx.description, ?_, ?_⟩
    · intro e he
      obtain ⟨p, hp, rfl⟩ := List.mem_map.mp he
      exact ⟨hx.file, (hx.channels p hp).1⟩
    · intro e he c hc
      obtain ⟨p, hp, rfl⟩ := List.mem_map.mp he
      rw [(element_describes bits name p (hx.channels p hp).2).2] at hc
      obtain ⟨c', hc', rfl⟩ := List.mem_map.mp hc
      exact hx.texts p hp c' hc'
  obtain ⟨bytes, h1, h2⟩ := Ohm.c38_round_trip _ hwr hex
  exact ⟨_, bytes, hd, h1, h2, rfl, rfl⟩

/-- What the program writes when it is asked for an OHM file. -/
theorem run_ohm (env : Env) (tokens : List Str) (code : Int) (w : Output) (h : run env tokens = .ok (code, some w))
    (x : Experience) (hin : inputOf env tokens (valueOf tokens (lit "-f") (lit "--file")) = .ok (some x))
    (n : Str) (bytes : List UInt8) (ho : w.ohm = some (n, bytes)) (hx : Describable (fileName w.file) x) :
    n = replaceExtension w.file (lit ".ohm") ∧ (∃ pad, synthesize env.parts x w.rate pad = .ok w.signals) ∧
    ∃ d, Ohm.extractMetadata env.bits (fileName w.file) x = .ok d ∧ Ohm.load bytes {} = (true, d) ∧
      d.description = x.description ∧ d.elements = x.perceptions.map (Ohm.elementOf env.bits (fileName w.file)) := by
  obtain ⟨-, -, h3⟩ := c82_run env tokens code _ h
  obtain ⟨-, -, -, x', pad, -, hin', hs, hoh⟩ := h3 w rfl
  rw [hin] at hin'
  have := Option.some.inj (Except.ok.inj hin')
  subst this
  obtain ⟨d, b, g1, g2, g3, g4, g5⟩ := describable_written _ _ _ hx
  unfold ohmFile at hoh
  rw [← run_file env tokens code w h, extract_linearize, g1] at hoh
  split at hoh
  · change (Ohm.write d).bind _ = _ at hoh
    rw [g2] at hoh
    have hoh := Except.ok.inj hoh
    rw [ho] at hoh
    obtain ⟨e1, e2⟩ := Prod.mk.inj (Option.some.inj hoh)
    subst e2
    exact ⟨e1.symm, ⟨pad, hs⟩, d, g1, g3, g4, g5⟩
  · have hoh := Except.ok.inj hoh
    rw [ho] at hoh
    cases hoh

/-- **C101.** The OHM file has the description of the experience and, in order, one element for each perception, with the
name of the sound file, the description of the perception and the descriptions, gains and masks of its channels. -/
theorem c101_metadata (env : Env) (tokens : List Str) (code : Int) (w : Output) (h : run env tokens = .ok (code, some w))
    (x : Experience) (hin : inputOf env tokens (valueOf tokens (lit "-f") (lit "--file")) = .ok (some x))
    (n : Str) (bytes : List UInt8) (ho : w.ohm = some (n, bytes)) (folder name : Str) (hs : Splits w.file folder name)
    (hx : Describable name x) :
    ∃ d, Ohm.load bytes {} = (true, d) ∧ d.description = x.description ∧ d.elements.length = x.perceptions.length ∧
      ∀ (i : Nat) (p : Perception), x.perceptions[i]? = some p → ∃ e, d.elements[i]? = some e ∧ Describes env.bits name p e := by
  have hname := (splits_unique _ _ _ hs).2
  rw [← hname] at hx
  obtain ⟨-, -, d, -, h1, h2, h3⟩ := run_ohm env tokens code w h x hin n bytes ho hx
  refine ⟨d, h1, h2, by rw [h3, List.length_map], fun i p hp => ?_⟩
  refine ⟨_, by rw [h3, List.getElem?_map, hp]; rfl, ?_⟩
  rw [hname]
  exact (element_describes _ _ _ (hx.channels p (List.mem_of_getElem? hp)).2).1

example : Describable (lit "out.wav") { version := lit "2023", description := lit "d", perceptions := [
    { description := lit "p", channels := [{ description := lit "c", bodyPartMask := 7 }, {}] }] } where
  version := Or.inr ⟨2023, by decide +kernel⟩
  description := by unfold Ohm.Fits; decide +kernel
  file := by unfold Ohm.Fits; decide +kernel
  perceptions := by decide
  channels := by unfold Ohm.Fits; decide +kernel
  texts := by unfold Ohm.Fits; decide +kernel

/-! ### The files are found again -/

/-- **C101.** The encoder finds the sound file from the OHM file. -/
theorem c101_beside (path ext : Str) (hp : Neat path) (he : 47 ∉ ext) :
    EncoderMain.besideOf (replaceExtension path ext) (fileName path) = path := by
  obtain ⟨folder, name, hs, hn, hf⟩ := hp
  obtain ⟨h1, h2⟩ := splits_unique _ _ _ hs
  have hst : 47 ∉ stem name := by
    intro h
    rcases stem_spec name with ⟨-, -, e, h3, -⟩ | ⟨h3, -⟩
    · exact hs.2.1 (by rw [h3]; exact List.mem_append_left _ h)
    · exact hs.2.1 (by rw [← h3]; exact h)
  have hr : Splits (replaceExtension path ext) folder (stem name ++ ext) := by
    refine ⟨?_, ?_, hs.2.2⟩
    · unfold replaceExtension
      rw [h1, h2, List.append_assoc]
    · rw [List.mem_append, not_or]
      exact ⟨hst, he⟩
  obtain ⟨h3, -⟩ := splits_unique _ _ _ hr
  have hhead : name.head? ≠ some 47 := by
    intro h
    cases name with
    | nil => exact hn rfl
    | cons a t =>
      have := Option.some.inj h
      subst this
      exact hs.2.1 List.mem_cons_self
  unfold EncoderMain.besideOf EncoderMain.join EncoderMain.parentPath
  rw [h3, h2, if_neg hhead, hs.1]
  rcases hf with rfl | rfl | ⟨d, rfl, hd1, hd2⟩
  · simp
  · simp [List.dropWhile]
  · have hdw : ((d ++ [47]).reverse.dropWhile (fun b : UInt8 => decide (b = 47))).reverse = d := by
      rw [List.reverse_append]
      have := takeWhile_all (fun b : UInt8 => decide (b = 47)) [47] d.reverse (by simp) (fun y hy => by
        rw [List.head?_reverse] at hy
        simp only [decide_eq_false_iff_not]
        intro e
        subst e
        exact hd2 hy)
      rw [List.reverse_singleton, this.2, List.reverse_reverse]
    have hpp : (let folder := d ++ [(47 : UInt8)]
        let short := (folder.reverse.dropWhile (fun b : UInt8 => decide (b = 47))).reverse
        if short.isEmpty then folder.take 1 else short) = d := by
      simp only
      rw [hdw, if_neg (by simpa using hd1)]
    generalize (let folder := d ++ [(47 : UInt8)]
        let short := (folder.reverse.dropWhile (fun b : UInt8 => decide (b = 47))).reverse
        if short.isEmpty then folder.take 1 else short) = z at hpp
    subst hpp
    simp [hd1, hd2]

example : Neat (lit "a/b.wav") := ⟨lit "a/", lit "b.wav", ⟨by decide +kernel, by decide +kernel, Or.inr (by decide +kernel)⟩,
  by decide +kernel, Or.inr (Or.inr ⟨lit "a", by decide +kernel, by decide +kernel, by decide +kernel⟩)⟩

/-! ### Encoding the files again -/

/-- What becomes of perception `p` when the files are encoded again with settings `s` and `ts` ticks per second: it has a
channel for each channel of the sound file, and channel `i` gets bands for signal `i` of that file. -/
def Reencoded (parts : Pcm.Parts) (cfg : Pcm.Config) (ts : Nat) (wav : Wav.Parser) (p q : Perception) : Prop :=
  q.description = p.description ∧ q.perceptionUnitExponent = none ∧ q.channels.length = wav.numChannels ∧
  ∀ (i : Nat) (signal : List ℚ), wav.buffer[i]? = some signal → ∃ c new, q.channels[i]? = some c ∧
    Pcm.Bands parts cfg ts q.perceptionModality wav.sampleRate.toNat signal new ∧ c.bands = new ∧
    (∀ c0, p.channels[i]? = some c0 → c.description = c0.description ∧ c.gain = c0.gain ∧ c.bodyPartMask = c0.bodyPartMask) ∧
    (p.channels[i]? = none → c.description = lit "I'm a placeholder" ∧ c.gain = 1)

/-- **C101.** What the encoder makes of the two files, for any number of perceptions: each of them gets all signals. -/
theorem c101_encoded (env : Env) (tokens : List Str) (code : Int) (w : Output) (h : run env tokens = .ok (code, some w))
    (x : Experience) (hin : inputOf env tokens (valueOf tokens (lit "-f") (lit "--file")) = .ok (some x))
    (n : Str) (bytes : List UInt8) (ho : w.ohm = some (n, bytes)) (hn : Neat w.file) (hwav : getFileExt w.file = lit "wav")
    (hx : Describable (fileName w.file) x)
    (enc : EncoderMain.Env) (parts : EncoderMain.Settings → Pcm.Parts) (value : BitVec 32 → ℚ) (date : Str)
    (wav : Wav.Parser) (hv : ∀ p ∈ x.perceptions, ∀ c ∈ p.channels, value (env.bits c.gain) = c.gain ∧ c.bodyPartMask < 2 ^ 32)
    (hs : Sees enc parts value date w n bytes wav) (o : EncoderMain.Options) (s : EncoderMain.Settings)
    (hset : EncoderMain.settings o = .ok s) (hlim : 0 ≤ s.limit) (ts : Nat) (code' : Int) (y : Experience)
    (hy : EncoderMain.encodeFile enc o n { timescale := some ts } = .ok (some (code', y))) :
    code' = 0 ∧ y.perceptions.length = x.perceptions.length ∧
    ∀ (k : Nat) (p : Perception), x.perceptions[k]? = some p → ∃ q, y.perceptions[k]? = some q ∧
      Reencoded (parts s) ⟨s.limit, s.wavelet, s.vectorial⟩ ts wav p q := by
  obtain ⟨hname, ⟨pad, hsyn⟩, d, -, hload, -, hel⟩ := run_ohm env tokens code w h x hin n bytes ho hx
  have hrate : 0 < w.rate := ((c82_run env tokens code _ h).2.2 w rfl).2.1
  have hlit : lit ".ohm" = 46 :: lit "ohm" := by decide +kernel
  have hext : getFileExt n = lit "ohm" := by
    rw [hname]
    unfold replaceExtension getFileExt
    rw [if_pos (by rw [hlit]; simp), hlit, List.reverse_append, List.reverse_cons]
    have := (takeWhile_all (fun b : UInt8 => decide (b ≠ 46)) (lit "ohm").reverse
      ([46] ++ (folderPart w.file ++ stem (fileName w.file)).reverse) (by decide +kernel) (fun y hy => by
        have := Option.some.inj hy
        subst this
        rfl)).1
    rw [List.append_assoc, this, List.reverse_reverse]
  obtain ⟨hc0, d', x', h1, h2, h3, h4, h5⟩ := EncoderMain.c81_ohm enc o ts n hext code' y hy
  rw [hs.loads, hload, if_pos rfl] at h1
  have h1 := Option.some.inj h1
  subst h1
  have hnum : ∀ e ∈ d.elements, e.numChannels.toNat = e.channels.length := by
    intro e he
    rw [hel] at he
    obtain ⟨p, hp, rfl⟩ := List.mem_map.mp he
    obtain ⟨⟨-, -, g1, g2, -⟩, -⟩ := element_describes env.bits (fileName w.file) p (hx.channels p hp).2
    rw [g1, g2, Int.toNat_natCast]
  rw [hs.metadata, Ohm.loadMetadata_ok value date d _ hnum] at h2
  have h2 := Except.ok.inj h2
  have hxt : x'.timescale = some ts := by rw [← h2]
  have hxp : x'.perceptions = d.elements.mapIdx (Ohm.perceptionFrom value) := by rw [← h2]; rfl
  refine ⟨hc0, by rw [h3, hel, List.length_map], fun k p hp => ?_⟩
  have hpm := List.mem_of_getElem? hp
  have hek : d.elements[k]? = some (Ohm.elementOf env.bits (fileName w.file) p) := by rw [hel, List.getElem?_map, hp]; rfl
  obtain ⟨p', q, g1, g2, g3⟩ := h5 k _ hek
  rw [hxp, List.getElem?_mapIdx, hek] at g1
  have g1 := Option.some.inj g1
  refine ⟨q, g2, ?_⟩
  have hb : enc.beside n (Ohm.elementOf env.bits (fileName w.file) p).filename = w.file := by
    rw [hs.beside, hname]
    exact c101_beside w.file _ hn (by decide +kernel)
  unfold EncoderMain.Encoded at g3
  rw [hb, hwav] at g3
  have hk : EncoderMain.kindOf (lit "wav") = some .wav := by decide +kernel
  rw [hk] at g3
  have g4 := g3.2
  simp only at g4
  unfold EncoderMain.encodeKind at g4
  rw [hset] at g4
  have g4 := hs.encodes _ _ _ _ g4
  rw [hxt] at g4
  obtain ⟨⟨cs, hq⟩, h6, h7⟩ := Pcm.c80_channels (parts s) _ _ wav p' q hlim (by rw [hs.rate.1]; exact hrate)
    (by rw [hs.rate.1]; have := hs.rate.2; omega) (by rw [hs.channels.1, hs.channels.2]) g4
  have hch : p'.channels = p.channels.mapIdx Ohm.backChannel := by
    rw [← g1]
    unfold Ohm.perceptionFrom
    simp only
    rw [(element_describes env.bits (fileName w.file) p (hx.channels p hpm).2).2]
    refine List.ext_getElem? fun j => ?_
    rw [List.getElem?_mapIdx, List.getElem?_map, List.getElem?_mapIdx]
    cases hcj : p.channels[j]? with
    | none => rfl
    | some c =>
      obtain ⟨u1, u2⟩ := hv p hpm c (List.mem_of_getElem? hcj)
      simp only [Option.map_some, Option.some.injEq, Ohm.channelFrom, Ohm.backChannel]
      rw [u1, BitVec.toNat_ofNat, Nat.mod_eq_of_lt u2]
  refine ⟨?_, ?_, h6, fun i signal hi => ?_⟩
  · rw [hq, ← g1]
    rfl
  · rw [hq, ← g1]
    rfl
  · obtain ⟨new, h8, h9⟩ := h7 i signal hi
    have hmod : q.perceptionModality = p'.perceptionModality := by rw [hq]
    refine ⟨_, new, h9, by rw [hmod]; exact h8, ?_, ?_, ?_⟩
    · simp only
      rw [hch, List.getD_eq_getElem?_getD, List.getElem?_mapIdx]
      cases p.channels[i]? <;> rfl
    · intro c0 hc
      simp only
      rw [hch, List.getD_eq_getElem?_getD, List.getElem?_mapIdx, hc]
      exact ⟨rfl, rfl, rfl⟩
    · intro hc
      simp only
      rw [hch, List.getD_eq_getElem?_getD, List.getElem?_mapIdx, hc]
      exact ⟨rfl, rfl⟩

/-- **C101, the part that holds.** Of an experience with one perception, each channel gets its description, gain and mask
and bands for its own signal.  (Missing: more perceptions, and that the signals are as strong as before.) -/
theorem c101_again_partial (env : Env) (tokens : List Str) (code : Int) (w : Output) (h : run env tokens = .ok (code, some w))
    (x : Experience) (hin : inputOf env tokens (valueOf tokens (lit "-f") (lit "--file")) = .ok (some x))
    (n : Str) (bytes : List UInt8) (ho : w.ohm = some (n, bytes)) (hn : Neat w.file) (hwav : getFileExt w.file = lit "wav")
    (hx : Describable (fileName w.file) x)
    (enc : EncoderMain.Env) (parts : EncoderMain.Settings → Pcm.Parts) (value : BitVec 32 → ℚ) (date : Str)
    (wav : Wav.Parser) (hv : ∀ p ∈ x.perceptions, ∀ c ∈ p.channels, value (env.bits c.gain) = c.gain ∧ c.bodyPartMask < 2 ^ 32)
    (hs : Sees enc parts value date w n bytes wav) (o : EncoderMain.Options) (s : EncoderMain.Settings)
    (hset : EncoderMain.settings o = .ok s) (hlim : 0 ≤ s.limit) (ts : Nat) (code' : Int) (y : Experience)
    (hy : EncoderMain.encodeFile enc o n { timescale := some ts } = .ok (some (code', y)))
    (p : Perception) (hp : x.perceptions = [p]) :
    ∃ q, y.perceptions = [q] ∧ q.description = p.description ∧ q.channels.length = p.channels.length ∧
      ∀ (i : Nat) (c0 : Channel), p.channels[i]? = some c0 → ∃ signal c new, wav.buffer[i]? = some signal ∧
        q.channels[i]? = some c ∧ c.bands = new ∧
        Pcm.Bands (parts s) ⟨s.limit, s.wavelet, s.vectorial⟩ ts q.perceptionModality wav.sampleRate.toNat signal new ∧
        c.description = c0.description ∧ c.gain = c0.gain ∧ c.bodyPartMask = c0.bodyPartMask := by
  obtain ⟨-, hl, hk⟩ := c101_encoded env tokens code w h x hin n bytes ho hn hwav hx enc parts value date wav hv hs o s hset
    hlim ts code' y hy
  obtain ⟨q, hq, g1, -, g2, g3⟩ := hk 0 p (by rw [hp]; rfl)
  have hyl : y.perceptions.length = 1 := by rw [hl, hp]; rfl
  have hyp : y.perceptions = [q] := by
    obtain ⟨a, ha⟩ := List.length_eq_one_iff.mp hyl
    rw [ha] at hq ⊢
    have := Option.some.inj hq
    subst this
    rfl
  obtain ⟨-, ⟨pad, hsyn⟩, -⟩ := run_ohm env tokens code w h x hin n bytes ho hx
  obtain ⟨-, -, -, -, -, -, -, hsl, -⟩ := c82_signals env.parts x w.rate pad w.signals hsyn
  have hlen : wav.numChannels = p.channels.length := by
    rw [hs.channels.1, hsl, hp]
    unfold channelsOf
    simp
  refine ⟨q, hyp, g1, by rw [g2, hlen], fun i c0 hc => ?_⟩
  have hi : i < wav.buffer.length := by
    rw [hs.channels.2, ← hs.channels.1, hlen]
    exact (List.getElem?_eq_some_iff.mp hc).1
  obtain ⟨c, new, k1, k2, k3, k4, -⟩ := g3 i _ (List.getElem?_eq_getElem hi)
  exact ⟨_, c, new, List.getElem?_eq_getElem hi, k1, k3, k2, k4 c0 hc⟩

/-- **C101, what does not hold.** With two perceptions, each element of the OHM file names the sound file with the
signals of both: the first channel of the second perception gets the first signal, which is that of the first
perception, and its own signal goes to a channel that was not there. -/
theorem c101_two_negation (env : Env) (tokens : List Str) (code : Int) (w : Output) (h : run env tokens = .ok (code, some w))
    (x : Experience) (hin : inputOf env tokens (valueOf tokens (lit "-f") (lit "--file")) = .ok (some x))
    (n : Str) (bytes : List UInt8) (ho : w.ohm = some (n, bytes)) (hn : Neat w.file) (hwav : getFileExt w.file = lit "wav")
    (hx : Describable (fileName w.file) x)
    (enc : EncoderMain.Env) (parts : EncoderMain.Settings → Pcm.Parts) (value : BitVec 32 → ℚ) (date : Str)
    (wav : Wav.Parser) (hv : ∀ p ∈ x.perceptions, ∀ c ∈ p.channels, value (env.bits c.gain) = c.gain ∧ c.bodyPartMask < 2 ^ 32)
    (hs : Sees enc parts value date w n bytes wav) (o : EncoderMain.Options) (s : EncoderMain.Settings)
    (hset : EncoderMain.settings o = .ok s) (hlim : 0 ≤ s.limit) (ts : Nat) (code' : Int) (y : Experience)
    (hy : EncoderMain.encodeFile enc o n { timescale := some ts } = .ok (some (code', y)))
    (p1 p2 : Perception) (c1 c2 : Channel) (hp : x.perceptions = [p1, p2]) (hp1 : p1.channels = [c1]) (hp2 : p2.channels = [c2]) :
    ∃ q d1 d2 signal1 signal2 new1 new2, y.perceptions[1]? = some q ∧ q.description = p2.description ∧ q.channels = [d1, d2] ∧
      wav.buffer = [signal1, signal2] ∧
      d1.description = c2.description ∧ d1.bands = new1 ∧
      Pcm.Bands (parts s) ⟨s.limit, s.wavelet, s.vectorial⟩ ts q.perceptionModality wav.sampleRate.toNat signal1 new1 ∧
      d2.description = lit "I'm a placeholder" ∧ d2.bands = new2 ∧
      Pcm.Bands (parts s) ⟨s.limit, s.wavelet, s.vectorial⟩ ts q.perceptionModality wav.sampleRate.toNat signal2 new2 := by
  obtain ⟨-, hl, hk⟩ := c101_encoded env tokens code w h x hin n bytes ho hn hwav hx enc parts value date wav hv hs o s hset
    hlim ts code' y hy
  obtain ⟨q, hq, g1, -, g2, g3⟩ := hk 1 p2 (by rw [hp]; rfl)
  obtain ⟨-, ⟨pad, hsyn⟩, -⟩ := run_ohm env tokens code w h x hin n bytes ho hx
  obtain ⟨-, -, -, -, -, -, -, hsl, -⟩ := c82_signals env.parts x w.rate pad w.signals hsyn
  have hlen : w.signals.length = 2 := by
    rw [hsl, hp]
    unfold channelsOf
    simp [hp1, hp2]
  rw [hs.channels.1, hlen] at g2
  have hb := hs.channels.2
  rw [hlen] at hb
  obtain ⟨s1, s2, hbuf⟩ := List.length_eq_two.mp hb
  obtain ⟨d1, d2, hch⟩ := List.length_eq_two.mp g2
  obtain ⟨c, new1, k1, k2, k3, k4, -⟩ := g3 0 s1 (by rw [hbuf]; rfl)
  obtain ⟨c', new2, m1, m2, m3, -, m4⟩ := g3 1 s2 (by rw [hbuf]; rfl)
  rw [hch] at k1 m1
  have k1 := Option.some.inj k1
  have m1 := Option.some.inj m1
  subst k1 m1
  exact ⟨q, d1, d2, s1, s2, new1, new2, hq, g1, hch, hbuf, (k4 c2 (by rw [hp2]; rfl)).1, k3, k2,
    (m4 (by rw [hp2]; rfl)).1, m3, m2⟩

/-- **C101, what does not hold.** The signals in the sound file are already as strong as the gains say, and the gains are
in the OHM file: when the files are encoded and played again, each channel is played with the gain a second time. -/
theorem c101_gain_negation (env : Env) (tokens : List Str) (code : Int) (w : Output) (h : run env tokens = .ok (code, some w))
    (x : Experience) (hin : inputOf env tokens (valueOf tokens (lit "-f") (lit "--file")) = .ok (some x))
    (n : Str) (bytes : List UInt8) (ho : w.ohm = some (n, bytes)) (hn : Neat w.file) (hwav : getFileExt w.file = lit "wav")
    (hx : Describable (fileName w.file) x)
    (enc : EncoderMain.Env) (parts : EncoderMain.Settings → Pcm.Parts) (value : BitVec 32 → ℚ) (date : Str)
    (wav : Wav.Parser) (hv : ∀ p ∈ x.perceptions, ∀ c ∈ p.channels, value (env.bits c.gain) = c.gain ∧ c.bodyPartMask < 2 ^ 32)
    (hs : Sees enc parts value date w n bytes wav) (o : EncoderMain.Options) (s : EncoderMain.Settings)
    (hset : EncoderMain.settings o = .ok s) (hlim : 0 ≤ s.limit) (ts : Nat) (code' : Int) (y : Experience)
    (hy : EncoderMain.encodeFile enc o n { timescale := some ts } = .ok (some (code', y)))
    (p : Perception) (c0 : Channel) (hp : x.perceptions = [p]) (hc : p.channels = [c0]) :
    ∃ q c signal ticks m pad pc, y.perceptions = [q] ∧ q.channels = [c] ∧ w.signals = [signal] ∧
      channelsOf x.linearize.perceptions = [pc] ∧ Played env.parts ticks m w.rate pad pc signal ∧
      pc.2.gain = c0.gain ∧ factor q c = (c0.gain : ℝ) := by
  obtain ⟨-, hl, hk⟩ := c101_encoded env tokens code w h x hin n bytes ho hn hwav hx enc parts value date wav hv hs o s hset
    hlim ts code' y hy
  obtain ⟨q, hq, g1, gu, g2, g3⟩ := hk 0 p (by rw [hp]; rfl)
  have hyl : y.perceptions.length = 1 := by rw [hl, hp]; rfl
  have hyp : y.perceptions = [q] := by
    obtain ⟨a, ha⟩ := List.length_eq_one_iff.mp hyl
    rw [ha] at hq ⊢
    have := Option.some.inj hq
    subst this
    rfl
  obtain ⟨-, ⟨pad, hsyn⟩, -⟩ := run_ohm env tokens code w h x hin n bytes ho hx
  obtain ⟨ticks, -, m, -, -, -, hf⟩ := c82_content env.parts x w.rate pad w.signals hsyn
  have hpc : ∃ pc, channelsOf x.linearize.perceptions = [pc] ∧ pc.2.gain = c0.gain := by
    unfold Experience.linearize channelsOf Perception.linearizeLibrary
    rw [hp]
    simp only [List.map_cons, List.map_nil, hc]
    exact ⟨_, rfl, rfl⟩
  obtain ⟨pc, h1, h2⟩ := hpc
  rw [h1] at hf
  obtain ⟨signal, l, h3, h4, h5⟩ := List.forall₂_cons_left_iff.mp hf
  have := List.forall₂_nil_left_iff.mp h4
  subst this
  rw [hs.channels.1, h5] at g2
  obtain ⟨c, hqc⟩ := List.length_eq_one_iff.mp g2
  have hb := hs.channels.2
  rw [h5] at hb
  obtain ⟨s1, hbuf⟩ := List.length_eq_one_iff.mp hb
  obtain ⟨c', new, k1, -, -, k4, -⟩ := g3 0 s1 (by rw [hbuf]; rfl)
  rw [hqc] at k1
  have k1 := Option.some.inj k1
  subst k1
  refine ⟨q, c, signal, ticks, m, pad, pc, hyp, hqc, h5, h1, h3, h2, ?_⟩
  unfold factor
  rw [gu, (k4 c0 (by rw [hc]; rfl)).2.1]
  simp

/-! ### An example -/

/-- Two perceptions with a channel each. -/
def sampleExperience : Experience :=
  { version := lit "2023", perceptions := [
    { description := lit "a", channels := [{ description := lit "left", gain := 1 / 2 }] },
    { description := lit "b", channels := [{ description := lit "right", gain := 1 }] }] }

def sampleTokens : List Str := [lit "Synthesizer", lit "-f", lit "a.hjif", lit "-o", lit "d/x.wav", lit "--generate_ohm"]

/-- The bits of the numbers 1/2 and 1. -/
def sampleBits (x : ℚ) : BitVec 32 := if x = 1 / 2 then 0x3f000000 else 0x3f800000
def sampleValue (b : BitVec 32) : ℚ := if b = 0x3f000000 then 1 / 2 else 1

def synthEnv (parts : Parts) : Env where
  isFile _ := true
  readStream _ := .ok none
  loadJson _ := .ok sampleExperience
  bits := sampleBits
  parts := parts

def sampleOhm : List UInt8 :=
  ((Ohm.extractMetadata sampleBits (lit "x.wav") sampleExperience).toOption.bind (fun d => (Ohm.write d).toOption)).getD []

def sampleOutput : Output := ⟨lit "d/x.wav", 8000, [[], []], some (lit "d/x.ohm", sampleOhm)⟩

theorem of_toOption {α : Type} {e : Except Err α} {a : α} (h : e.toOption = some a) : e = .ok a := by
  cases e with
  | error => cases h
  | ok b => exact congrArg _ (Option.some.inj h)

theorem sample_describable : Describable (lit "x.wav") sampleExperience where
  version := Or.inr ⟨2023, by decide +kernel⟩
  description := by unfold Ohm.Fits; decide +kernel
  file := by unfold Ohm.Fits; decide +kernel
  perceptions := by decide
  channels := by unfold Ohm.Fits; decide +kernel
  texts := by unfold Ohm.Fits; decide +kernel

theorem sample_run (parts : Parts) : run (synthEnv parts) sampleTokens = .ok (0, some sampleOutput) := by
  have hc : sampleCount 0 8000 0 1000 = .ok 0 := of_toOption (by decide +kernel)
  have hl : sampleExperience.linearize.timeLength = .ok 0 := rfl
  have hp : ∀ p d g, (playChannel parts 0 8000 0 1000 (p, { description := d, gain := g })) = .ok [] := by
    intro p d g
    unfold playChannel
    rw [hc]
    rfl
  have hs : synthesize parts sampleExperience 8000 0 = .ok [[], []] := by
    unfold synthesize
    rw [hl]
    simp only [bind, Except.bind, playFile, sampleExperience, Experience.linearize, Perception.linearizeLibrary, List.map_cons,
      List.map_nil, Option.getD_some, mapE, decodePerception, decodeChannel, pure, Except.pure, channelsOf, List.flatMap_cons,
      List.flatMap_nil, List.append_nil, List.cons_append, List.nil_append, hp]
    rfl
  have h1 : (cmdOptionExists sampleTokens (lit "-h") || cmdOptionExists sampleTokens (lit "--help")) = false := by decide +kernel
  have h2 : (valueOf sampleTokens (lit "-f") (lit "--file")).isEmpty = false := by decide +kernel
  have h3 : rateOf sampleTokens = .ok (some 8000) := of_toOption (by decide +kernel)
  have h4 : padOf sampleTokens = .ok 0 := of_toOption (by decide +kernel)
  have h5 : (cmdOptionExists sampleTokens (lit "-b") || cmdOptionExists sampleTokens (lit "--binary")) = false := by decide +kernel
  have h6 : outputName sampleTokens = lit "d/x.wav" := by decide +kernel
  have h7 : cmdOptionExists sampleTokens (lit "--generate_ohm") = true := by decide +kernel
  have h8 : fileName (lit "d/x.wav") = lit "x.wav" := by decide +kernel
  have h9 : replaceExtension (lit "d/x.wav") (lit ".ohm") = lit "d/x.ohm" := by decide +kernel
  obtain ⟨d, bytes, g1, g2, -⟩ := describable_written _ _ _ sample_describable
  have hb : sampleOhm = bytes := by
    unfold sampleOhm
    rw [g1]
    change (Ohm.write d).toOption.getD [] = _
    rw [g2]
    rfl
  have ho : ohmFile sampleBits sampleTokens sampleExperience.linearize = .ok (some (lit "d/x.ohm", sampleOhm)) := by
    unfold ohmFile
    rw [if_pos h7, h6, h8, extract_linearize, g1]
    change (Ohm.write d).bind _ = _
    rw [g2, h9, hb]
    rfl
  have hi : inputOf (synthEnv parts) sampleTokens (valueOf sampleTokens (lit "-f") (lit "--file")) = .ok (some sampleExperience) := by
    unfold inputOf
    rw [h5]
    rfl
  unfold run
  rw [h1]
  simp only [Bool.false_eq_true, if_false]
  rw [h2]
  rw [if_neg (by simp [synthEnv]), h3]
  simp only [bind, Except.bind]
  rw [h4]
  simp only
  rw [hi]
  simp only
  rw [show (synthEnv parts).parts = parts from rfl, hs]
  simp only
  rw [show (synthEnv parts).bits = sampleBits from rfl, ho, h6]
  rfl

/-- The parser of the sound file. -/
def sampleWav : Wav.Parser := ⟨8000, 2, 0, [[], []]⟩

/-- An encoder that keeps low frequencies as they are and makes no wavelets. -/
def samplePcm : EncoderMain.Settings → Pcm.Parts := fun _ => ⟨fun s _ => s, fun _ n => .ok (List.replicate n 0), fun _ => .ok none⟩

def sampleEnc : EncoderMain.Env where
  isFile _ := true
  stod _ := .ok 100
  loadOhm _ := if (Ohm.load sampleOhm {}).1 then some (Ohm.load sampleOhm {}).2 else none
  metadata := Ohm.loadMetadata sampleValue []
  beside := EncoderMain.besideOf
  ahap _ _ _ := .ok none
  ivs _ _ _ := .ok none
  wav _ s ts p := match Pcm.encode (samplePcm s) ⟨s.limit, s.wavelet, s.vectorial⟩ ts (some sampleWav) p with
    | .ok (0, q) => .ok (some q)
    | .ok _ => .ok none
    | .error e => .error e
  loadJson _ x := .ok x

/-- The files of this example are encoded as `c101_two_negation` says. -/
example (parts : Parts) : run (synthEnv parts) sampleTokens = .ok (0, some sampleOutput) ∧
    Describable (fileName sampleOutput.file) sampleExperience ∧ Neat sampleOutput.file ∧
    getFileExt sampleOutput.file = lit "wav" ∧
    (∀ p ∈ sampleExperience.perceptions, ∀ c ∈ p.channels, sampleValue (sampleBits c.gain) = c.gain ∧ c.bodyPartMask < 2 ^ 32) ∧
    Sees sampleEnc samplePcm sampleValue [] sampleOutput (lit "d/x.ohm") sampleOhm sampleWav ∧
    ∃ y, EncoderMain.encodeFile sampleEnc ⟨none, none, none, 0, true, true⟩ (lit "d/x.ohm") { timescale := some 1000 } =
      .ok (some (0, y)) ∧ y.perceptions.map (fun p => p.channels.map (fun c => c.description)) =
        [[lit "left", lit "I'm a placeholder"], [lit "right", lit "I'm a placeholder"]] := by
  have h8 : fileName sampleOutput.file = lit "x.wav" := by decide +kernel
  refine ⟨sample_run parts, by rw [h8]; exact sample_describable, ?_, by decide +kernel, by decide +kernel, ?_, ?_⟩
  · exact ⟨lit "d/", lit "x.wav", ⟨by decide +kernel, by decide +kernel, Or.inr (by decide +kernel)⟩,
      by decide +kernel, Or.inr (Or.inr ⟨lit "d", by decide +kernel, by decide +kernel, by decide +kernel⟩)⟩
  · refine ⟨rfl, rfl, rfl, ?_, ⟨rfl, by decide +kernel⟩, ⟨rfl, rfl⟩⟩
    intro s ts p q h
    unfold sampleEnc at h
    simp only at h
    split at h
    · rename_i r hr
      rw [hr, Option.some.inj (Except.ok.inj h)]
    · cases h
    · cases h
  · have h : (match EncoderMain.encodeFile sampleEnc ⟨none, none, none, 0, true, true⟩ (lit "d/x.ohm") { timescale := some 1000 } with
        | .ok (some (0, y)) => decide (y.perceptions.map (fun p => p.channels.map (fun c => c.description)) =
          [[lit "left", lit "I'm a placeholder"], [lit "right", lit "I'm a placeholder"]])
        | _ => false) = true := by decide +kernel
    split at h
    · rename_i y hy
      exact ⟨y, hy, by simpa using h⟩
    · cases h

end Haptics.SynthMain
