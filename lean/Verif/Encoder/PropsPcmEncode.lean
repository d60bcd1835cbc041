import Verif.Encoder.PropsPcmCurve
import Verif.Encoder.SpecPcmEncode
import Verif.Tools.PropsWav

/-! C80: encoding of whole WAV files. -/

namespace Haptics.Pcm
open Haptics Haptics.Ahap

theorem subtract_ok {l m r : List ℚ} (h : subtract l m = .ok r) : Minus l m r := by
  induction l generalizing m r with
  | nil =>
    have := Except.ok.inj h
    subst this
    exact ⟨rfl, fun i x h => by simp at h⟩
  | cons a l ih =>
    cases m with
    | nil => cases h
    | cons b m =>
      rw [subtract] at h
      change (Except.bind (subtract l m) _) = _ at h
      cases hv : subtract l m with
      | error e => rw [hv] at h; cases h
      | ok s =>
        rw [hv] at h
        have := Except.ok.inj h
        subst this
        obtain ⟨h1, h2⟩ := ih hv
        refine ⟨by rw [List.length_cons, List.length_cons, h1], fun i x hx => ?_⟩
        cases i with
        | zero =>
          have := Option.some.inj hx
          subst this
          exact ⟨b, rfl, rfl⟩
        | succ i => exact h2 i x hx

theorem subtract_total (l m : List ℚ) (h : l.length ≤ m.length) : ∃ r, subtract l m = .ok r := by
  induction l generalizing m with
  | nil => exact ⟨[], rfl⟩
  | cons a l ih =>
    cases m with
    | nil => simp at h
    | cons b m =>
      obtain ⟨r, hr⟩ := ih m (by simpa using h)
      exact ⟨fl64 (a - b) :: r, by rw [subtract, hr]; rfl⟩

/-! ### One channel -/

/-- The curve when one is wanted. -/
theorem curveTypeFor_eq (modality : Nat) : curveTypeFor modality = connection modality := by
  unfold curveTypeFor connection
  split
  · rename_i h; rcases h with rfl | rfl <;> rfl
  · split
    · rename_i h; rcases h with rfl | rfl <;> rfl
    · split <;> first | rfl | omega

theorem curvePart_some {parts : Parts} {cfg : Config} {ts modality rate : Nat} {signal s : List ℚ} {r : Band × Bool}
    (hv : cfg.vectorialEnabled = true) (hl : 0 < cfg.curveFrequencyLimit ∨ cfg.waveletEnabled = false ∧ cfg.curveFrequencyLimit = 0)
    (hs : s = if 0 < cfg.curveFrequencyLimit then parts.lowPass signal cfg.curveFrequencyLimit else signal) (hr : 0 < rate)
    (h : curvePart parts cfg ts modality rate signal = .ok r) : r.2 = true ∧ CurveOf cfg ts modality rate s r.1 := by
  have hpos : 0 < (if 0 < cfg.curveFrequencyLimit then cfg.curveFrequencyLimit else (rate : ℚ)) := by
    split
    · assumption
    · exact_mod_cast hr
  have hf : (if ¬ cfg.waveletEnabled = true ∧ cfg.curveFrequencyLimit = 0 then signal
      else if cfg.curveFrequencyLimit > 0 then parts.lowPass signal cfg.curveFrequencyLimit
      else signal.map (fun _ => 0)) = s := by
    rw [hs]
    rcases hl with hl | ⟨h1, h2⟩
    · rw [if_neg (fun h => hl.ne' h.2), if_pos hl, if_pos hl]
    · rw [if_pos ⟨by rw [h1]; simp, h2⟩, if_neg (by rw [h2]; simp)]
  unfold curvePart at h
  rw [if_pos ⟨hv, hl.imp id (fun h => by rw [h.1]; simp)⟩] at h
  simp only [gt_iff_lt] at h hf
  rw [hf] at h
  unfold CurveOf
  change (Except.bind (convertToCurveBand (localExtrema s true) rate
    (if 0 < cfg.curveFrequencyLimit then cfg.curveFrequencyLimit else (rate : ℚ)) ts) _) = _ at h
  generalize (if 0 < cfg.curveFrequencyLimit then cfg.curveFrequencyLimit else (rate : ℚ)) = limit at *
  cases hc : convertToCurveBand (localExtrema s true) rate limit ts with
  | error e => rw [hc] at h; cases h
  | ok b =>
    rw [hc] at h
    cases b with
    | none =>
      unfold convertToCurveBand at hc
      rw [if_neg (not_le.mpr hpos)] at hc
      change (Except.bind (castInt limit) _) = _ at hc
      cases h1 : castInt limit with
      | error e => rw [h1] at hc; cases hc
      | ok u =>
        rw [h1] at hc
        change (Except.bind (keyframesLoop ts rate (localExtrema s true) (-1) []) _) = _ at hc
        cases h2 : keyframesLoop ts rate (localExtrema s true) (-1) [] with
        | error e => rw [h2] at hc; cases hc
        | ok k => rw [h2] at hc; cases hc
    | some b =>
      have := Except.ok.inj h
      subst this
      exact ⟨rfl, b, rfl, by rw [curveTypeFor_eq]⟩

theorem curvePart_none {parts : Parts} {cfg : Config} {ts modality rate : Nat} {signal : List ℚ}
    (hv : cfg.vectorialEnabled = false ∨ cfg.curveFrequencyLimit = 0 ∧ cfg.waveletEnabled = true) :
    curvePart parts cfg ts modality rate signal = .ok ({}, false) := by
  unfold curvePart
  rw [if_neg]
  rintro ⟨h1, h2⟩
  rcases hv with hv | ⟨h3, h4⟩
  · rw [hv] at h1; cases h1
  · rw [h3, h4] at h2
    simp at h2

theorem encodeChannel_ok {parts : Parts} {cfg : Config} {ts modality rate count : Nat} {signal : List ℚ} {c c' : Channel}
    (hl : 0 ≤ cfg.curveFrequencyLimit) (hr : 0 < rate)
    (h : encodeChannel parts cfg ts modality rate count signal c = .ok c') :
    ∃ new, Bands parts cfg ts modality rate signal new ∧ c' = { c with
      bands := c.bands ++ new, frequencySampling := some rate, sampleCount := some count } := by
  unfold encodeChannel at h
  change (Except.bind (curvePart parts cfg ts modality rate signal) _) = _ at h
  cases hc : curvePart parts cfg ts modality rate signal with
  | error e => rw [hc] at h; cases h
  | ok r =>
    rw [hc] at h
    change (Except.bind (waveletPart parts cfg signal r.1) _) = _ at h
    cases hw : waveletPart parts cfg signal r.1 with
    | error e => rw [hw] at h; cases h
    | ok w =>
      rw [hw] at h
      have h := Except.ok.inj h
      refine ⟨(if r.2 = true then [r.1] else []) ++ w.toList, ?_, by rw [← h, ← List.append_assoc]⟩
      unfold waveletPart residual at hw
      cases hv : cfg.vectorialEnabled <;> cases hwe : cfg.waveletEnabled
      · rw [curvePart_none (Or.inl hv)] at hc
        have hc := Except.ok.inj hc
        subst hc
        simp only [hwe, Bool.false_eq_true, if_false] at hw
        have hw := Except.ok.inj hw
        subst hw
        exact Bands.none hv hwe
      · rw [curvePart_none (Or.inl hv)] at hc
        have hc := Except.ok.inj hc
        subst hc
        simp only [hwe, if_true, hv, Bool.false_eq_true, if_false, gt_iff_lt] at hw
        rcases hl.lt_or_eq with hl | hl
        · rw [if_pos hl] at hw
          change (Except.bind (subtract signal _) _) = _ at hw
          cases hs : subtract signal (parts.lowPass signal cfg.curveFrequencyLimit) with
          | error e => rw [hs] at hw; cases hw
          | ok s =>
            rw [hs] at hw
            exact Bands.high s w hv hwe hl (subtract_ok hs) hw
        · rw [if_neg (by rw [← hl]; simp)] at hw
          exact Bands.wavelet w hwe hl.symm hw
      · simp only [hwe, Bool.false_eq_true, if_false] at hw
        have hw := Except.ok.inj hw
        subst hw
        rcases hl.lt_or_eq with hl | hl
        · obtain ⟨h1, h2⟩ := curvePart_some hv (Or.inl hl) rfl hr hc
          rw [h1]
          rw [if_pos hl] at h2
          exact Bands.low r.1 hv hwe hl h2
        · obtain ⟨h1, h2⟩ := curvePart_some hv (Or.inr ⟨hwe, hl.symm⟩) rfl hr hc
          rw [h1]
          rw [if_neg (by rw [← hl]; simp)] at h2
          exact Bands.curve r.1 hv hwe hl.symm h2
      · simp only [hwe, if_true, hv, gt_iff_lt] at hw
        rcases hl.lt_or_eq with hl | hl
        · obtain ⟨h1, h2⟩ := curvePart_some hv (Or.inl hl) rfl hr hc
          rw [h1]
          rw [if_pos hl] at h2 hw
          cases he : parts.evaluate r.1 signal.length with
          | error e => rw [he] at hw; cases hw
          | ok e =>
            rw [he] at hw
            change (Except.bind (subtract signal e) _) = _ at hw
            cases hs : subtract signal e with
            | error e => rw [hs] at hw; cases hw
            | ok s =>
              rw [hs] at hw
              exact Bands.both r.1 e s w hv hwe hl h2 he (subtract_ok hs) hw
        · rw [curvePart_none (Or.inr ⟨hl.symm, hwe⟩)] at hc
          have hc := Except.ok.inj hc
          subst hc
          rw [if_neg (by rw [← hl]; simp)] at hw
          exact Bands.wavelet w hwe hl.symm hw

/-! ### All channels -/

theorem channelsLoop_ok {parts : Parts} {cfg : Config} {ts rate count : Nat} (l : List (List ℚ)) {i : Nat}
    {p q : Perception} (h : channelsLoop parts cfg ts rate count l i p = .ok q) :
    (∃ cs, q = { p with channels := cs }) ∧ q.channels.length = p.channels.length ∧ (l = [] ∨ i + l.length ≤ p.channels.length) ∧
    (∀ j, j < i → q.channels[j]? = p.channels[j]?) ∧
    ∀ (j : Nat) (signal : List ℚ), l[j]? = some signal → ∃ c c', p.channels[i + j]? = some c ∧
      q.channels[i + j]? = some c' ∧ encodeChannel parts cfg ts p.perceptionModality rate count signal c = .ok c' := by
  induction l generalizing i p with
  | nil =>
    have := Except.ok.inj h
    subst this
    exact ⟨⟨p.channels, rfl⟩, rfl, Or.inl rfl, fun _ _ => rfl, fun j s h => by simp at h⟩
  | cons s t ih =>
    rw [channelsLoop] at h
    cases hc : p.channels[i]? with
    | none => rw [hc] at h; cases h
    | some c =>
      rw [hc] at h
      change (Except.bind (encodeChannel parts cfg ts p.perceptionModality rate count s c) _) = _ at h
      cases he : encodeChannel parts cfg ts p.perceptionModality rate count s c with
      | error e => rw [he] at h; cases h
      | ok c' =>
        rw [he] at h
        have hi : i < p.channels.length := (List.getElem?_eq_some_iff.mp hc).1
        obtain ⟨⟨cs, h1⟩, h2, h3, h4, h5⟩ := ih h
        simp only [List.length_set] at h2 h3
        refine ⟨⟨cs, h1⟩, h2, Or.inr ?_, ?_, ?_⟩
        · rcases h3 with rfl | h3
          · simp only [List.length_cons, List.length_nil]
            omega
          · rw [List.length_cons]; omega
        · intro j hj
          rw [h4 j (by omega)]
          simp only
          rw [List.getElem?_set_ne (by omega)]
        · intro j signal hj
          cases j with
          | zero =>
            have := Option.some.inj hj
            subst this
            refine ⟨c, c', hc, ?_, he⟩
            rw [Nat.add_zero, h4 i (by omega)]
            simp only
            rw [List.getElem?_set_self hi]
          | succ j =>
            obtain ⟨d, d', g1, g2, g3⟩ := h5 j signal hj
            simp only at g1 g3
            rw [List.getElem?_set_ne (by omega), show i + 1 + j = i + (j + 1) by omega] at g1
            rw [show i + 1 + j = i + (j + 1) by omega] at g2
            exact ⟨d, d', g1, g2, g3⟩

/-- **C80.** When a file was loaded and encoding reports success, the perception has one channel for each channel of the
file: those it had before and placeholders for the others, each with the bands of its signal added at the end and with
the rate and number of samples of the file.  Nothing else of the perception changes. -/
theorem c80_channels (parts : Parts) (cfg : Config) (ts : Nat) (w : Wav.Parser) (out q : Perception)
    (hl : 0 ≤ cfg.curveFrequencyLimit) (hr : 0 < w.sampleRate) (hr2 : w.sampleRate < 2 ^ 32)
    (hb : w.buffer.length = w.numChannels) (h : encode parts cfg ts (some w) out = .ok (0, q)) :
    (∃ cs, q = { out with channels := cs }) ∧ q.channels.length = w.numChannels ∧
    ∀ (i : Nat) (signal : List ℚ), w.buffer[i]? = some signal → ∃ new,
      Bands parts cfg ts out.perceptionModality w.sampleRate.toNat signal new ∧
      q.channels[i]? = some { out.channels.getD i (placeholder i) with
        bands := (out.channels.getD i (placeholder i)).bands ++ new
        frequencySampling := some w.sampleRate.toNat
        sampleCount := some (w.numSamples / w.numChannels % 2 ^ 32) } := by
  unfold encode at h
  simp only [Option.getD_some, gt_iff_lt] at h
  by_cases hn : w.numChannels < out.channels.length
  · rw [if_pos hn] at h
    cases h
  · rw [if_neg hn, Int.emod_eq_of_lt hr.le hr2] at h
    generalize hnew : (List.range (w.numChannels - out.channels.length)).map
      (fun k => placeholder (out.channels.length + k)) = new at h
    change (Except.bind (channelsLoop parts cfg ts w.sampleRate.toNat (w.numSamples / w.numChannels % 2 ^ 32) w.buffer 0
      { out with channels := out.channels ++ new }) _) = _ at h
    cases hc : channelsLoop parts cfg ts w.sampleRate.toNat (w.numSamples / w.numChannels % 2 ^ 32) w.buffer 0
      { out with channels := out.channels ++ new } with
    | error e => rw [hc] at h; cases h
    | ok q' =>
      rw [hc] at h
      have := (Prod.mk.inj (Except.ok.inj h)).2
      subst this
      obtain ⟨⟨cs, h1⟩, h2, h3, h4, h5⟩ := channelsLoop_ok w.buffer hc
      have hlen : (out.channels ++ new).length = w.numChannels := by
        rw [← hnew, List.length_append, List.length_map, List.length_range]
        omega
      refine ⟨⟨cs, h1⟩, h2.trans hlen, fun i signal hi => ?_⟩
      obtain ⟨c, c', g1, g2, g3⟩ := h5 i signal hi
      rw [Nat.zero_add] at g1 g2
      have e : c = out.channels.getD i (placeholder i) := by
        simp only at g1
        by_cases hlt : i < out.channels.length
        · rw [List.getElem?_append_left hlt] at g1
          rw [List.getD_eq_getElem?_getD, g1]
          rfl
        · rw [List.getElem?_append_right (by omega), ← hnew, List.getElem?_map] at g1
          obtain ⟨k, hk, rfl⟩ := Option.map_eq_some_iff.mp g1
          rw [List.getD_eq_getElem?_getD, List.getElem?_eq_none (by omega), Option.getD_none]
          have := (List.getElem?_eq_some_iff.mp hk).2
          rw [List.getElem_range] at this
          rw [← this, show out.channels.length + (i - out.channels.length) = i by omega]
      obtain ⟨nb, k1, k2⟩ := encodeChannel_ok hl (by omega) g3
      exact ⟨nb, k1, by rw [g2, k2, e]⟩

/-- **C80.** A perception with more channels than the file is left as it is, and failure is reported. -/
theorem c80_failure (parts : Parts) (cfg : Config) (ts : Nat) (w : Wav.Parser) (out : Perception)
    (h : w.numChannels < out.channels.length) : encode parts cfg ts (some w) out = .ok (1, out) := by
  unfold encode
  simp only [Option.getD_some, gt_iff_lt]
  rw [if_pos h]

/-- **C80, what does not hold.** A file that cannot be opened is not noticed: with a perception without channels, as the
command line tool uses it, success is reported and nothing is encoded. -/
theorem c80_unreadable_negation (parts : Parts) (cfg : Config) (ts : Nat) (out : Perception) (h : out.channels = []) :
    encode parts cfg ts none out = .ok (0, out) := by
  unfold encode
  simp only [Option.getD_none, h, List.length_nil]
  cases out
  simp only at h
  subst h
  rfl

/-! ### When it succeeds -/

theorem keyframesLoop_ok (ts : Nat) (rate : ℚ) (l : List Point) (hf : ∀ p ∈ l, ∃ t, tick ts rate p.1 = .ok t)
    (last : Int) (ks : List Keyframe) : ∃ r, keyframesLoop ts rate l last ks = .ok r := by
  induction l generalizing last ks with
  | nil => exact ⟨ks, rfl⟩
  | cons p t ih =>
    obtain ⟨x, hx⟩ := hf p List.mem_cons_self
    obtain ⟨r, hr⟩ := ih (fun q hq => hf q (List.mem_cons_of_mem _ hq)) x (addPoint x last p.2 ks)
    exact ⟨r, by rw [keyframesLoop, hx]; exact hr⟩

theorem extrema_index (s : List ℚ) : ∀ p ∈ localExtrema s true, 0 ≤ p.1 ∧ p.1 < s.length := by
  match s with
  | [] => intro p hp; cases hp
  | [a] =>
    intro p hp
    rw [localExtrema] at hp
    simp only [if_true, List.mem_cons, List.not_mem_nil, or_false, or_self] at hp
    subst hp
    simp
  | a :: b :: l =>
    intro p hp
    obtain ⟨k, h1, h2⟩ := (c41_points (a :: b :: l) (by simp)).2.1 p hp
    have := (List.getElem?_eq_some_iff.mp h2).1
    rw [h1]
    exact ⟨by omega, by exact_mod_cast this⟩

theorem convert_ok (ts : Nat) (rate limit : ℚ) (hr : 0 < rate) (h2 : limit ≤ 2 ^ 30) (h1 : 0 < limit)
    (s : List ℚ) (n : Nat) (hn : s.length ≤ n) (h3 : ts * n < 2 ^ 53) (h4 : ts * n / rate ≤ (2 : ℚ) ^ 29) :
    ∃ b, convertToCurveBand (localExtrema s true) rate limit ts = .ok (some b) := by
  obtain ⟨k, hk⟩ := keyframesLoop_ok ts rate (localExtrema s true) (fun p hp => by
    obtain ⟨g1, g2⟩ := extrema_index s p hp
    have g3 : p.1 ≤ n := by omega
    have g4 : (ts * p.1 : Int) ≤ ts * n := Int.mul_le_mul_of_nonneg_left g3 (by omega)
    have g5 : (ts * p.1 : ℚ) ≤ ts * n := by exact_mod_cast g4
    refine ⟨_, (tick_ok ts hr g1 ?_ ?_).1⟩
    · have : ((ts * n : Nat) : Int) < 2 ^ 53 := by exact_mod_cast h3
      push_cast at this
      omega
    · exact (div_le_div_of_nonneg_right g5 hr.le).trans h4) (-1) []
  refine ⟨curveBand (truncQ limit) k, ?_⟩
  unfold convertToCurveBand
  rw [if_neg (not_le.mpr h1), castInt_ok (by linarith) h2, hk]
  rfl

/-- **C80.** Encoding is safe and succeeds for every file and perception with at most as many channels, provided that the
filter and the evaluation keep the number of samples, the wavelet encoder succeeds, and ticks stay below 2^29. -/
theorem c80_success (parts : Parts) (cfg : Config) (ts : Nat) (w : Wav.Parser) (out : Perception) (n : Nat)
    (hlp : ∀ s f, (parts.lowPass s f).length = s.length) (hev : ∀ b m, ∃ r, parts.evaluate b m = .ok r ∧ r.length = m)
    (hwv : ∀ s, ∃ b, parts.wavelet s = .ok b) (hl2 : cfg.curveFrequencyLimit ≤ 2 ^ 30) (hr : 0 < w.sampleRate)
    (hr2 : w.sampleRate ≤ 2 ^ 30) (hb : w.buffer.length = w.numChannels) (hn : ∀ s ∈ w.buffer, s.length ≤ n)
    (h3 : ts * n < 2 ^ 53) (h4 : ts * n / w.sampleRate ≤ (2 : ℚ) ^ 29) (hc : out.channels.length ≤ w.numChannels) :
    ∃ q, encode parts cfg ts (some w) out = .ok (0, q) := by
  have hrn : ((w.sampleRate.toNat : Nat) : ℚ) = w.sampleRate := by
    exact_mod_cast congrArg (Int.cast (R := ℚ)) (Int.toNat_of_nonneg hr.le)
  have hrq : (0 : ℚ) < w.sampleRate := by exact_mod_cast hr
  have hrq2 : (w.sampleRate : ℚ) ≤ 2 ^ 30 := by exact_mod_cast hr2
  -- one channel
  have one : ∀ modality count, ∀ s ∈ w.buffer, ∀ c, ∃ c',
      encodeChannel parts cfg ts modality w.sampleRate.toNat count s c = .ok c' := by
    intro modality count s hs c
    have hcurve : ∃ r, curvePart parts cfg ts modality w.sampleRate.toNat s = .ok r := by
      unfold curvePart
      split
      · simp only [hrn]
        generalize hfl : (if ¬ cfg.waveletEnabled = true ∧ cfg.curveFrequencyLimit = 0 then s
          else if cfg.curveFrequencyLimit > 0 then parts.lowPass s cfg.curveFrequencyLimit
          else s.map (fun _ => 0)) = f
        have hfn : f.length ≤ n := by
          rw [← hfl]
          split
          · exact hn s hs
          · split
            · rw [hlp]; exact hn s hs
            · rw [List.length_map]; exact hn s hs
        obtain ⟨b, hb⟩ := convert_ok ts w.sampleRate
          (if cfg.curveFrequencyLimit > 0 then cfg.curveFrequencyLimit else (w.sampleRate : ℚ)) hrq
          (by split <;> assumption) (by split <;> assumption) f n hfn h3 h4
        rw [hb]
        exact ⟨_, rfl⟩
      · exact ⟨_, rfl⟩
    obtain ⟨r, hr⟩ := hcurve
    have hwave : ∃ b, waveletPart parts cfg s r.1 = .ok b := by
      unfold waveletPart residual
      split
      · split
        · split
          · obtain ⟨e, he, hel⟩ := hev r.1 s.length
            obtain ⟨x, hx⟩ := subtract_total s e (by omega)
            obtain ⟨b, hb⟩ := hwv x
            rw [he]
            refine ⟨b, ?_⟩
            show (subtract s e).bind _ = _
            rw [hx]
            exact hb
          · obtain ⟨x, hx⟩ := subtract_total s (parts.lowPass s cfg.curveFrequencyLimit) (by rw [hlp])
            obtain ⟨b, hb⟩ := hwv x
            refine ⟨b, ?_⟩
            show (subtract s _).bind _ = _
            rw [hx]
            exact hb
        · exact hwv s
      · exact ⟨_, rfl⟩
    obtain ⟨b, hb⟩ := hwave
    unfold encodeChannel
    rw [hr]
    show ∃ c', (waveletPart parts cfg s r.1).bind _ = _
    rw [hb]
    exact ⟨_, rfl⟩
  -- all of them
  have all : ∀ (count : Nat) (l : List (List ℚ)), (∀ s ∈ l, s ∈ w.buffer) → ∀ (i : Nat) (p : Perception),
      i + l.length ≤ p.channels.length → ∃ q, channelsLoop parts cfg ts w.sampleRate.toNat count l i p = .ok q := by
    intro count l
    induction l with
    | nil => exact fun _ i p _ => ⟨p, rfl⟩
    | cons s t ih =>
      intro hm i p hi
      rw [List.length_cons] at hi
      have hg : p.channels[i]? = some p.channels[i] := List.getElem?_eq_getElem (by omega)
      obtain ⟨c', hc'⟩ := one p.perceptionModality count s (hm s List.mem_cons_self) p.channels[i]
      obtain ⟨q, hq⟩ := ih (fun x hx => hm x (List.mem_cons_of_mem _ hx)) (i + 1) { p with channels := p.channels.set i c' }
        (by simp only [List.length_set]; omega)
      refine ⟨q, ?_⟩
      rw [channelsLoop, hg]
      show (encodeChannel parts cfg ts p.perceptionModality w.sampleRate.toNat count s p.channels[i]).bind _ = _
      rw [hc']
      exact hq
  unfold encode
  simp only [Option.getD_some, gt_iff_lt]
  rw [if_neg (by omega), Int.emod_eq_of_lt hr.le (by omega)]
  obtain ⟨new, hnew⟩ : ∃ new, (List.range (w.numChannels - out.channels.length)).map
    (fun k => placeholder (out.channels.length + k)) = new := ⟨_, rfl⟩
  have hlen : new.length = w.numChannels - out.channels.length := by rw [← hnew]; simp
  rw [hnew]
  obtain ⟨q, hq⟩ := all (w.numSamples / w.numChannels % 2 ^ 32) w.buffer (fun _ h => h) 0
    { out with channels := out.channels ++ new } (by simp only [List.length_append]; omega)
  rw [hq]
  exact ⟨q, rfl⟩

/-- Parts that meet the conditions: no filter, a curve of zeros, no wavelets. -/
def sampleParts : Parts := ⟨fun s _ => s, fun _ n => .ok (List.replicate n 0), fun _ => .ok none⟩

example : (∀ s f, (sampleParts.lowPass s f).length = s.length) ∧
    (∀ b m, ∃ r, sampleParts.evaluate b m = .ok r ∧ r.length = m) ∧ (∀ s, ∃ b, sampleParts.wavelet s = .ok b) :=
  ⟨fun _ _ => rfl, fun _ m => ⟨_, rfl, List.length_replicate⟩, fun _ => ⟨none, rfl⟩⟩

/-- The rate, channels and samples of a file, as the conditions ask for them, come from loading it. -/
example : ∃ w, Wav.load ⟨2, 8000, [0, 8192, 16384, 0, 32767, 32768]⟩ = .ok w ∧ 0 < w.sampleRate ∧ w.sampleRate ≤ 2 ^ 30 ∧
    w.buffer.length = w.numChannels ∧ (∀ s ∈ w.buffer, s.length ≤ 3) ∧ 1000 * 3 < 2 ^ 53 ∧
    (1000 : ℚ) * 3 / w.sampleRate ≤ 2 ^ 29 :=
  ⟨⟨8000, 2, 6, [[0, 1/2, 32767/32768], [1/4, 0, -1]]⟩, by decide +kernel, by norm_num, by norm_num, rfl, by simp,
    by norm_num, by norm_num⟩

/-- **C80, what does not hold.** With neither curves nor wavelets nothing is encoded, although success is reported. -/
theorem c80_nothing_negation (parts : Parts) (ts modality rate : Nat) (signal : List ℚ) (new : List Band)
    (limit : ℚ) : Bands parts ⟨limit, false, false⟩ ts modality rate signal new → new = [] := by
  intro h
  cases h <;> first | rfl | (simp at *)

end Haptics.Pcm
