import Verif.Tools.Wav
import Verif.Tools.SpecWav
import Mathlib.Data.List.Induction
import Mathlib.Tactic.Linarith
import Mathlib.Algebra.Order.Floor.Ring
import Mathlib.Data.Rat.Floor
import Mathlib.Tactic.Positivity

/-! C39: WAV files. -/

namespace Haptics.Wav
open Haptics

/-! ### One sample -/

/-- The number a sample is rounded to. -/
def rounded (x : ℚ) : Int := if 0 ≤ 32768 * x then ⌊32768 * x + 1 / 2⌋ else ⌈32768 * x - 1 / 2⌉

/-- … and clipped to. -/
def clipped (x : ℚ) : Int := max (-32768) (min 32767 (rounded x))

theorem roundAway_rounded (x : ℚ) : roundAway (x * 32768) = rounded x := by
  unfold roundAway rounded
  rw [mul_comm]
  split <;> rfl

theorem rounded_bounds (x : ℚ) : (rounded x : ℚ) - 1 / 2 ≤ 32768 * x ∧ 32768 * x ≤ rounded x + 1 / 2 := by
  unfold rounded
  split
  · have := Int.floor_le (32768 * x + 1 / 2)
    have := Int.lt_floor_add_one (32768 * x + 1 / 2)
    constructor <;> linarith
  · have := Int.le_ceil (32768 * x - 1 / 2)
    have := Int.ceil_lt_add_one (32768 * x - 1 / 2)
    constructor <;> linarith

theorem clipped_nearest (x : ℚ) : Nearest x (clipped x) := by
  obtain ⟨h1, h2⟩ := rounded_bounds x
  refine ⟨le_max_left _ _, max_le (by norm_num) (min_le_left _ _), fun m m1 m2 => ?_⟩
  unfold clipped
  generalize rounded x = r at *
  generalize 32768 * x = y at *
  by_cases hm : m = max (-32768) (min 32767 r)
  · rw [hm]
  by_cases c1 : r ≤ -32768
  · rw [max_eq_left ((min_le_right _ _).trans c1)] at hm ⊢
    have hr : (r : ℚ) ≤ -32768 := by exact_mod_cast c1
    have hmm : (-32767 : ℚ) ≤ m := by exact_mod_cast (by omega : (-32767 : Int) ≤ m)
    rw [abs_le]
    push_cast
    have := le_abs_self ((m : ℚ) - y)
    constructor <;> linarith
  · by_cases c2 : 32767 ≤ r
    · rw [min_eq_left c2, max_eq_right (by norm_num)] at hm ⊢
      have hr : (32767 : ℚ) ≤ r := by exact_mod_cast c2
      have hmm : (m : ℚ) ≤ 32766 := by exact_mod_cast (by omega : m ≤ 32766)
      rw [abs_le]
      push_cast
      have := neg_abs_le ((m : ℚ) - y)
      constructor <;> linarith
    · rw [min_eq_right (by omega), max_eq_right (by omega)] at hm ⊢
      have : |(r : ℚ) - y| ≤ 1 / 2 := by rw [abs_le]; constructor <;> linarith
      refine this.trans ?_
      rcases lt_or_gt_of_ne hm with h | h
      · have hq : (m : ℚ) ≤ r - 1 := by exact_mod_cast (by omega : m ≤ r - 1)
        have := neg_abs_le ((m : ℚ) - y)
        linarith
      · have hq : (r : ℚ) + 1 ≤ m := by exact_mod_cast (by omega : r + 1 ≤ m)
        have := le_abs_self ((m : ℚ) - y)
        linarith

theorem truncQ_int (k : Int) : truncQ k = k := by
  unfold truncQ
  split
  · exact Int.floor_intCast k
  · exact Int.ceil_intCast k

/-- What is stored of a sample: the nearest 16 bit number. -/
theorem sample_wrap (x : ℚ) : sample true x = .ok (word (clipped x)) := by
  unfold sample clipped
  simp only [roundAway_rounded]
  generalize rounded x = r
  by_cases h1 : 32767 < r
  · have hq : (32767 : ℚ) < r := by exact_mod_cast h1
    rw [if_pos hq, min_eq_left h1.le]
    rfl
  · have hq : ¬ (32767 : ℚ) < r := by exact_mod_cast h1
    rw [if_neg hq, min_eq_right (by omega)]
    by_cases h2 : r < -32768
    · have hq : (r : ℚ) < -32768 := by exact_mod_cast h2
      rw [if_pos hq, max_eq_left h2.le]
      rfl
    · have hq : ¬ (r : ℚ) < -32768 := by exact_mod_cast h2
      rw [if_neg hq, max_eq_right (by omega)]
      unfold toU16 word
      rw [truncQ_int]
      by_cases h3 : -1 < r
      · have hq : (-1 : ℚ) < r := by exact_mod_cast h3
        rw [if_pos hq, Int.emod_eq_of_lt (by omega) (by omega)]
      · have hq : ¬ (-1 : ℚ) < r := by exact_mod_cast h3
        rw [if_neg hq]
        rfl

theorem rounded_below (x : ℚ) : Below x ↔ -32768 ≤ rounded x ∧ rounded x ≤ -1 := by
  unfold Below rounded
  generalize 32768 * x = y
  split
  · rename_i h
    constructor
    · rintro ⟨_, h2⟩
      linarith
    · rintro ⟨_, h2⟩
      have : (0 : Int) ≤ ⌊y + 1 / 2⌋ := Int.floor_nonneg.mpr (by linarith)
      omega
  · rw [Int.ceil_le, show (-32768 : Int) ≤ ⌈y - 1 / 2⌉ ↔ (-32769 : Int) < ⌈y - 1 / 2⌉ by omega, Int.lt_ceil]
    push_cast
    constructor
    · rintro ⟨h1, h2⟩
      constructor <;> linarith
    · rintro ⟨h1, h2⟩
      constructor <;> linarith

theorem sample_strict (x : ℚ) : sample false x = if Below x then .error .ub else .ok (word (clipped x)) := by
  rw [← sample_wrap]
  simp only [rounded_below]
  unfold sample
  simp only [roundAway_rounded]
  generalize rounded x = r
  by_cases h1 : (32767 : ℚ) < r
  · have hq : 32767 < r := by exact_mod_cast h1
    rw [if_pos h1, if_pos h1, if_neg (by omega)]
  · rw [if_neg h1, if_neg h1]
    by_cases h2 : (r : ℚ) < -32768
    · have hq : r < -32768 := by exact_mod_cast h2
      rw [if_pos h2, if_pos h2, if_neg (by omega)]
    · have hq : ¬ r < -32768 := by exact_mod_cast h2
      rw [if_neg h2, if_neg h2]
      unfold toU16
      by_cases h3 : (-1 : ℚ) < r
      · have hq : -1 < r := by exact_mod_cast h3
        rw [if_pos h3, if_pos h3, if_neg (by omega)]
      · have hq' : ¬ -1 < r := by exact_mod_cast h3
        rw [if_neg h3, if_pos (⟨by omega, by omega⟩ : -32768 ≤ r ∧ r ≤ -1)]
        rfl

/-! ### Saving -/

/-- Samples that can be stored, with what is stored of them. -/
theorem channelLoop_ok {wrap : Bool} {f : ℚ → Nat} (n c : Nat) (hn : 0 < n) (b : List ℚ)
    (hf : ∀ x ∈ b, sample wrap x = .ok (f x)) (i : Nat) (l : List Nat)
    (hl : (i + b.length) * n + c < l.length + n) :
    ∃ r, channelLoop wrap n c b i l = .ok r ∧ r.length = l.length ∧
      (∀ s x, b[s]? = some x → r[(i + s) * n + c]? = some (f x)) ∧
      ∀ j, (∀ s, s < b.length → j ≠ (i + s) * n + c) → r[j]? = l[j]? := by
  induction b generalizing i l with
  | nil => exact ⟨l, rfl, rfl, fun s x h => by simp at h, fun j _ => rfl⟩
  | cons x t ih =>
    rw [List.length_cons] at hl
    have e1 : (i + (t.length + 1)) * n = i * n + t.length * n + n := by ring
    have hi : i * n + c < l.length := by
      have : 0 ≤ t.length * n := Nat.zero_le _
      omega
    obtain ⟨r, h1, h2, h3, h4⟩ := ih (fun y hy => hf y (List.mem_cons_of_mem _ hy)) (i + 1) (l.set (i * n + c) (f x))
      (by rw [List.length_set]
          have e2 : (i + 1 + t.length) * n = i * n + t.length * n + n := by ring
          omega)
    rw [List.length_set] at h2
    refine ⟨r, ?_, h2, ?_, ?_⟩
    · rw [channelLoop, hf x List.mem_cons_self]
      show (put l (i * n + c) (f x)).bind _ = _
      rw [put, if_pos hi]
      exact h1
    · intro s y hy
      cases s with
      | zero =>
        rw [List.getElem?_cons_zero] at hy
        have hy := Option.some.inj hy
        subst hy
        rw [h4]
        · rw [Nat.add_zero, List.getElem?_set_self hi]
        · intro s _ h
          have e3 : (i + 1 + s) * n = i * n + s * n + n := by ring
          have : 0 ≤ s * n := Nat.zero_le _
          rw [Nat.add_zero, e3] at h
          omega
      | succ s =>
        rw [List.getElem?_cons_succ] at hy
        have := h3 s y hy
        rw [show i + (s + 1) = i + 1 + s by ring]
        exact this
    · intro j hj
      rw [h4 j (fun s hs => by
        have := hj (s + 1) (by rw [List.length_cons]; omega)
        rwa [show i + (s + 1) = i + 1 + s by ring] at this)]
      have := hj 0 (by rw [List.length_cons]; omega)
      rw [Nat.add_zero] at this
      rw [List.getElem?_set_ne (Ne.symm this)]

theorem cell {n i c j d : Nat} (hc : c < n) (hd : d < n) (h : i * n + c = j * n + d) : i = j ∧ c = d := by
  have h1 : (i * n + c) / n = i := by
    rw [Nat.add_comm, Nat.add_mul_div_right _ _ (by omega), Nat.div_eq_of_lt hc, Nat.zero_add]
  have h2 : (j * n + d) / n = j := by
    rw [Nat.add_comm, Nat.add_mul_div_right _ _ (by omega), Nat.div_eq_of_lt hd, Nat.zero_add]
  have : i = j := by rw [← h1, h, h2]
  subst this
  exact ⟨rfl, by omega⟩

theorem channelsLoop_ok {wrap : Bool} {f : ℚ → Nat} (n m : Nat) (bs : List (List ℚ)) (hm : ∀ b ∈ bs, b.length = m)
    (hf : ∀ b ∈ bs, ∀ x ∈ b, sample wrap x = .ok (f x)) (c : Nat) (hc : c + bs.length ≤ n) (l : List Nat)
    (hl : l.length = n * m) :
    ∃ r, channelsLoop wrap n bs c l = .ok r ∧ r.length = n * m ∧
      (∀ (k : Nat) (b : List ℚ) s x, bs[k]? = some b → b[s]? = some x → r[s * n + (c + k)]? = some (f x)) ∧
      ∀ s d, d < c → r[s * n + d]? = l[s * n + d]? := by
  induction bs generalizing c l with
  | nil => exact ⟨l, rfl, hl, fun k b s x h => by simp at h, fun _ _ _ => rfl⟩
  | cons b t ih =>
    rw [List.length_cons] at hc
    have hb := hm b List.mem_cons_self
    obtain ⟨r1, h1, h2, h3, h4⟩ := channelLoop_ok (wrap := wrap) (f := f) n c (by omega) b (hf b List.mem_cons_self) 0 l
      (by rw [hb, hl, Nat.zero_add, Nat.mul_comm]; omega)
    obtain ⟨r, g1, g2, g3, g4⟩ := ih (fun x hx => hm x (List.mem_cons_of_mem _ hx))
      (fun x hx => hf x (List.mem_cons_of_mem _ hx)) (c + 1) (by omega) r1 (h2.trans hl)
    refine ⟨r, ?_, g2, ?_, ?_⟩
    · rw [channelsLoop, h1]
      exact g1
    · intro k a s x hk hx
      cases k with
      | zero =>
        rw [List.getElem?_cons_zero] at hk
        have hk := Option.some.inj hk
        subst hk
        rw [Nat.add_zero, g4 s c (by omega)]
        have := h3 s x hx
        rwa [Nat.zero_add] at this
      | succ k =>
        rw [List.getElem?_cons_succ] at hk
        have := g3 k a s x hk hx
        rwa [show c + 1 + k = c + (k + 1) by omega] at this
    · intro s d hd
      rw [g4 s d (by omega), h4]
      intro s' _ h
      rw [Nat.zero_add] at h
      have := (cell (by omega) (by omega) h).2
      omega

/-- The buffer is a table of `m` samples for each channel. -/
theorem saveMulti_ok {wrap : Bool} {f : ℚ → Nat} (rate : Int) (buff : List (List ℚ)) (m : Nat) (h0 : buff ≠ [])
    (hm : ∀ b ∈ buff, b.length = m) (hf : ∀ b ∈ buff, ∀ x ∈ b, sample wrap x = .ok (f x)) :
    ∃ l, saveMulti wrap rate buff = .ok (some ⟨buff.length, rate, l⟩) ∧ l.length = buff.length * m ∧
      ∀ (c : Nat) (b : List ℚ) s x, buff[c]? = some b → b[s]? = some x → l[s * buff.length + c]? = some (f x) := by
  obtain ⟨b, t, rfl⟩ := List.exists_cons_of_ne_nil h0
  have hb := hm b List.mem_cons_self
  obtain ⟨l, h1, h2, h3, _⟩ := channelsLoop_ok (wrap := wrap) (f := f) (b :: t).length m (b :: t) hm hf 0 (by omega)
    (List.replicate ((b :: t).length * b.length) 0) (by rw [List.length_replicate, hb])
  refine ⟨l, ?_, h2, ?_⟩
  · unfold saveMulti
    simp only
    rw [if_neg, h1]
    · rfl
    · simp only [List.any_eq_true, decide_eq_true_eq, not_exists, not_and, not_not, ne_eq]
      intro x hx
      rw [hm x (List.mem_cons_of_mem _ hx), hb]
  · intro c b s x hb hx
    have := h3 c b s x hb hx
    rwa [Nat.zero_add] at this

theorem mapM_ok {wrap : Bool} {f : ℚ → Nat} (b : List ℚ) (hf : ∀ x ∈ b, sample wrap x = .ok (f x)) :
    b.mapM (sample wrap) = .ok (b.map f) := by
  induction b with
  | nil => rfl
  | cons x t ih =>
    rw [List.mapM_cons, hf x List.mem_cons_self, ih (fun y hy => hf y (List.mem_cons_of_mem _ hy))]
    rfl

/-- **C39.** A table of samples is written with one channel for each row; sample `s` of channel `c` is at place
`s * channels + c`, as the nearest 16 bit number (samples out of range are clipped). -/
theorem c39_layout (rate : Int) (buff : List (List ℚ)) (m : Nat) (h0 : buff ≠ []) (hm : ∀ b ∈ buff, b.length = m) :
    ∃ f, saveMulti true rate buff = .ok (some f) ∧ f.channels = buff.length ∧ f.rate = rate ∧
      f.samples.length = m * buff.length ∧
      ∀ (c : Nat) (b : List ℚ) s x, buff[c]? = some b → b[s]? = some x →
        ∃ k, Nearest x k ∧ f.samples[s * buff.length + c]? = some (word k) := by
  obtain ⟨l, h1, h2, h3⟩ := saveMulti_ok rate buff m h0 hm (fun b _ x _ => sample_wrap x)
  exact ⟨_, h1, rfl, rfl, by rw [h2, Nat.mul_comm], fun c b s x hb hx => ⟨_, clipped_nearest x, h3 c b s x hb hx⟩⟩

/-- **C39.** Saving one channel is saving a table of one row. -/
theorem c39_mono (rate : Int) (b : List ℚ) : ∃ f, saveMono true rate b = .ok f ∧ saveMulti true rate [b] = .ok (some f) := by
  obtain ⟨l, h1, h2, h3⟩ := saveMulti_ok (wrap := true) rate [b] b.length (by simp) (by simp)
    (fun b _ x _ => sample_wrap x)
  refine ⟨⟨1, rate, l⟩, ?_, h1⟩
  unfold saveMono
  rw [mapM_ok b (fun x _ => sample_wrap x)]
  refine congrArg (fun l => Except.ok (File.mk 1 rate l)) (List.ext_getElem? fun s => ?_)
  rw [List.getElem?_map]
  cases hx : b[s]? with
  | none =>
    rw [List.getElem?_eq_none_iff] at hx
    rw [List.getElem?_eq_none (by simpa using h2.le.trans (by simpa using hx))]
    rfl
  | some x =>
    have := h3 0 b s x rfl hx
    simp only [List.length_singleton, Nat.mul_one, Nat.add_zero] at this
    rw [this]
    rfl

/-! ### Loading -/

theorem spread_snoc (n : Nat) (l : List ℚ) (x : ℚ) (d : Nat) (b : List (List ℚ)) :
    spread n (l ++ [x]) d b = (spread n l d b).bind (fun r => spread n [x] (d + l.length) r) := by
  induction l generalizing d b with
  | nil => rfl
  | cons y t ih =>
    rw [List.cons_append, spread, spread]
    split
    · rw [ih, List.length_cons, show d + 1 + t.length = d + (t.length + 1) by omega]
    · rfl

/-- After `l` each channel `c` holds the samples at places `s * n + c`, as many as there are. -/
theorem spread_ok (n : Nat) (hn : 0 < n) (l : List ℚ) :
    ∃ b, spread n l 0 (List.replicate n []) = .ok b ∧ b.length = n ∧ ∀ (c : Nat) (a : List ℚ), b[c]? = some a →
      l.length ≤ a.length * n + c ∧ a.length * n + c < l.length + n ∧ ∀ s, s < a.length → a[s]? = l[s * n + c]? := by
  induction l using List.reverseRecOn with
  | nil =>
    refine ⟨_, rfl, List.length_replicate, fun c a h => ?_⟩
    rw [List.getElem?_replicate] at h
    split at h
    · have h := Option.some.inj h
      subst h
      rename_i hc
      exact ⟨by simp, by simpa using hc, fun s hs => absurd hs (Nat.not_lt_zero s)⟩
    · cases h
  | append_singleton l x ih =>
    obtain ⟨b, h1, h2, h3⟩ := ih
    have hlt : l.length % n < n := Nat.mod_lt _ hn
    refine ⟨b.modify (l.length % n) (· ++ [x]), ?_, by rw [List.length_modify, h2], ?_⟩
    · rw [spread_snoc, h1]
      show spread n [x] (0 + l.length) b = _
      rw [Nat.zero_add, spread, if_pos (by rw [h2]; exact hlt), spread]
    · intro c a ha
      rw [List.getElem?_modify] at ha
      obtain ⟨a', ha', rfl⟩ := Option.map_eq_some_iff.mp ha
      obtain ⟨k1, k2, k3⟩ := h3 c a' ha'
      have hc : c < n := by
        rw [← h2]
        exact (List.getElem?_eq_some_iff.mp ha').1
      have hdm := Nat.div_add_mod l.length n
      rw [Nat.mul_comm] at hdm
      split
      · rename_i e
        subst e
        have e : a'.length = l.length / n := by
          have g1 : a'.length < l.length / n + 1 := by
            by_contra h
            have : (l.length / n + 1) * n ≤ a'.length * n := Nat.mul_le_mul_right n (by omega)
            rw [Nat.add_mul, Nat.one_mul] at this
            omega
          have g2 : l.length / n < a'.length + 1 := by
            by_contra h
            have : (a'.length + 1) * n ≤ l.length / n * n := Nat.mul_le_mul_right n (by omega)
            rw [Nat.add_mul, Nat.one_mul] at this
            omega
          omega
        have e' : a'.length * n + l.length % n = l.length := by rw [e]; exact hdm
        simp only [List.length_append, List.length_singleton]
        refine ⟨by rw [Nat.add_mul, Nat.one_mul]; omega, by rw [Nat.add_mul, Nat.one_mul]; omega, fun s hs => ?_⟩
        by_cases hs' : s < a'.length
        · rw [List.getElem?_append_left hs', k3 s hs', List.getElem?_append_left]
          have : (s + 1) * n ≤ a'.length * n := Nat.mul_le_mul_right n (by omega)
          rw [Nat.add_mul, Nat.one_mul] at this
          omega
        · have : s = a'.length := by omega
          subst this
          rw [List.getElem?_append_right le_rfl, e', List.getElem?_append_right le_rfl, Nat.sub_self, Nat.sub_self]
      · rename_i e
        have hne : a'.length * n + c ≠ l.length := by
          intro h
          apply e
          rw [← h, Nat.add_comm, Nat.add_mul_mod_self_right, Nat.mod_eq_of_lt hc]
        simp only [List.length_append, List.length_singleton, id_eq]
        refine ⟨by omega, by omega, fun s hs => ?_⟩
        rw [k3 s hs, List.getElem?_append_left]
        have : (s + 1) * n ≤ a'.length * n := Nat.mul_le_mul_right n (by omega)
        rw [Nat.add_mul, Nat.one_mul] at this
        omega

/-- **C39.** Whatever a file holds, loading it gives one row for each channel, of which sample `s` is the one at place
`s * channels + c`; samples of a last, incomplete frame are dropped.  The number of samples is that of all channels. -/
theorem c39_load (f : File) (hn : 0 < f.channels) : ∃ p, load f = .ok p ∧ p.sampleRate = f.rate ∧
    p.numChannels = f.channels ∧ p.numSamples = f.samples.length / f.channels * f.channels ∧
    p.buffer.length = f.channels ∧
    ∀ (c : Nat) (b : List ℚ), p.buffer[c]? = some b → b.length = f.samples.length / f.channels ∧
      ∀ s, s < b.length → ∃ w, f.samples[s * f.channels + c]? = some w ∧ b[s]? = some (value w) := by
  obtain ⟨b, h1, h2, h3⟩ := spread_ok f.channels hn
    ((f.samples.take (f.samples.length / f.channels * f.channels)).map value)
  have hle : f.samples.length / f.channels * f.channels ≤ f.samples.length := Nat.div_mul_le_self _ _
  refine ⟨⟨f.rate, f.channels, _, b⟩, ?_, rfl, rfl, rfl, h2, fun c a ha => ?_⟩
  · unfold load
    simp only
    rw [h1]
    rfl
  · obtain ⟨k1, k2, k3⟩ := h3 c a ha
    have hc : c < f.channels := by
      rw [← h2]
      exact (List.getElem?_eq_some_iff.mp ha).1
    simp only [List.length_map, List.length_take, Nat.min_eq_left hle] at k1 k2
    generalize f.samples.length / f.channels = q at *
    have e : a.length = q := by
      have g1 : a.length < q + 1 := by
        by_contra h
        have : (q + 1) * f.channels ≤ a.length * f.channels := Nat.mul_le_mul_right _ (by omega)
        rw [Nat.add_mul, Nat.one_mul] at this
        omega
      have g2 : q < a.length + 1 := by
        by_contra h
        have : (a.length + 1) * f.channels ≤ q * f.channels := Nat.mul_le_mul_right _ (by omega)
        rw [Nat.add_mul, Nat.one_mul] at this
        omega
      omega
    refine ⟨e, fun s hs => ?_⟩
    have hlt : s * f.channels + c < q * f.channels := by
      have : (s + 1) * f.channels ≤ q * f.channels := Nat.mul_le_mul_right _ (by omega)
      rw [Nat.add_mul, Nat.one_mul] at this
      omega
    obtain ⟨w, hw⟩ : ∃ w, f.samples[s * f.channels + c]? = some w := ⟨_, List.getElem?_eq_getElem (by omega)⟩
    refine ⟨w, hw, ?_⟩
    rw [k3 s hs, List.getElem?_map, List.getElem?_take_of_lt hlt, hw]
    rfl

theorem value_word {k : Int} (h1 : -32768 ≤ k) (h2 : k ≤ 32767) : value (word k) = k / 32768 := by
  unfold value word
  by_cases h : 0 ≤ k
  · rw [Int.emod_eq_of_lt h (by omega), if_pos (by omega)]
    congr 1
    exact_mod_cast congrArg (Int.cast (R := ℚ)) (Int.toNat_of_nonneg h)
  · have e : k % 65536 = k + 65536 := by omega
    rw [e, if_neg (by omega)]
    have : (((k + 65536).toNat : Nat) : ℚ) = k + 65536 := by
      exact_mod_cast congrArg (Int.cast (R := ℚ)) (Int.toNat_of_nonneg (by omega : 0 ≤ k + 65536))
    rw [this]
    congr 1
    ring

/-- **C39.** A table that is saved and loaded comes back with each sample the nearest multiple of 1/32768 between -1 and
1 - 1/32768, in its row and at its place. -/
theorem c39_round_trip (rate : Int) (buff : List (List ℚ)) (m : Nat) (h0 : buff ≠ [])
    (hm : ∀ b ∈ buff, b.length = m) : ∃ f p, saveMulti true rate buff = .ok (some f) ∧ load f = .ok p ∧
      p.sampleRate = rate ∧ p.numChannels = buff.length ∧ p.numSamples = m * buff.length ∧
      p.buffer.length = buff.length ∧ ∀ (c : Nat) (b : List ℚ), buff[c]? = some b → ∃ r : List ℚ,
        p.buffer[c]? = some r ∧ r.length = m ∧ ∀ (s : Nat) (x : ℚ), b[s]? = some x → ∃ k : Int, Nearest x k ∧ r[s]? = some (k / 32768 : ℚ) := by
  have hpos : 0 < buff.length := List.length_pos_iff.mpr h0
  obtain ⟨l, h1, h2, h3⟩ := saveMulti_ok (wrap := true) rate buff m h0 hm (fun b _ x _ => sample_wrap x)
  obtain ⟨p, k1, k2, k3, k4, k5, k6⟩ := c39_load ⟨buff.length, rate, l⟩ hpos
  have hq : l.length / buff.length = m := by rw [h2, Nat.mul_div_cancel_left _ hpos]
  simp only [hq] at k2 k3 k4 k5 k6
  refine ⟨_, p, h1, k1, k2, k3, k4, k5, fun c b hb => ?_⟩
  have hc : c < p.buffer.length := by
    rw [k5]
    exact (List.getElem?_eq_some_iff.mp hb).1
  obtain ⟨j1, j2⟩ := k6 c _ (List.getElem?_eq_getElem hc)
  refine ⟨_, List.getElem?_eq_getElem hc, j1, fun s x hx => ?_⟩
  have hs : s < m := by
    rw [← hm b (List.mem_of_getElem? hb)]
    exact (List.getElem?_eq_some_iff.mp hx).1
  obtain ⟨w, w1, w2⟩ := j2 s (by omega)
  rw [h3 c b s x hb hx] at w1
  have w1 := Option.some.inj w1
  have hk := clipped_nearest x
  refine ⟨_, hk, ?_⟩
  rw [w2, ← w1, value_word hk.1 hk.2.1]

/-- **C39.** Samples that are such multiples come back as they are: a loaded file that is saved again holds the same. -/
theorem c39_exact (j : Int) (h1 : -32768 ≤ j) (h2 : j ≤ 32767) (k : Int) (h : Nearest (j / 32768) k) : k = j := by
  have := h.2.2 j h1 h2
  rw [mul_div_cancel₀ _ (by norm_num : (32768 : ℚ) ≠ 0), sub_self, abs_zero] at this
  have := abs_nonpos_iff.mp this
  exact_mod_cast sub_eq_zero.mp this

/-- **C39.** The error of a sample within the range is at most half a step. -/
theorem c39_error (x : ℚ) (k : Int) (h1 : -1 ≤ x) (h2 : x ≤ 32767 / 32768) (h : Nearest x k) :
    |(k / 32768 : ℚ) - x| ≤ 1 / 65536 := by
  obtain ⟨g1, g2⟩ := rounded_bounds x
  have e1 : -32769 < rounded x := by
    have : (-32769 : ℚ) < rounded x := by linarith
    exact_mod_cast this
  have e2 : rounded x < 32768 := by
    have : (rounded x : ℚ) < 32768 := by linarith
    exact_mod_cast this
  have := h.2.2 (rounded x) (by omega) (by omega)
  have hr : |(rounded x : ℚ) - 32768 * x| ≤ 1 / 2 := by rw [abs_le]; constructor <;> linarith
  have := abs_le.mp (this.trans hr)
  rw [abs_le]
  constructor <;> linarith

/-- **C39.** Channels of different lengths are refused, and no channels at all make the function throw. -/
theorem c39_refused (wrap : Bool) (rate : Int) (b : List ℚ) (t : List (List ℚ)) (x : List ℚ) (hx : x ∈ t)
    (h : x.length ≠ b.length) : saveMulti wrap rate (b :: t) = .ok none ∧ saveMulti wrap rate [] = .error .throw := by
  refine ⟨?_, rfl⟩
  unfold saveMulti
  simp only
  rw [if_pos]
  rw [List.any_eq_true]
  exact ⟨x, hx, by simpa using h⟩

/-! ### What the language says -/

theorem channelLoop_ub (n c : Nat) (hn : 0 < n) (b : List ℚ) (x : ℚ) (hx : x ∈ b) (hb : Below x) (i : Nat)
    (l : List Nat) (hl : (i + b.length) * n + c < l.length + n) : channelLoop false n c b i l = .error .ub := by
  induction b generalizing i l with
  | nil => cases hx
  | cons y t ih =>
    rw [channelLoop]
    by_cases hy : Below y
    · rw [sample_strict, if_pos hy]
      rfl
    · rw [sample_strict, if_neg hy]
      show (put l (i * n + c) (word (clipped y))).bind _ = _
      rw [List.length_cons] at hl
      have e1 : (i + (t.length + 1)) * n = i * n + t.length * n + n := by ring
      have : 0 ≤ t.length * n := Nat.zero_le _
      rw [put, if_pos (by omega)]
      refine ih ?_ (i + 1) _ ?_
      · rcases List.mem_cons.mp hx with rfl | hx
        · exact absurd hb hy
        · exact hx
      · rw [List.length_set]
        have e2 : (i + 1 + t.length) * n = i * n + t.length * n + n := by ring
        omega

theorem channelsLoop_ub (n m : Nat) (bs : List (List ℚ)) (hm : ∀ b ∈ bs, b.length = m) (b : List ℚ) (hb : b ∈ bs)
    (x : ℚ) (hx : x ∈ b) (hbx : Below x) (c : Nat) (hc : c + bs.length ≤ n) (l : List Nat) (hl : l.length = n * m) :
    channelsLoop false n bs c l = .error .ub := by
  induction bs generalizing c l with
  | nil => cases hb
  | cons a t ih =>
    rw [List.length_cons] at hc
    have ha := hm a List.mem_cons_self
    have hl' : (0 + a.length) * n + c < l.length + n := by rw [ha, hl, Nat.zero_add, Nat.mul_comm]; omega
    rw [channelsLoop]
    by_cases h : ∃ y ∈ a, Below y
    · obtain ⟨y, hy, hyb⟩ := h
      rw [channelLoop_ub n c (by omega) a y hy hyb 0 l hl']
      rfl
    · obtain ⟨r, h1, h2, _⟩ := channelLoop_ok (wrap := false) (f := fun x => word (clipped x)) n c (by omega) a
        (fun y hy => by rw [sample_strict, if_neg (fun hb => h ⟨y, hy, hb⟩)]) 0 l hl'
      rw [h1]
      refine ih (fun x hx => hm x (List.mem_cons_of_mem _ hx)) ?_ (c + 1) (by omega) r (h2.trans hl)
      rcases List.mem_cons.mp hb with rfl | hb
      · exact absurd ⟨x, hx, hbx⟩ h
      · exact hb

/-- **C39, what does not hold.** The language defines the conversion only for signals that do not go below zero (but for
samples so low that they are clipped): saving is undefined exactly when some sample is rounded to one of the numbers
-32768 … -1. -/
theorem c39_undefined (rate : Int) (buff : List (List ℚ)) (m : Nat) (h0 : buff ≠ []) (hm : ∀ b ∈ buff, b.length = m) :
    saveMulti false rate buff = if ∃ b ∈ buff, ∃ x ∈ b, Below x then .error .ub else saveMulti true rate buff := by
  split
  · rename_i h
    obtain ⟨b, hb, x, hx, hbx⟩ := h
    obtain ⟨a, t, rfl⟩ := List.exists_cons_of_ne_nil h0
    have ha := hm a List.mem_cons_self
    unfold saveMulti
    simp only
    rw [if_neg, channelsLoop_ub (a :: t).length m (a :: t) hm b hb x hx hbx 0 (by omega) _
      (by rw [List.length_replicate, ha])]
    · rfl
    · simp only [List.any_eq_true, decide_eq_true_eq, not_exists, not_and, not_not, ne_eq]
      intro x hx
      rw [hm x (List.mem_cons_of_mem _ hx), ha]
  · rename_i h
    obtain ⟨l1, h1, h2, h3⟩ := saveMulti_ok (wrap := false) (f := fun x => word (clipped x)) rate buff m h0 hm
      (fun b hb x hx => by rw [sample_strict, if_neg (fun hbx => h ⟨b, hb, x, hx, hbx⟩)])
    obtain ⟨l2, k1, k2, k3⟩ := saveMulti_ok (wrap := true) (f := fun x => word (clipped x)) rate buff m h0 hm
      (fun b hb x hx => sample_wrap x)
    rw [h1, k1]
    congr 3
    refine List.ext_getElem? fun j => ?_
    by_cases hj : j < buff.length * m
    · have hpos : 0 < buff.length := List.length_pos_iff.mpr h0
      have e := Nat.div_add_mod j buff.length
      have hc := Nat.mod_lt j hpos
      have hs : j / buff.length < m := Nat.div_lt_of_lt_mul hj
      have hb : buff[j % buff.length]? = some buff[j % buff.length] := List.getElem?_eq_getElem hc
      have hlen := hm _ (List.mem_of_getElem? hb)
      have hx := List.getElem?_eq_getElem (l := buff[j % buff.length]) (i := j / buff.length) (by omega)
      have e1 := h3 _ _ _ _ hb hx
      have e2 := k3 _ _ _ _ hb hx
      rw [Nat.mul_comm] at e
      rw [e] at e1 e2
      rw [e1, e2]
    · rw [List.getElem?_eq_none (by omega), List.getElem?_eq_none (by omega)]

/-- A signal that is not undefined, and one that is. -/
example : saveMulti false 8000 [[0, 1/2, 2], [1/4, 0, -2]] =
      .ok (some ⟨2, 8000, [0, 8192, 16384, 0, 32767, 32768]⟩) ∧
    saveMulti false 8000 [[0, -1/2]] = .error .ub ∧
    saveMulti true 8000 [[0, -1/2]] = .ok (some ⟨1, 8000, [0, 49152]⟩) := by decide +kernel

example : load ⟨2, 8000, [0, 8192, 16384, 0, 32767, 32768, 5]⟩ =
    .ok ⟨8000, 2, 6, [[0, 1/2, 32767/32768], [1/4, 0, -1]]⟩ := by decide +kernel

end Haptics.Wav
