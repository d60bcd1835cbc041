import Verif.Eval.PropsRender
import Verif.Eval.SpecTransient

namespace Haptics

/-! ## C100: transients -/

theorem struck_timeLength (e : Effect) (tick : Int) (a : ℚ) (h : Struck e tick a) (d : ℚ) :
    ∃ len, e.timeLength BandType.Transient d = .ok len ∧ (e.position : ℚ) + len = tick + d := by
  obtain ⟨p, f, h0, hk, ht⟩ := h
  refine ⟨p + d, ?_, ?_⟩
  · unfold Effect.timeLength
    rw [hk]
    rfl
  · rw [← ht]; push_cast; ring

theorem struck_transient (e : Effect) (tick : Int) (a : ℚ) (h : Struck e tick a) (position : ℝ)
    (timescale : Nat) (hts : 0 < timescale) :
    e.evaluateTransient position (transientDuration timescale : ℚ) =
      .ok (some (strike a ((position - tick) / timescale))) := by
  obtain ⟨p, f, h0, hk, ht⟩ := h
  have hts' : (0 : ℝ) < timescale := by exact_mod_cast hts
  have hd : ((transientDuration timescale : ℚ) : ℝ) = 22 / 1000 * timescale := by
    unfold transientDuration TRANSIENT_DURATION_MS; push_cast; ring
  have ht' : (tick : ℝ) = e.position + p := by rw [← ht]; push_cast; ring
  have hact : transientActive (position - e.position) (transientDuration timescale : ℚ) ⟨some p, some a, f⟩ = true
      ↔ 0 ≤ (position - tick) / timescale ∧ (position - tick) / timescale ≤ 22 / 1000 := by
    unfold transientActive
    rw [decide_eq_true_iff, hd, ht', le_div_iff₀ hts', div_le_iff₀ hts']
    constructor
    · rintro ⟨h1, h2⟩; constructor <;> linarith
    · rintro ⟨h1, h2⟩; constructor <;> linarith
  have hloud : PositionsLoud e := by
    intro k hkm _
    rw [hk] at hkm
    rw [List.mem_singleton.mp hkm]; rfl
  rw [c33_partial e position _ (by rw [hd]; positivity) hloud, hk]
  unfold strike
  by_cases hc : 0 ≤ (position - tick) / timescale ∧ (position - tick) / timescale ≤ 22 / 1000
  · rw [if_pos hc, List.reverse_singleton, List.dropWhile_cons_of_neg (by simp [hact.mpr hc]),
      List.takeWhile_cons_of_pos (hact.mpr hc)]
    simp only [List.takeWhile_nil, List.map_cons, List.map_nil, List.sum_cons, List.sum_nil, add_zero,
      Option.getD_some]
    rw [mul_comm, hd, ht']
    congr 3
    field_simp
    ring_nf
  · have hn : transientActive (position - e.position) (transientDuration timescale : ℚ) ⟨some p, some a, f⟩ = false := by
      rw [Bool.eq_false_iff]; exact fun h => hc (hact.mp h)
    rw [if_neg hc, List.reverse_singleton, List.dropWhile_cons_of_pos (by simp [hn])]
    simp

theorem struck_switch (samples : Effect → List ℝ) (b : Band) (hb : b.bandType = BandType.Transient)
    (e : Effect) (tick : Int) (a : ℚ) (h : Struck e tick a) (position : ℝ) (low high : Int)
    (timescale : Nat) (hts : 0 < timescale) (hp : (e.position : ℝ) ≤ position) :
    b.evaluationSwitch samples position e low high timescale =
      .ok (some (strike a ((position - tick) / timescale))) := by
  obtain ⟨len, hlen, hsum⟩ := struck_timeLength e tick a h (transientDuration timescale)
  have hts' : (0 : ℝ) < timescale := by exact_mod_cast hts
  have hd : ((transientDuration timescale : ℚ) : ℝ) = 22 / 1000 * timescale := by
    unfold transientDuration TRANSIENT_DURATION_MS; push_cast; ring
  have hsum' : (e.position : ℝ) + (len : ℝ) = tick + 22 / 1000 * timescale := by
    rw [← hd]; exact_mod_cast hsum
  unfold Band.evaluationSwitch
  rw [hb, if_neg (by decide), if_neg (by decide), if_neg (by decide), if_pos rfl, if_pos hp, hlen]
  dsimp only
  rw [hsum']
  split
  · exact struck_transient e tick a h position timescale hts
  · rename_i hn
    have : ¬ (0 ≤ (position - tick) / timescale ∧ (position - tick) / timescale ≤ 22 / 1000) := by
      rintro ⟨-, h2⟩
      rw [div_le_iff₀ hts'] at h2
      exact hn (by linarith)
    unfold strike
    rw [if_neg this]

theorem find_started (pre post : List Effect) (e : Effect) (position : ℝ) (hp : (e.position : ℝ) ≤ position)
    (hpost : ∀ x ∈ post, position < x.position) :
    (pre ++ e :: post).reverse.find? (fun e => decide ((e.position : ℝ) ≤ position)) = some e := by
  rw [List.reverse_append, List.reverse_cons, List.append_assoc, List.find?_append]
  have : post.reverse.find? (fun e => decide ((e.position : ℝ) ≤ position)) = none := by
    rw [List.find?_eq_none]
    intro x hx
    have := hpost x (List.mem_reverse.mp hx)
    simp [this]
  rw [this]
  simp [hp]

/-- **C100**, for a transient that is followed by another one in its band, or played with 1000 ticks per
second or less, or within 22 ticks (the full property asks for every transient at every timescale: see
`c100_negation`): from its position until the next effect starts, the band plays it as two periods of a sine
within 22 ms, whatever the timescale. -/
theorem c100_partial (samples : Effect → List ℝ) (b : Band) (hb : b.bandType = BandType.Transient)
    (pre post : List Effect) (e : Effect) (he : b.effects = pre ++ e :: post)
    (tick : Int) (a : ℚ) (h : Struck e tick a)
    (hnext : ∀ x ∈ post, ∃ tick' a', Struck x tick' a')
    (position : ℝ) (hpos : 0 ≤ position) (hp : (e.position : ℝ) ≤ position)
    (hpost : ∀ x ∈ post, position < x.position) (low high : Int)
    (timescale : Nat) (hts : 0 < timescale)
    (hlast : post = [] → timescale ≤ 1000 ∨ position ≤ tick + 22) :
    b.evaluate samples position low high timescale =
      .ok (some (strike a ((position - tick) / timescale))) := by
  have hts' : (0 : ℝ) < timescale := by exact_mod_cast hts
  unfold Band.evaluate
  rw [he]
  obtain ⟨last, hl⟩ : ∃ last, (pre ++ e :: post).getLast? = some last :=
    ⟨_, List.getLast?_eq_some_getLast (by simp)⟩
  rw [hl]
  dsimp only
  rw [hb, if_neg (by decide)]
  have hcase : (post = [] ∧ last = e) ∨ last ∈ post := by
    rcases List.eq_nil_or_concat' post with hn | ⟨l, x, hx⟩
    · subst hn; simp at hl; exact .inl ⟨rfl, hl.symm⟩
    · subst hx
      rw [← List.cons_append, ← List.append_assoc, List.getLast?_concat, Option.some_inj] at hl
      exact .inr (by simp [hl])
  have hstr : ∃ tick' a', Struck last tick' a' := by
    rcases hcase with ⟨-, rfl⟩ | hm
    · exact ⟨tick, a, h⟩
    · exact hnext last hm
  obtain ⟨tick', a', hs'⟩ := hstr
  obtain ⟨len, hlen, hsum⟩ := struck_timeLength last tick' a' hs' TRANSIENT_DURATION_MS
  have hsum' : (last.position : ℝ) + (len : ℝ) = tick' + 22 := by
    have : ((last.position : ℚ) + len : ℚ) = tick' + 22 := hsum
    exact_mod_cast this
  rw [hlen]
  dsimp only
  rw [hsum', find_started pre post e position hp hpost]
  dsimp only
  rcases hcase with ⟨hn, rfl⟩ | hm
  · have htt : tick' = tick := by
      obtain ⟨p, f, -, hk, ht⟩ := h
      obtain ⟨p', f', -, hk', ht'⟩ := hs'
      rw [hk] at hk'
      simp at hk'
      omega
    subst htt
    by_cases hx : position > (tick' : ℝ) + 22 ∨ position < 0
    · rw [decide_eq_true hx]
      dsimp only
      rcases hlast hn with h1 | h1
      · unfold strike
        rw [if_neg]
        rintro ⟨-, h2⟩
        rw [div_le_iff₀ hts'] at h2
        have : (timescale : ℝ) ≤ 1000 := by exact_mod_cast h1
        rcases hx with hx | hx <;> linarith
      · rcases hx with hx | hx <;> linarith
    · rw [decide_eq_false hx]
      exact struck_switch samples b hb last tick' a h position low high timescale hts hp
  · have hx : ¬ (position > (tick' : ℝ) + 22 ∨ position < 0) := by
      have h1 := hpost last hm
      obtain ⟨p, f, h0, hk, ht⟩ := hs'
      have h2 : (last.position : ℝ) ≤ tick' := by
        have : last.position ≤ tick' := by omega
        exact_mod_cast this
      rintro (hx | hx) <;> linarith
    rw [decide_eq_false hx]
    exact struck_switch samples b hb e tick a h position low high timescale hts hp

/-- The hypotheses are met by a transient followed by another one, at 48000 ticks per second, in the middle
of its 22 ms. -/
example (samples : Effect → List ℝ) :
    ({ bandType := BandType.Transient, effects :=
      [{ position := 10, keyframes := [⟨some 0, some 1, some 100⟩] },
       { position := 5000, keyframes := [⟨some 0, some 1, some 100⟩] }] } : Band).evaluate samples 142 0 1000 48000
      = .ok (some 1) := by
  rw [c100_partial samples _ rfl [] [{ position := 5000, keyframes := [⟨some 0, some 1, some 100⟩] }] _ rfl
    10 1 ⟨0, some 100, by decide, rfl, rfl⟩
    (by simp only [List.mem_singleton, forall_eq]; exact ⟨5000, 1, 0, some 100, by decide, rfl, rfl⟩)
    142 (by norm_num) (by norm_num) (by simp; norm_num) 0 1000 48000 (by norm_num) (by simp)]
  have : strike ((1 : ℚ) : ℝ) ((142 - ((10 : Int) : ℝ)) / ((48000 : Nat) : ℝ)) = 1 := by
    unfold strike
    rw [if_pos (by norm_num)]
    have : (2 * (2 * Real.pi) * ((142 - ((10 : Int) : ℝ)) / ((48000 : Nat) : ℝ) / (22 / 1000)) : ℝ) = Real.pi / 2 := by
      push_cast; ring
    rw [this, Real.sin_pi_div_two]; norm_num
  rw [this]

/-- C100 is false of the code: at every timescale above 1000 ticks per second, the last transient of a band
is cut off after 22 ticks, while it should still sound (`Evaluate` takes the 22 ms for ticks). -/
theorem c100_negation (samples : Effect → List ℝ) (b : Band) (hb : b.bandType = BandType.Transient)
    (e : Effect) (he : b.effects.getLast? = some e) (tick : Int) (a : ℚ) (h : Struck e tick a) (ha : a ≠ 0)
    (low high : Int) (timescale : Nat) (hts : 1000 < timescale) :
    ∃ position : ℝ, b.evaluate samples position low high timescale = .ok (some 0) ∧
      strike a ((position - tick) / timescale) ≠ 0 := by
  have hts' : (1000 : ℝ) < timescale := by exact_mod_cast hts
  have h0 : (0 : ℝ) < timescale := by linarith
  have hm1 : max (1000 / (timescale : ℝ)) (3 / 4) < 1 := by
    apply max_lt
    · rw [div_lt_one h0]; exact hts'
    · norm_num
  obtain ⟨x, hx0, hx1⟩ := exists_between hm1
  have hxa := lt_of_le_of_lt (le_max_left _ _) hx0
  have hxb := lt_of_le_of_lt (le_max_right _ _) hx0
  rw [div_lt_iff₀ h0] at hxa
  refine ⟨tick + x * (22 / 1000) * timescale, ?_, ?_⟩
  · obtain ⟨len, hlen, hsum⟩ := struck_timeLength e tick a h TRANSIENT_DURATION_MS
    have hsum' : (e.position : ℝ) + (len : ℝ) = tick + 22 := by
      have : ((e.position : ℚ) + len : ℚ) = tick + 22 := hsum
      exact_mod_cast this
    unfold Band.evaluate
    rw [he]
    dsimp only
    rw [hb, if_neg (by decide), hlen]
    dsimp only
    rw [hsum', decide_eq_true (.inl (by nlinarith))]
  · have hs : ((tick : ℝ) + x * (22 / 1000) * timescale - tick) / timescale = x * (22 / 1000) := by
      field_simp; ring
    rw [hs]
    unfold strike
    rw [if_pos ⟨by nlinarith, by nlinarith⟩]
    apply mul_ne_zero
    · exact_mod_cast ha
    · have hxx : (2 * (2 * Real.pi) * (x * (22 / 1000) / (22 / 1000)) : ℝ)
          = (4 * x - 4) * Real.pi + 2 * (2 * Real.pi) := by ring
      have hper : Real.sin ((4 * x - 4) * Real.pi + 2 * (2 * Real.pi)) = Real.sin ((4 * x - 4) * Real.pi) := by
        have := Real.sin_add_nat_mul_two_pi ((4 * x - 4) * Real.pi) 2
        exact_mod_cast this
      rw [hxx, hper]
      have hpi := Real.pi_pos
      exact (Real.sin_neg_of_neg_of_neg_pi_lt (by nlinarith) (by nlinarith)).ne

/-- Instance: a single transient at 48000 ticks per second. -/
example : (({ bandType := BandType.Transient, effects :=
      [{ position := 10, keyframes := [⟨some 0, some 1, some 100⟩] }] } : Band).effects.getLast?
        = some { position := 10, keyframes := [⟨some 0, some 1, some 100⟩] }) ∧
    Struck { position := 10, keyframes := [⟨some 0, some 1, some 100⟩] } 10 1 :=
  ⟨rfl, 0, some 100, by decide, rfl, rfl⟩

/-- C30 is false of the code at other timescales than 1000: the search for a free band takes the 22 ms of a
transient for ticks. At 48000 ticks per second, where the transient struck at 0 sounds until 1056, its band is
returned for an effect at 100. -/
theorem c30_timescale_negation : ∃ (c : Channel) (b : Band) (e : Effect),
    c.findBandAvailable 100 50 BandType.Transient = .ok (some 0) ∧ c.bands[0]? = some b ∧ e ∈ b.effects ∧
    Struck e 0 1 ∧ strike 1 (132 / 48000) = 1 := by
  refine ⟨{ bands := [{ bandType := BandType.Transient, effects :=
    [{ position := 0, keyframes := [⟨some 0, some 1, some 100⟩] }] }] }, _, _, by decide +kernel, rfl,
    List.mem_singleton.mpr rfl, ⟨0, some 100, by decide, rfl, rfl⟩, ?_⟩
  unfold strike
  rw [if_pos (by norm_num)]
  have : (2 * (2 * Real.pi) * (132 / 48000 / (22 / 1000)) : ℝ) = Real.pi / 2 := by ring
  rw [this, Real.sin_pi_div_two]; norm_num

end Haptics
