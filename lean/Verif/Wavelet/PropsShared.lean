import Verif.Wavelet.SpecShared
import Verif.Spiht.StateLemmas

/-! C121: a block of a wavelet band is coded alike wherever it is. -/

namespace Haptics.Wavelet
open Haptics Haptics.Spiht

/-! ### Decoder -/

theorem sharedLoop_alone (inverse : Nat → List Rat → List Rat) (bl timescale upper : Nat) :
    ∀ (l : List (Nat × List UInt8)) (b : Nat) (d : Spiht.Decoder), d.counters = resetCounters →
      (sharedLoop inverse bl timescale upper l b d).map (fun r => r.1.map Prod.snd) =
        mapE (fun p => blockAlone inverse bl p.2) l ∧
      (sharedLoop inverse bl timescale upper l b d).map Prod.fst = transformLoop inverse bl timescale upper l b d ∧
      ∀ r, sharedLoop inverse bl timescale upper l b d = .ok r → r.2.counters = resetCounters := by
  intro l
  induction l with
  | nil => intro b d hd; exact ⟨rfl, rfl, fun r h => by cases h; exact hd⟩
  | cons p l ih =>
    obtain ⟨position, stream⟩ := p
    intro b d hd
    obtain ⟨h1, h2⟩ := decodeEffect_agree d hd stream (List.replicate bl 0) bl
    have hb : blockAlone inverse bl stream = match d.decodeEffect stream (List.replicate bl 0) bl with
        | .error x => .error x
        | .ok r => .ok (inverse (dwtLevel bl) (coefficients r.1)) := by
      unfold blockAlone
      rw [h1]
      generalize ({} : Spiht.Decoder).decodeEffect stream (List.replicate bl 0) bl = g
      cases g <;> rfl
    simp only [sharedLoop, transformLoop, mapE, hb]
    clear h1 hb
    generalize d.decodeEffect stream (List.replicate bl 0) bl = g at h2
    match g with
    | .error x => exact ⟨rfl, rfl, fun r h => by simp [bind, Except.bind] at h⟩
    | .ok r =>
      obtain ⟨i1, i2, i3⟩ := ih (b + 1) r.2 (h2 r rfl)
      simp only [bind, Except.bind]
      rw [← i1, ← i2]
      generalize sharedLoop inverse bl timescale upper l (b + 1) r.2 = g' at i3
      match g' with
      | .error x => exact ⟨rfl, rfl, fun r h => by simp at h⟩
      | .ok q =>
        refine ⟨rfl, rfl, fun r h => ?_⟩
        simp only [Except.ok.injEq] at h
        subst h
        exact i3 q rfl

/-- **C121** The blocks of all bands of an experience, decoded one after the other by one decoder, are what a new decoder makes of
each of them alone: none depends on the blocks, bands and channels before it. -/
theorem c121_decode (inverse : Nat → List Rat → List Rat) (timescale : Nat) (bands : List WaveletBand) (d : Spiht.Decoder)
    (hd : d.counters = resetCounters) :
    (transformBands inverse timescale bands d).map (fun r => r.map (fun b => b.map Prod.snd)) =
      mapE (bandAlone inverse) bands := by
  induction bands generalizing d with
  | nil => rfl
  | cons band l ih =>
    obtain ⟨h1, -, h3⟩ := sharedLoop_alone inverse (decodedLength band.blockLength band.upper) timescale band.upper
      band.effects 0 d hd
    have hb : bandAlone inverse band = _ := h1.symm
    simp only [transformBands, mapE, hb]
    clear h1 hb
    generalize sharedLoop inverse (decodedLength band.blockLength band.upper) timescale band.upper band.effects 0 d = g at h3
    match g with
    | .error x => rfl
    | .ok r =>
      have := ih r.2 (h3 r rfl)
      simp only [bind, Except.bind, Except.map]
      rw [← this]
      generalize transformBands inverse timescale l r.2 = g'
      match g' with
      | .error x => rfl
      | .ok q => rfl

/-- **C121** Positions included: with one decoder for all bands, each band is what a new decoder makes of it. -/
theorem c121_bands (inverse : Nat → List Rat → List Rat) (timescale : Nat) (bands : List WaveletBand) (d : Spiht.Decoder)
    (hd : d.counters = resetCounters) :
    transformBands inverse timescale bands d = mapE (fun band => transformBand inverse band timescale {}) bands := by
  induction bands generalizing d with
  | nil => rfl
  | cons band l ih =>
    obtain ⟨-, h2, h3⟩ := sharedLoop_alone inverse (decodedLength band.blockLength band.upper) timescale band.upper
      band.effects 0 d hd
    have hn : transformBand inverse band timescale {} =
        (sharedLoop inverse (decodedLength band.blockLength band.upper) timescale band.upper band.effects 0 d).map
          Prod.fst := by
      rw [h2]
      unfold transformBand
      cases hl : band.effects with
      | nil => rfl
      | cons p l => simp only [transformLoop, ← (decodeEffect_agree d hd p.2 _ _).1]
    simp only [transformBands, mapE, hn]
    generalize sharedLoop inverse (decodedLength band.blockLength band.upper) timescale band.upper band.effects 0 d = g at h3
    match g with
    | .error x => rfl
    | .ok r =>
      simp only [bind, Except.bind, Except.map]
      rw [ih r.2 (h3 r rfl)]
      generalize mapE (fun band => transformBand inverse band timescale {}) l = g'
      match g' with
      | .error x => rfl
      | .ok q => rfl

/-- Two bands, one of which has two blocks, and a decoder that has been used before. -/
example : (transformBands (fun _ l => l) 1000 [⟨8000, 2, [(0, [34, 112, 147, 145, 170, 2]), (2, [34, 112, 147, 145, 170, 2])]⟩,
      ⟨8000, 2, [(0, [34, 112, 147, 145, 170, 2])]⟩] { rest := [true, false], lower := 7, leading := 5 }).toOption.map
        (fun r => r.map (fun b => b.map (fun p => (p.1, p.2.length, p.2.all (· == 0))))) =
      some [[(0, 16, false), (2, 16, false)], [(0, 16, false)]] := by decide +kernel

/-! ### Encoder -/

theorem uniformQuant_length {dwt : List Rat} {start : Nat} {max : Rat} {bits length : Nat} {out q : List Rat}
    (h : uniformQuant dwt start max bits length out = .ok q) : q.length = out.length := by
  unfold uniformQuant at h
  split at h
  · simp at h
  · split at h
    · simp at h
    · simp only [Except.ok.injEq] at h
      rw [← h, List.length_mapIdx]

theorem allocLoop_quant (lg : Rat → Rat) (bl : Nat) (dwt : List Rat) (max : Rat) (pm : Model) (budget : Int) :
    ∀ (fuel : Nat) (s s' : Alloc), allocLoop lg bl dwt max pm budget fuel s = .ok s' →
      s'.quant.length = s.quant.length := by
  intro fuel
  induction fuel with
  | zero =>
    intro s s' h
    simp only [allocLoop] at h
    split at h
    · simp at h
    · cases h; rfl
  | succ fuel ih =>
    intro s s' h
    simp only [allocLoop] at h
    split at h
    · simp only [bind, Except.bind] at h
      split at h
      · simp at h
      · next t ht =>
        rw [ih t s' h]
        unfold allocStep at ht
        simp only [bind, Except.bind] at ht
        generalize hg : uniformQuant dwt _ max _ _ s.quant = g at ht
        match g with
        | .error _ => simp at ht
        | .ok q =>
          simp only [Except.ok.injEq] at ht
          rw [← ht]
          exact uniformQuant_length hg
    · cases h; rfl

theorem encodeBlock_agree (lg : Rat → Rat) (k : Nat) (hk : 3 ≤ k) (dwt : List Rat) (pm : Model) (budget : Int)
    (e : Spiht.Encoder) (he : e.counters = resetCounters) :
    (encodeBlock lg (2 ^ k) dwt pm budget e).map Prod.fst = (encodeBlock lg (2 ^ k) dwt pm budget {}).map Prod.fst ∧
    ∀ r, encodeBlock lg (2 ^ k) dwt pm budget e = .ok r → r.2.counters = resetCounters := by
  unfold encodeBlock
  cases hs : allocate lg (2 ^ k) dwt pm budget with
  | error x => exact ⟨rfl, fun r h => by simp [bind, Except.bind] at h⟩
  | ok s =>
    simp only [bind, Except.bind]
    cases hi : integers (maximumCoefficient dwt) (s.bits.foldl Nat.max 0) s.quant with
    | error x => exact ⟨rfl, fun r h => by simp at h⟩
    | ok block =>
      have hq : s.quant.length = 2 ^ k := by
        unfold allocate at hs
        rw [allocLoop_quant _ _ _ _ _ _ _ _ _ hs, List.length_replicate]
      have hb : IsBlock block := by
        unfold integers at hi
        split at hi
        · simp at hi
        · cases hi
          exact ⟨k, hk, by rw [List.length_map, hq]⟩
      exact encodeEffect_agree e he block hb _ _

theorem encodedLoop_agree (lg : Rat → Rat) (transform : List Rat → List Rat) (pm : List Rat → Model) (k : Nat) (hk : 3 ≤ k)
    (ticks : Nat) (budget : Int) : ∀ (l : List (List Rat)) (position : Nat) (e e' : Spiht.Encoder),
      e.counters = resetCounters → e'.counters = resetCounters →
      (encodedLoop lg transform pm (2 ^ k) ticks budget l position e).map Prod.fst =
        encodeLoop lg transform pm (2 ^ k) ticks budget l position e' ∧
      ∀ r, encodedLoop lg transform pm (2 ^ k) ticks budget l position e = .ok r → r.2.counters = resetCounters := by
  intro l
  induction l with
  | nil => intro position e e' he _; exact ⟨rfl, fun r h => by cases h; exact he⟩
  | cons block l ih =>
    intro position e e' he he'
    obtain ⟨h1, h2⟩ := encodeBlock_agree lg k hk (transform block) (pm block) budget e he
    obtain ⟨h1', h2'⟩ := encodeBlock_agree lg k hk (transform block) (pm block) budget e' he'
    rw [← h1'] at h1
    simp only [encodedLoop, encodeLoop]
    generalize encodeBlock lg (2 ^ k) (transform block) (pm block) budget e = g at h1 h2
    generalize encodeBlock lg (2 ^ k) (transform block) (pm block) budget e' = g' at h1 h2'
    match g, g' with
    | .error x, .error y =>
      simp only [Except.map, Except.error.injEq] at h1
      subst h1
      exact ⟨rfl, fun r h => by simp [bind, Except.bind] at h⟩
    | .error x, .ok y => simp [Except.map] at h1
    | .ok x, .error y => simp [Except.map] at h1
    | .ok x, .ok y =>
      simp only [Except.map, Except.ok.injEq] at h1
      obtain ⟨i1, i2⟩ := ih (position + ticks) x.2 y.2 (h2 x rfl) (h2' y rfl)
      simp only [bind, Except.bind]
      rw [← i1, h1]
      generalize encodedLoop lg transform pm (2 ^ k) ticks budget l (position + ticks) x.2 = g'' at i2
      match g'' with
      | .error x => exact ⟨rfl, fun r h => by simp at h⟩
      | .ok q =>
        refine ⟨rfl, fun r h => ?_⟩
        simp only [Except.ok.injEq] at h
        subst h
        exact i2 q rfl

theorem encodeLoop_agree (lg : Rat → Rat) (transform : List Rat → List Rat) (pm : List Rat → Model) (k : Nat) (hk : 3 ≤ k)
    (ticks : Nat) (budget : Int) (l : List (List Rat)) (position : Nat) (e e' : Spiht.Encoder)
    (he : e.counters = resetCounters) (he' : e'.counters = resetCounters) :
    encodeLoop lg transform pm (2 ^ k) ticks budget l position e =
      encodeLoop lg transform pm (2 ^ k) ticks budget l position e' :=
  (encodedLoop_agree lg transform pm k hk ticks budget l position e e he he).1.symm.trans
    (encodedLoop_agree lg transform pm k hk ticks budget l position e e' he he').1

/-- **C121** The channels of a recording, coded one after the other by one encoder, become the bands a new encoder makes of each
of them. -/
theorem c121_channels (lg : Rat → Rat) (transform : List Rat → List Rat) (pm : List Rat → Model) (k : Nat) (hk : 3 ≤ k)
    (fs timescale : Nat) (budget : Int) (signals : List (List Rat)) (e : Spiht.Encoder) (he : e.counters = resetCounters) :
    encodeChannels lg transform pm (2 ^ k) fs timescale budget signals e =
      mapE (fun sig => encodeSignal lg transform pm (2 ^ k) fs timescale budget sig {}) signals := by
  induction signals generalizing e with
  | nil => rfl
  | cons sig l ih =>
    simp only [encodeChannels, mapE, encodeSignal]
    by_cases hfs : fs = 0
    · simp [hfs, bind, Except.bind]
    · obtain ⟨h1, h2⟩ := encodedLoop_agree lg transform pm k hk (blockTicks (2 ^ k) timescale fs) budget
        (splitLoop (2 ^ k) sig (numBlocks (2 ^ k) sig.length) 0) 0 e {} he rfl
      simp only [encodeSignal, if_neg hfs] at ih
      simp only [if_neg hfs, ← h1]
      generalize encodedLoop lg transform pm (2 ^ k) (blockTicks (2 ^ k) timescale fs) budget
        (splitLoop (2 ^ k) sig (numBlocks (2 ^ k) sig.length) 0) 0 e = g at h2
      match g with
      | .error x => rfl
      | .ok r =>
        simp only [bind, Except.bind, Except.map] at ih ⊢
        rw [ih r.2 (h2 r rfl)]
        generalize mapE _ l = g'
        match g' with
        | .error x => rfl
        | .ok q => rfl

theorem split_behind (bl : Nat) (a b : List Rat) : ∀ (m s : Nat),
    splitLoop bl (a ++ b) m (a.length + s) = splitLoop bl b m s := by
  intro m
  induction m with
  | zero => intro s; rfl
  | succ m ih =>
    intro s
    simp only [splitLoop]
    rw [Nat.add_assoc a.length s bl, ih (s + bl), List.length_append,
      show min (a.length + (s + bl)) (a.length + b.length) = a.length + min (s + bl) b.length by omega,
      show a.length + min (s + bl) b.length - (a.length + s) = min (s + bl) b.length - s by omega,
      List.drop_append, List.drop_of_length_le (by omega), List.nil_append,
      show a.length + s - a.length = s by omega]

theorem split_before (bl : Nat) (a b : List Rat) (m : Nat) : ∀ (n s : Nat), s + n * bl = a.length →
    splitLoop bl (a ++ b) (n + m) s = splitLoop bl a n s ++ splitLoop bl b m 0 := by
  intro n
  induction n with
  | zero =>
    intro s h
    rw [Nat.zero_add, show s = a.length + 0 by omega, split_behind]
    rfl
  | succ n ih =>
    intro s h
    rw [Nat.succ_mul] at h
    rw [Nat.succ_add]
    simp only [splitLoop, List.cons_append]
    rw [ih (s + bl) (by omega), List.length_append, show min (s + bl) (a.length + b.length) = s + bl by omega,
      show min (s + bl) a.length = s + bl by omega, List.drop_append_of_le_length (by omega),
      List.take_append_of_le_length (by rw [List.length_drop]; omega)]

theorem encodeLoop_later (lg : Rat → Rat) (transform : List Rat → List Rat) (pm : List Rat → Model) (bl ticks : Nat)
    (budget : Int) (c : Nat) : ∀ (l : List (List Rat)) (position : Nat) (e : Spiht.Encoder),
      encodeLoop lg transform pm bl ticks budget l (c + position) e =
        (encodeLoop lg transform pm bl ticks budget l position e).map (later c) := by
  intro l
  induction l with
  | nil => intro _ _; rfl
  | cons block l ih =>
    intro position e
    simp only [encodeLoop]
    cases encodeBlock lg bl (transform block) (pm block) budget e with
    | error x => rfl
    | ok r =>
      simp only [bind, Except.bind]
      rw [Nat.add_assoc, ih (position + ticks) r.2]
      generalize encodeLoop lg transform pm bl ticks budget l (position + ticks) r.2 = g
      match g with
      | .error x => rfl
      | .ok q => rfl

theorem encodeLoop_append (lg : Rat → Rat) (transform : List Rat → List Rat) (pm : List Rat → Model) (k : Nat) (hk : 3 ≤ k)
    (ticks : Nat) (budget : Int) (l' : List (List Rat)) (e' : Spiht.Encoder) (he' : e'.counters = resetCounters) :
    ∀ (l : List (List Rat)) (position : Nat) (e : Spiht.Encoder), e.counters = resetCounters →
      encodeLoop lg transform pm (2 ^ k) ticks budget (l ++ l') position e = (do
        let r ← encodeLoop lg transform pm (2 ^ k) ticks budget l position e
        let r' ← encodeLoop lg transform pm (2 ^ k) ticks budget l' (l.length * ticks + position) e'
        .ok (r ++ r')) := by
  intro l
  induction l with
  | nil =>
    intro position e he
    simp only [List.nil_append, encodeLoop, bind, Except.bind, List.length_nil, Nat.zero_mul, Nat.zero_add]
    rw [encodeLoop_agree lg transform pm k hk ticks budget l' position e e' he he']
    generalize encodeLoop lg transform pm (2 ^ k) ticks budget l' position e' = g
    match g with
    | .error x => rfl
    | .ok q => rfl
  | cons block l ih =>
    intro position e he
    have h2 := (encodeBlock_agree lg k hk (transform block) (pm block) budget e he).2
    simp only [List.cons_append, encodeLoop]
    generalize encodeBlock lg (2 ^ k) (transform block) (pm block) budget e = g at h2
    match g with
    | .error x => rfl
    | .ok r =>
      simp only [bind, Except.bind]
      rw [ih (position + ticks) r.2 (h2 r rfl), List.length_cons,
        show (l.length + 1) * ticks + position = l.length * ticks + (position + ticks) by ring]
      generalize encodeLoop lg transform pm (2 ^ k) ticks budget l (position + ticks) r.2 = g1
      generalize encodeLoop lg transform pm (2 ^ k) ticks budget l' (l.length * ticks + (position + ticks)) e' = g2
      match g1, g2 with
      | .error _, _ => rfl
      | .ok _, .error _ => rfl
      | .ok _, .ok _ => rfl

theorem split_length (bl : Nat) (sig : List Rat) : ∀ (m s : Nat), (splitLoop bl sig m s).length = m := by
  intro m
  induction m with
  | zero => intro _; rfl
  | succ m ih => intro s; simp only [splitLoop, List.length_cons, ih]

/-- **C121** A recording may be cut between two blocks: coding the two parts, by whatever encoders, and putting the second behind
the first gives exactly what coding the whole recording gives, and fails if and only if that fails. -/
theorem c121_cut (lg : Rat → Rat) (transform : List Rat → List Rat) (pm : List Rat → Model) (k : Nat) (hk : 3 ≤ k)
    (fs timescale : Nat) (budget : Int) (n : Nat) (a b : List Rat) (ha : a.length = n * 2 ^ k)
    (e e₁ e₂ : Spiht.Encoder) (he : e.counters = resetCounters) (he₁ : e₁.counters = resetCounters)
    (he₂ : e₂.counters = resetCounters) :
    encodeSignal lg transform pm (2 ^ k) fs timescale budget (a ++ b) e = (do
      let first ← encodeSignal lg transform pm (2 ^ k) fs timescale budget a e₁
      let second ← encodeSignal lg transform pm (2 ^ k) fs timescale budget b e₂
      .ok (joined (n * blockTicks (2 ^ k) timescale fs) first second)) := by
  have hp : 0 < 2 ^ k := by positivity
  have hna : numBlocks (2 ^ k) a.length = n := by
    unfold numBlocks
    rw [ha, show n * 2 ^ k + 2 ^ k - 1 = (2 ^ k - 1) + n * 2 ^ k by omega, Nat.add_mul_div_right _ _ hp,
      Nat.div_eq_of_lt (by omega), Nat.zero_add]
  have hn : numBlocks (2 ^ k) (a ++ b).length = n + numBlocks (2 ^ k) b.length := by
    unfold numBlocks
    rw [List.length_append, ha, show n * 2 ^ k + b.length + 2 ^ k - 1 = (b.length + 2 ^ k - 1) + n * 2 ^ k by omega,
      Nat.add_mul_div_right _ _ hp, Nat.add_comm]
  unfold encodeSignal
  by_cases hfs : fs = 0
  · simp [hfs, bind, Except.bind]
  · simp only [if_neg hfs]
    rw [hn, hna, split_before (2 ^ k) a b _ n 0 (by omega),
      encodeLoop_append lg transform pm k hk _ budget _ e₂ he₂ _ 0 e he, split_length,
      encodeLoop_later, encodeLoop_agree lg transform pm k hk _ budget _ 0 e e₁ he he₁]
    generalize encodeLoop lg transform pm (2 ^ k) (blockTicks (2 ^ k) timescale fs) budget (splitLoop (2 ^ k) a n 0) 0 e₁ = g1
    generalize encodeLoop lg transform pm (2 ^ k) (blockTicks (2 ^ k) timescale fs) budget
      (splitLoop (2 ^ k) b (numBlocks (2 ^ k) b.length) 0) 0 e₂ = g2
    match g1, g2 with
    | .error _, _ => rfl
    | .ok _, .error _ => rfl
    | .ok _, .ok _ => rfl

/-- Twelve samples at 8 kHz, in blocks of eight, by an encoder that has coded another block before. -/
example : (encodeSignal (fun x => x) (fun l => l) (fun _ => ⟨[1, 2], [.fin 0, .fin 3]⟩) (2 ^ 3) 8000 1000 12
      ([1 / 3, 1 / 2, 0, 0, 1 / 5, 0, 0, 1 / 7] ++ [1 / 4, 0, 1 / 3, 0]) ⟨resetCounters, ([9, 9, 9, 9], [9, 9])⟩).toOption.map
        (fun b => (b.blockLength, b.effects.map (fun p => (p.1, p.2.isEmpty)))) =
      some (1, [(0, false), (1, false)]) := by decide +kernel

end Haptics.Wavelet
