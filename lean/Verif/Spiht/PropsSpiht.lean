import Verif.Spiht.PlaneLemmas
import Verif.Spiht.SpecSpiht
import Mathlib.Algebra.Order.Ring.Unbundled.Rat
import Mathlib.Tactic.FieldSimp
import Mathlib.Tactic.Positivity

/-
C22: set partitioning is lossless.  C23: the encoder does not throw.  C24: the header.
-/
namespace Haptics.Spiht

/-! ### The header -/

theorem de2bi_length (v n : Nat) : (de2bi v n).length = n := by
  induction n generalizing v with
  | zero => rfl
  | succ n ih => rw [de2bi, List.length_cons, ih]

theorem bi2de_de2bi (v n : Nat) : bi2de (de2bi v n) = v % 2 ^ n := by
  induction n generalizing v with
  | zero => simp [de2bi, bi2de, Nat.mod_one]
  | succ n ih =>
    rw [de2bi, bi2de, ih, pow_succ, Nat.mul_comm (2 ^ n) 2, Nat.mod_mul]
    by_cases h : v % 2 = 1
    · simp [h]
    · have : v % 2 = 0 := by omega
      simp [this]

theorem getBits_runs (l : List Bool) : Runs (getBits 0 l.length) (l.map (·, 0)) l := by
  induction l with
  | nil => exact Runs.pure _
  | cons b l ih =>
    change Runs (getBit 0 >>= fun b => getBits 0 l.length >>= fun l => Pure.pure (b :: l)) _ _
    exact Runs.bit_bind (Runs.pure_bind (g := fun l => b :: l) ih)

theorem maxAllocBits_runs (v : Nat) (hv : v < 16) : Runs getMaxAllocBits ((de2bi v 4).map (·, 0)) v := by
  have h := getBits_runs (de2bi v 4)
  rw [de2bi_length] at h
  have := Runs.pure_bind (g := bi2de) h
  rw [bi2de_de2bi, Nat.mod_eq_of_lt (by omega)] at this
  exact this

/-- What the decoder makes of a maximum. -/
def headerValue (s : Rat) : Rat :=
  if s < 1 then ((⌊s * 2 ^ 7⌋.toNat % 128 : Nat) : Rat) / 2 ^ 7
  else ((⌊(s - 1) * 2 ^ 3⌋.toNat % 128 : Nat) : Rat) / 2 ^ 3 + 1

theorem wavmax_runs (s : Rat) : Runs getWavmax ((bitwavmax s).map (·, 0)) (headerValue s) := by
  unfold getWavmax bitwavmax quantMode headerValue
  by_cases h : s < 1
  · simp only [h, if_true, Bool.false_eq_true, if_false, sub_zero, List.map_cons]
    refine Runs.bit_bind ?_
    have hb := getBits_runs (de2bi ⌊s * 2 ^ 7⌋.toNat 7)
    rw [de2bi_length] at hb
    have := Runs.pure_bind (g := fun l => (bi2de l : Rat) / 2 ^ 7) hb
    rw [bi2de_de2bi, show 2 ^ 7 = 128 by norm_num] at this
    simpa only [if_true] using this
  · simp only [h, if_false, if_true, List.map_cons]
    refine Runs.bit_bind ?_
    have hb := getBits_runs (de2bi ⌊(s - 1) * 2 ^ 3⌋.toNat 7)
    rw [de2bi_length] at hb
    have := Runs.pure_bind (g := fun l => (bi2de l : Rat) / 2 ^ 3 + 1) hb
    rw [bi2de_de2bi, show 2 ^ 7 = 128 by norm_num] at this
    simpa only [Bool.true_eq_false, if_false] using this

theorem headerValue_representable {s : Rat} (h : Representable s) : headerValue s = s := by
  unfold headerValue
  rcases h with ⟨k, hk, rfl⟩ | ⟨k, hk, rfl⟩
  · have hk' : (k : Rat) < 128 := by exact_mod_cast hk
    rw [if_pos (by rw [div_lt_one (by norm_num)]; exact hk')]
    have : (k : Rat) / 128 * 2 ^ 7 = ((k : Int) : Rat) := by push_cast; field_simp; norm_num
    rw [this, Int.floor_intCast, Int.toNat_natCast, Nat.mod_eq_of_lt hk]
    norm_num
  · have hk0 : (0 : Rat) ≤ (k : Rat) / 8 := by positivity
    rw [if_neg (by linarith)]
    have : (1 + (k : Rat) / 8 - 1) * 2 ^ 3 = ((k : Int) : Rat) := by push_cast; field_simp; norm_num
    rw [this, Int.floor_intCast, Int.toNat_natCast, Nat.mod_eq_of_lt hk]
    ring

/-- **C24** The header of a block: whatever the number of bit planes (0 to 15) and the maximum, in
either format, the decoder reads the same values, and what follows is left for the rest of the decoder. -/
theorem c24_header (bits : Nat) (hb : bits < 16) (wavmax : Rat) (hw : Representable wavmax)
    (rest : List (Bool × Nat)) (d : Decoder)
    (hd : Ready d ((de2bi bits 4 ++ bitwavmax wavmax).map (·, 0) ++ rest)) :
    ∃ d1 d2, getMaxAllocBits d = .ok (bits, d1) ∧ getWavmax d1 = .ok (wavmax, d2) ∧ Ready d2 rest := by
  rw [List.map_append, List.append_assoc] at hd
  obtain ⟨d1, h1, r1⟩ := maxAllocBits_runs bits hb d _ hd
  obtain ⟨d2, h2, r2⟩ := wavmax_runs wavmax d1 _ r1
  rw [headerValue_representable hw] at h2
  exact ⟨d1, d2, h1, h2, r2⟩

/-- **C24, other maxima.** Up to 17 the decoder reads the next smaller maximum that can be expressed; it
differs by less than 1/128 below 1, and by less than 1/8 from there on. -/
theorem c24_rounded (wavmax : Rat) (h0 : 0 ≤ wavmax) (h17 : wavmax < 17) :
    Runs getWavmax ((bitwavmax wavmax).map (·, 0)) (headerValue wavmax) ∧
    Representable (headerValue wavmax) ∧ headerValue wavmax ≤ wavmax ∧
    wavmax < headerValue wavmax + if wavmax < 1 then 1 / 128 else 1 / 8 := by
  refine ⟨wavmax_runs wavmax, ?_⟩
  unfold headerValue
  have key : ∀ t : Rat, 0 ≤ t → t < 128 →
      ⌊t⌋.toNat % 128 = ⌊t⌋.toNat ∧ ⌊t⌋.toNat < 128 ∧ ((⌊t⌋.toNat : Nat) : Rat) ≤ t ∧
        t < ((⌊t⌋.toNat : Nat) : Rat) + 1 := by
    intro t ht0 ht
    have f0 : 0 ≤ ⌊t⌋ := Int.floor_nonneg.mpr ht0
    have f1 : ⌊t⌋ < 128 := by rw [Int.floor_lt]; exact_mod_cast ht
    have hc : ((⌊t⌋.toNat : Nat) : Rat) = ((⌊t⌋ : Int) : Rat) := by
      exact_mod_cast congrArg (Int.cast (R := Rat)) (Int.toNat_of_nonneg f0)
    have hlt : ⌊t⌋.toNat < 128 := by omega
    rw [hc]
    exact ⟨Nat.mod_eq_of_lt hlt, hlt, Int.floor_le t, Int.lt_floor_add_one t⟩
  by_cases h : wavmax < 1
  · obtain ⟨k1, k2, k3, k4⟩ := key (wavmax * 2 ^ 7) (by positivity) (by norm_num; linarith)
    simp only [h, if_true]
    rw [k1]
    refine ⟨Or.inl ⟨_, k2, by norm_num⟩, ?_, ?_⟩
    · rw [div_le_iff₀ (by norm_num)]; exact k3
    · norm_num at k4 ⊢; linarith
  · obtain ⟨k1, k2, k3, k4⟩ := key ((wavmax - 1) * 2 ^ 3)
      (mul_nonneg (by linarith) (by norm_num)) (by norm_num; linarith)
    simp only [h, if_false]
    rw [k1]
    refine ⟨Or.inr ⟨_, k2, by norm_num; ring⟩, ?_, ?_⟩
    · norm_num at k3 ⊢; linarith
    · norm_num at k4 ⊢; linarith

/-! ### Blocks -/

theorem magnitude_lt {x : List Int} {bits : Nat} (h : Fits x bits) (i : Nat) :
    magnitude x i < 2 ^ (bits + 1) := by
  unfold magnitude
  rw [List.getD_eq_getElem?_getD]
  cases hi : x[i]? with
  | none => simp
  | some v =>
    have := h v (List.mem_of_getElem? hi)
    simp only [Option.getD_some]
    exact_mod_cast this

theorem fine_header (bits : Nat) (wavmax : List Bool) :
    Fine False ((de2bi bits 4 ++ wavmax).map (·, 0)) := by
  intro b hb
  obtain ⟨c, -, rfl⟩ := List.mem_map.mp hb
  exact ⟨by norm_num, False.elim⟩

theorem resize_zeros {out : List Int} {n : Nat} (h : ∀ v ∈ out, v = 0) : resize out n = List.replicate n 0 := by
  apply List.eq_replicate_iff.mpr
  refine ⟨resize_length _ _, fun v hv => ?_⟩
  unfold resize at hv
  rcases List.mem_append.mp hv with hv | hv
  · exact h v (List.mem_of_mem_take hv)
  · exact (List.mem_replicate.mp hv).2

theorem outOk_zeros (x : List Int) (n : Nat) (h : ∀ i, magnitude x i < 2 ^ n) :
    OutOk x n (List.replicate x.length 0) := by
  refine ⟨List.length_replicate, fun i hi => ?_⟩
  rw [coarse_small (h i), List.getD_eq_getElem?_getD, List.getElem?_replicate, if_pos hi]
  rfl

theorem decodeSymbols_runs {x : List Int} {bits : Nat} (hb : bits < 16) (wavmax : Rat) (header : List Bool)
    (hw : Runs getWavmax (header.map (·, 0)) wavmax)
    {planes : List (Bool × Nat)} (out : List Int)
    (hp : Runs (decPlanes x.length bits (initLists x.length) (resize out x.length)) planes x) :
    Runs (decodeSymbols x.length out) ((de2bi bits 4 ++ header).map (·, 0) ++ planes) (x, wavmax, bits) := by
  unfold decodeSymbols
  simp only
  rw [List.map_append, List.append_assoc]
  refine Runs.bind (maxAllocBits_runs bits hb) ?_
  refine Runs.bind hw ?_
  exact Runs.pure_bind (g := fun o => (o, wavmax, bits)) hp

/-- The symbols of a block, whatever its coefficients and the number of bit planes. -/
theorem symbols_spec (x : List Int) (hx : IsBlock x) (bits : Nat) (header : List Bool)
    (m : List Int × List Int) :
    ∃ symbols, encodeSymbols x bits header m = .ok symbols ∧ (∀ b ∈ symbols, b.2 < CONTEXT_SIZE) ∧
      (1 ≤ bits → bits < 16 → ∃ b ∈ symbols, b.1 = true) ∧
      (Fits x bits → bits < 16 → ∀ wavmax, Runs getWavmax (header.map (·, 0)) wavmax →
        ∀ out : List Int, (∀ v ∈ out, v = 0) →
          Runs (decodeSymbols x.length out) symbols (x, wavmax, bits)) := by
  obtain ⟨k, hk, hlen⟩ := hx
  have hlen' : x.length = 4 * 2 ^ (k - 2) := by
    rw [hlen, show (4 : Nat) = 2 ^ 2 by norm_num, ← pow_add]
    congr 1
    omega
  obtain ⟨hm1, hm2⟩ := initMaxDescendants_bound x (k - 2) hlen' m
  obtain ⟨l1, l2⟩ := initLists_ok x (k - 2) hlen' (by omega) (bits + 1)
  obtain ⟨planes, p1, p2, p3⟩ := planes_spec x (k - 2) hlen' (by omega) _ hm1 hm2 False False.elim False.elim
    bits _ l1
  refine ⟨(de2bi bits 4 ++ header).map (·, 0) ++ planes, ?_, ?_, ?_, ?_⟩
  · unfold encodeSymbols
    simp only [p1, bind, Except.bind]
  · intro b hb
    exact ((fine_header bits header).append p2 b hb).1
  · intro h1 h16
    have : ∃ b ∈ de2bi bits 4, b = true := by
      have : ∀ n : Fin 16, 1 ≤ n.val → ∃ b ∈ de2bi n.val 4, b = true := by decide
      exact this ⟨bits, h16⟩ h1
    obtain ⟨b, hb, rfl⟩ := this
    exact ⟨(true, 0), List.mem_append_left _ (List.mem_map.mpr ⟨true, List.mem_append_left _ hb, rfl⟩), rfl⟩
  · intro hf h16 wavmax hw out hout
    apply decodeSymbols_runs h16 wavmax header hw out
    rw [resize_zeros hout]
    exact p3 (l2 (fun i _ => magnitude_lt hf i)) _ (outOk_zeros x _ (magnitude_lt hf))

/-- No stream stands for as many zeros as one likes. -/
theorem ready_zeros (d : Decoder) (hd : d.counters = resetCounters) (l : List (Bool × Nat))
    (h : ∀ b ∈ l, b.2 < CONTEXT_SIZE ∧ b.1 = false) : Ready (d.init (convert2bits [])) l := by
  obtain ⟨out, -, ⟨T, t1, -, -, t4⟩, -, e4⟩ := encodeLoop_spec l resetCounters 0 1024 0 reset_valid
    (fun x hx => (h x hx).1) ⟨by norm_num, by norm_num, by norm_num, by norm_num, by norm_num⟩
  rw [follow_zero] at t1
  have hz := e4 rfl rfl (fun x hx => (h x hx).2)
  have hT : T = toStr [] := by
    rw [← t1]
    funext i
    rw [toStr_getD, List.getD_eq_getElem?_getD]
    cases ho : out[i]? with
    | none => rfl
    | some b => exact hz b (List.mem_of_getElem? ho)
  subst hT
  exact t4 _ (init_at d _) hd

/-- **C22, blocks that are not written.** From no stream a block of zeros is decoded, with the maximum 0
and 0 bit planes. -/
theorem c22_empty (d : Decoder) (hd : d.counters = resetCounters) (k : Nat) (hk : 3 ≤ k) (out : List Int)
    (hout : ∀ v ∈ out, v = 0) :
    ∃ d', d.decodeEffect [] out (2 ^ k) = .ok ((List.replicate (2 ^ k) 0, 0, 0), d') ∧
      d'.counters = resetCounters := by
  set x : List Int := List.replicate (2 ^ k) 0 with hx
  have hlen0 : x.length = 2 ^ k := List.length_replicate
  have hlen' : x.length = 4 * 2 ^ (k - 2) := by
    rw [hlen0, show (4 : Nat) = 2 ^ 2 by norm_num, ← pow_add]
    congr 1
    omega
  have hmag : ∀ i, magnitude x i = 0 := by
    intro i
    unfold magnitude
    rw [hx, List.getD_eq_getElem?_getD, List.getElem?_replicate]
    split <;> rfl
  have hzero : ∀ (n j : Nat), (List.replicate n (0 : Int)).getD j 0 = 0 := by
    intro n j
    rw [List.getD_eq_getElem?_getD, List.getElem?_replicate]
    split <;> rfl
  obtain ⟨l1, l2⟩ := initLists_ok x (k - 2) hlen' (by omega) 1
  obtain ⟨planes, p1, p2, p3⟩ := planes_spec x (k - 2) hlen' (by omega)
    (List.replicate (2 * 2 ^ (k - 2)) 0, []) List.length_replicate
    (by
      intro t _ _
      refine ⟨?_, ?_, fun _ => ⟨?_, ?_, ?_⟩⟩ <;> simp only [hmag, hzero] <;> simp)
    True (fun _ i => by rw [hmag]) (fun _ j => by simp only [hzero]; simp) 0 _ l1
  have hfits : ∀ i, magnitude x i < 2 ^ 1 := fun i => by rw [hmag]; norm_num
  have hruns := decodeSymbols_runs (x := x) (bits := 0) (by norm_num) 0 (bitwavmax 0)
    (by
      have h0 : headerValue 0 = 0 := headerValue_representable (Or.inl ⟨0, by norm_num, by norm_num⟩)
      have := wavmax_runs 0
      rw [h0] at this
      exact this) out
    (by
      rw [resize_zeros hout]
      exact p3 (l2 (fun i _ => hfits i)) _ (outOk_zeros x _ hfits))
  have hready := ready_zeros d hd ((de2bi 0 4 ++ bitwavmax 0).map (·, 0) ++ planes) (by
    intro b hb
    rcases List.mem_append.mp hb with hb | hb
    · have : ∀ b ∈ (de2bi 0 4 ++ bitwavmax 0), b = false := by
        unfold bitwavmax quantMode
        norm_num
        decide
      obtain ⟨c, hc, rfl⟩ := List.mem_map.mp hb
      exact ⟨by norm_num, this c hc⟩
    · exact ⟨(p2 b hb).1, (p2 b hb).2 trivial⟩)
  obtain ⟨d', e1, -⟩ := hruns (d.init (convert2bits [])) [] (by rw [List.append_nil]; exact hready)
  refine ⟨{ d' with counters := resetCounters }, ?_, rfl⟩
  unfold Decoder.decodeEffect
  rw [if_neg (by positivity)]
  rw [hlen0] at e1
  rw [e1]

/-- **C22, C23, C24** A block with a coefficient that is not zero, with 1 to 15 bit planes, is encoded
without an exception; the decoder restores all coefficients, the number of bit planes and the maximum.  Both
are left in a state in which they can be used for the next block. -/
theorem c22_block (e : Encoder) (he : e.counters = resetCounters) (d : Decoder)
    (hd : d.counters = resetCounters) (x : List Int) (hx : IsBlock x) (hnz : ∃ v ∈ x, v ≠ 0) (bits : Nat)
    (hb1 : 1 ≤ bits) (hb : bits ≤ 15) (hf : Fits x bits) (wavmax : Rat) (hw : Representable wavmax)
    (out : List Int) (hout : ∀ v ∈ out, v = 0) :
    ∃ bytes e' d', e.encodeEffect x bits wavmax = .ok (bytes, e') ∧ e'.counters = resetCounters ∧
      d.decodeEffect bytes out x.length = .ok ((x, wavmax, bits), d') ∧ d'.counters = resetCounters := by
  obtain ⟨symbols, s1, s2, s3, s4⟩ := symbols_spec x hx bits (bitwavmax wavmax) e.maxDescendants
  obtain ⟨bytes, b1, b2⟩ := encode_spec symbols e.counters (by rw [he]; exact reset_valid)
    (by rw [he]; exact s2) (s3 hb1 (by omega))
  have hr := s4 hf (by omega) wavmax (by
    have := wavmax_runs wavmax
    rw [headerValue_representable hw] at this
    exact this) out hout
  obtain ⟨d', e1, -⟩ := hr (d.init (convert2bits (convert2bytes bytes))) [] (by
    rw [List.append_nil]
    exact b2 d (by rw [hd, he]))
  refine ⟨convert2bytes bytes, ⟨resetCounters, initMaxDescendants x e.maxDescendants⟩,
    { d' with counters := resetCounters }, ?_, rfl, ?_, rfl⟩
  · unfold Encoder.encodeEffect
    rw [if_neg (by omega), if_neg (by
      obtain ⟨v, hv, hv0⟩ := hnz
      rw [List.all_eq_true]
      intro h
      exact hv0 (by simpa using h v hv))]
    simp only [s1, b1, bind, Except.bind]
  · unfold Decoder.decodeEffect
    have : x.length ≠ 0 := by
      obtain ⟨k, -, hk⟩ := hx
      rw [hk]
      positivity
    rw [if_neg this, e1]

/-- **C22** Whatever the coefficients – also if all are zero, when nothing is written –, the decoder
restores the block. -/
theorem c22_lossless (e : Encoder) (he : e.counters = resetCounters) (d : Decoder)
    (hd : d.counters = resetCounters) (x : List Int) (hx : IsBlock x) (bits : Nat)
    (hb1 : 1 ≤ bits) (hb : bits ≤ 15) (hf : Fits x bits) (wavmax : Rat) (hw : Representable wavmax)
    (out : List Int) (hout : ∀ v ∈ out, v = 0) :
    ∃ bytes e' r d', e.encodeEffect x bits wavmax = .ok (bytes, e') ∧ e'.counters = resetCounters ∧
      d.decodeEffect bytes out x.length = .ok (r, d') ∧ d'.counters = resetCounters ∧ r.1 = x ∧
      ((∃ v ∈ x, v ≠ 0) → r = (x, wavmax, bits)) := by
  by_cases hnz : ∃ v ∈ x, v ≠ 0
  · obtain ⟨bytes, e', d', h1, h2, h3, h4⟩ :=
      c22_block e he d hd x hx hnz bits hb1 hb hf wavmax hw out hout
    exact ⟨bytes, e', _, d', h1, h2, h3, h4, rfl, fun _ => rfl⟩
  · have hz : ∀ v ∈ x, v = 0 := fun v hv => by
      by_contra h
      exact hnz ⟨v, hv, h⟩
    obtain ⟨k, hk, hlen⟩ := hx
    have hxr : x = List.replicate (2 ^ k) 0 := List.eq_replicate_iff.mpr ⟨hlen, hz⟩
    obtain ⟨d', h1, h2⟩ := c22_empty d hd k hk out hout
    refine ⟨[], e, (List.replicate (2 ^ k) 0, 0, 0), d', ?_, he, ?_, h2, hxr.symm, fun h => absurd h hnz⟩
    · unfold Encoder.encodeEffect
      rw [if_neg (by omega), if_pos (by
        rw [List.all_eq_true]
        intro v hv
        simpa using hz v hv)]
    · rw [hlen]; exact h1

/-- **C22, a whole band.** Any number of blocks that go through one encoder and one decoder, in order: the
decoder restores all of them. -/
theorem c22_blocks (k : Nat) (hk : 3 ≤ k) (l : List (List Int × Nat × Rat))
    (hl : ∀ b ∈ l, b.1.length = 2 ^ k ∧ 1 ≤ b.2.1 ∧ b.2.1 ≤ 15 ∧ Fits b.1 b.2.1 ∧ Representable b.2.2)
    (e : Encoder) (he : e.counters = resetCounters) (d : Decoder) (hd : d.counters = resetCounters) :
    ∃ streams blocks, encodeBlocks e l = .ok streams ∧ decodeBlocks d (2 ^ k) streams = .ok blocks ∧
      blocks.map (·.1) = l.map (·.1) := by
  induction l generalizing e d with
  | nil => exact ⟨[], [], rfl, rfl, rfl⟩
  | cons b l ih =>
    obtain ⟨x, bits, wavmax⟩ := b
    obtain ⟨h1, h2, h3, h4, h5⟩ := hl (x, bits, wavmax) (by simp)
    simp only at h1 h2 h3 h4 h5
    obtain ⟨bytes, e', r, d', r1, r2, r3, r4, r5, -⟩ := c22_lossless e he d hd x ⟨k, hk, h1⟩ bits h2 h3 h4
      wavmax h5 (List.replicate (2 ^ k) 0) (fun v hv => (List.mem_replicate.mp hv).2)
    obtain ⟨streams, blocks, s1, s2, s3⟩ := ih (fun b hb => hl b (by simp [hb])) e' r2 d' r4
    rw [h1] at r3
    refine ⟨bytes :: streams, r :: blocks, ?_, ?_, ?_⟩
    · simp only [encodeBlocks, r1, s1, bind, Except.bind]
    · simp only [decodeBlocks, r3, s2, bind, Except.bind]
    · rw [List.map_cons, List.map_cons, r5, s3]

/-- **C23** The encoder does not throw and does not read outside its vectors: for no block, whatever the
coefficients – also ones too large for the bit planes –, the maximum, and what was encoded before. -/
theorem c23_returns (e : Encoder) (he : e.counters = resetCounters) (x : List Int) (hx : IsBlock x) (bits : Nat)
    (hb : bits ≤ 15) (wavmax : Rat) :
    ∃ bytes e', e.encodeEffect x bits wavmax = .ok (bytes, e') ∧ e'.counters = resetCounters := by
  unfold Encoder.encodeEffect
  split
  · exact ⟨_, _, rfl, he⟩
  · split
    · exact ⟨_, _, rfl, he⟩
    · obtain ⟨symbols, s1, s2, s3, -⟩ := symbols_spec x hx bits (bitwavmax wavmax) e.maxDescendants
      obtain ⟨bytes, b1, -⟩ := encode_spec symbols e.counters (by rw [he]; exact reset_valid)
        (by rw [he]; exact s2) (s3 (by omega) (by omega))
      exact ⟨convert2bytes bytes, ⟨resetCounters, initMaxDescendants x e.maxDescendants⟩,
        by simp only [s1, b1, bind, Except.bind], rfl⟩

/-- **C22, C23, shorter blocks.** A block of four coefficients is not safe: the encoder reads behind its
end. -/
theorem c22_short_unsafe (e : Encoder) (x : List Int) (hx : x.length = 4) (hnz : ∃ v ∈ x, v ≠ 0) (bits : Nat)
    (hb : 1 ≤ bits) (wavmax : Rat) : e.encodeEffect x bits wavmax = .error .ub := by
  have hlip : ∀ (c : Int), encLip x c [0, 1, 2, 3, 4, 5, 6, 7] = .error .ub := by
    intro c
    have h4 : encLip x c [4, 5, 6, 7] = .error .ub := by
      unfold encLip
      rw [List.getElem?_eq_none (by omega)]
    have step : ∀ i l, i < 4 → encLip x c l = .error .ub → encLip x c (i :: l) = .error .ub := by
      intro i l hi hl
      unfold encLip
      rw [List.getElem?_eq_getElem (by omega)]
      simp only [hl, bind, Except.bind]
    exact step 0 _ (by norm_num) (step 1 _ (by norm_num) (step 2 _ (by norm_num) (step 3 _ (by norm_num) h4)))
  have hpass : ∀ m n, encPass x m n (initLists x.length) = .error .ub := by
    intro m n
    unfold encPass
    rw [initLists_eq (by omega)]
    simp only [hlip, bind, Except.bind]
  have hplanes : ∀ m n, encPlanes x m n (initLists x.length) = .error .ub := by
    intro m n
    cases n <;> simp only [encPlanes, hpass, bind, Except.bind]
  unfold Encoder.encodeEffect
  rw [if_neg (by omega), if_neg (by
    obtain ⟨v, hv, hv0⟩ := hnz
    rw [List.all_eq_true]
    intro h
    exact hv0 (by simpa using h v hv))]
  simp only [encodeSymbols, hplanes, bind, Except.bind]

/-- **C22, too large coefficients.** Without the condition on the magnitudes it does not hold: 4, with one bit
plane too few, is decoded as 2. -/
theorem c22_fits_negation : ∃ x : List Int, IsBlock x ∧ ¬ Fits x 1 ∧
    ∃ bytes e' r d', ({} : Encoder).encodeEffect x 1 (1 / 2) = .ok (bytes, e') ∧
      ({} : Decoder).decodeEffect bytes [] 8 = .ok (r, d') ∧ r.1 ≠ x := by
  have key : ((({} : Encoder).encodeEffect [4, 0, 0, 0, 0, 0, 0, 0] 1 (1 / 2)).toOption.bind (fun r =>
      (({} : Decoder).decodeEffect r.1 [] 8).toOption)).map (·.1.1) = some [2, 0, 0, 0, 0, 0, 0, 0] := by
    decide +kernel
  refine ⟨[4, 0, 0, 0, 0, 0, 0, 0], ⟨3, le_rfl, rfl⟩, fun h => ?_, ?_⟩
  · have := h 4 (by simp)
    norm_num at this
  · cases h1 : ({} : Encoder).encodeEffect [4, 0, 0, 0, 0, 0, 0, 0] 1 (1 / 2) with
    | error e => rw [h1] at key; cases key
    | ok p =>
      rw [h1] at key
      change Option.map _ ((({} : Decoder).decodeEffect p.1 [] 8).toOption) = _ at key
      cases h2 : ({} : Decoder).decodeEffect p.1 [] 8 with
      | error e => rw [h2] at key; cases key
      | ok q =>
        rw [h2] at key
        refine ⟨p.1, p.2, q.1, q.2, rfl, h2, ?_⟩
        have : q.1.1 = [2, 0, 0, 0, 0, 0, 0, 0] := Option.some.inj key
        rw [this]
        decide

/-- Non-vacuity: sixteen coefficients of both signs in three bit planes (numbered 0 to 2) with the maximum
9/8. -/
example : ∃ x : List Int, IsBlock x ∧ (∃ v ∈ x, v ≠ 0) ∧ Fits x 2 ∧ Representable (9 / 8) ∧
    (({} : Encoder).encodeEffect x 2 (9 / 8)).toOption.map (·.1)
      = some [10, 220, 53, 6, 225, 217, 96, 3] :=
  ⟨[4, -3, 0, 1, 0, 0, -5, 2, 0, 0, 0, 7, 0, 0, -1, 0], ⟨4, by norm_num, rfl⟩, ⟨4, by simp, by norm_num⟩,
    by unfold Fits; decide, Or.inr ⟨1, by norm_num, by norm_num⟩, by decide +kernel⟩

end Haptics.Spiht
