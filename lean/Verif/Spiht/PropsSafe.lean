import Verif.Spiht.PropsSpiht

/-
C66: decoding a wavelet stream is safe, whatever the stream.
-/
namespace Haptics.Spiht

/-- In any state of the arithmetic decoder, whatever is left of the stream, this part of the decoder returns
a result that satisfies `P`. -/
def Safe {α : Type} (p : Dec α) (P : α → Prop) : Prop :=
  ∀ d, d.Good → ∃ a d', p d = .ok (a, d') ∧ d'.Good ∧ P a

theorem Safe.pure {α : Type} {a : α} {P : α → Prop} (h : P a) : Safe (Pure.pure a : Dec α) P :=
  fun d hd => ⟨a, d, rfl, hd, h⟩

theorem Safe.bind {α β : Type} {p : Dec α} {f : α → Dec β} {P : α → Prop} {R : β → Prop}
    (h1 : Safe p P) (h2 : ∀ a, P a → Safe (f a) R) : Safe (p >>= f) R := by
  intro d hd
  obtain ⟨a, d1, e1, g1, p1⟩ := h1 d hd
  obtain ⟨b, d2, e2, g2, p2⟩ := h2 a p1 d1 g1
  refine ⟨b, d2, ?_, g2, p2⟩
  change (p d >>= fun r => f r.1 r.2) = _
  rw [e1]
  exact e2

theorem Safe.bit {context : Nat} (hc : context < CONTEXT_SIZE) : Safe (getBit context) (fun _ => True) := by
  intro d hd
  obtain ⟨s, d', h1, h2⟩ := c21_decode d hd context hc
  exact ⟨s, d', h1, h2, trivial⟩

theorem Safe.store {out : List Int} {i : Nat} {v : Int} {n : Nat} (hn : out.length = n) (hi : i < n) :
    Safe (store out i v) (fun o => o.length = n) := by
  unfold Haptics.Spiht.store
  rw [if_pos (by omega)]
  exact Safe.pure (by rw [List.length_set]; exact hn)

theorem Safe.bits {context : Nat} (hc : context < CONTEXT_SIZE) (n : Nat) :
    Safe (getBits context n) (fun l => l.length = n) := by
  induction n with
  | zero => exact Safe.pure rfl
  | succ n ih =>
    exact Safe.bind (Safe.bit hc) (fun b _ => Safe.bind ih (fun l hl => Safe.pure (by simp [hl])))

/-- Results of a pass: a block of the same length, and indices inside it. -/
def Inside (n : Nat) (r : List Int × List Nat × List Nat) : Prop :=
  r.1.length = n ∧ (∀ i ∈ r.2.1, i < n) ∧ ∀ i ∈ r.2.2, i < n

theorem decLip_safe (n : Nat) (c : Int) : ∀ (l : List Nat) (out : List Int), out.length = n →
    (∀ i ∈ l, i < n) → Safe (decLip c l out) (Inside n) := by
  intro l
  induction l with
  | nil => exact fun out h _ => Safe.pure ⟨h, by simp, by simp⟩
  | cons i l ih =>
    intro out h hl
    have hi := hl i (by simp)
    have hl' : ∀ j ∈ l, j < n := fun j hj => hl j (by simp [hj])
    unfold decLip
    refine Safe.bind (Safe.bit (by decide)) (fun f _ => ?_)
    cases f with
    | true =>
      simp only [if_true]
      refine Safe.bind (Safe.bit (by decide)) (fun s _ => ?_)
      refine Safe.bind (Safe.store h hi) (fun o ho => ?_)
      refine Safe.bind (ih o ho hl') (fun r hr => Safe.pure ⟨hr.1, hr.2.1, ?_⟩)
      intro j hj
      rcases List.mem_cons.mp hj with rfl | hj
      · exact hi
      · exact hr.2.2 j hj
    | false =>
      simp only [Bool.false_eq_true, if_false]
      refine Safe.bind (ih out h hl') (fun r hr => Safe.pure ⟨hr.1, ?_, hr.2.2⟩)
      intro j hj
      rcases List.mem_cons.mp hj with rfl | hj
      · exact hi
      · exact hr.2.1 j hj

theorem decChild_safe (n : Nat) (c : Int) (i : Nat) (hi : i < n) (out : List Int) (h : out.length = n) :
    Safe (decChild c i out) (Inside n) := by
  unfold decChild
  refine Safe.bind (Safe.bit (by decide)) (fun f _ => ?_)
  cases f with
  | true =>
    simp only [if_true]
    refine Safe.bind (Safe.bit (by decide)) (fun s _ => ?_)
    exact Safe.bind (Safe.store h hi) (fun o ho => Safe.pure ⟨ho, by simp, by simpa using hi⟩)
  | false =>
    simp only [Bool.false_eq_true, if_false]
    exact Safe.pure ⟨h, by simpa using hi, by simp⟩

/-- An entry of `LIS` whose children are inside the block. -/
def ChildrenInside (n : Nat) (e : Nat × Bool) : Prop := EntryOk n e ∧ 2 * e.1 + 1 < n

/-- The lists stay inside the block. -/
structure ListsSafe (n : Nat) (s : Lists) : Prop where
  lip : ∀ i ∈ s.lip, i < n
  lsp : ∀ i ∈ s.lsp, i < n
  lis : ∀ e ∈ s.lis, ChildrenInside n e
  fuel : weights n s.lis < lisFuel n

theorem decLis_safe (n : Nat) (c : Int) (F : Nat) : ∀ (fuel : Nat) (todo kept : List (Nat × Bool))
    (lip lsp : List Nat) (out : List Int), weights n todo < fuel → weights n kept + weights n todo < F →
    out.length = n → (∀ i ∈ lip, i < n) → (∀ i ∈ lsp, i < n) → (∀ e ∈ kept, ChildrenInside n e) →
    (∀ e ∈ todo, ChildrenInside n e) →
    Safe (decLis n c fuel todo kept lip lsp out) (fun r => r.1.length = n ∧ (∀ i ∈ r.2.lip, i < n) ∧
      (∀ i ∈ r.2.lsp, i < n) ∧ (∀ e ∈ r.2.lis, ChildrenInside n e) ∧ weights n r.2.lis < F) := by
  intro fuel
  induction fuel with
  | zero => intro todo kept lip lsp out h; omega
  | succ fuel ih =>
    intro todo kept lip lsp out hf hF ho hlip hlsp hkept htodo
    cases todo with
    | nil =>
      refine Safe.pure ⟨ho, hlip, hlsp, hkept, ?_⟩
      simp only
      omega
    | cons e todo =>
      obtain ⟨y, b⟩ := e
      obtain ⟨⟨hy4, hyB⟩, hyc⟩ := htodo (y, b) (by simp)
      simp only at hy4 hyB hyc
      have htodo' : ∀ e ∈ todo, ChildrenInside n e := fun e he => htodo e (by simp [he])
      rw [weights_cons] at hf hF
      have hw := weight_pos n (y, b)
      have stay : Safe (decLis n c fuel todo (kept ++ [(y, b)]) lip lsp out)
          (fun r => r.1.length = n ∧ (∀ i ∈ r.2.lip, i < n) ∧
            (∀ i ∈ r.2.lsp, i < n) ∧ (∀ e ∈ r.2.lis, ChildrenInside n e) ∧ weights n r.2.lis < F) := by
        apply ih todo (kept ++ [(y, b)]) lip lsp out (by omega) ?_ ho hlip hlsp ?_ htodo'
        · rw [weights_append, weights_cons]
          simp only [weights, List.map_nil, List.sum_nil] at hF ⊢
          omega
        · intro e he
          rcases List.mem_append.mp he with he | he
          · exact hkept e he
          · rw [List.mem_singleton] at he
            subst he
            exact ⟨⟨hy4, hyB⟩, hyc⟩
      cases b with
      | false =>
        unfold decLis
        refine Safe.bind (Safe.bit (by decide)) (fun f _ => ?_)
        cases f with
        | true =>
          simp only [if_true]
          refine Safe.bind (decChild_safe n c (2 * y) (by omega) out ho) (fun a ha => ?_)
          refine Safe.bind (decChild_safe n c (2 * y + 1) (by omega) a.1 ha.1) (fun b hb => ?_)
          have hwt : weights n (if 4 * y + 3 < n then [(y, true)] else []) + 1 ≤ weight n (y, false) := by
            have : 0 < 4 ^ (n - y) := by positivity
            split <;> simp [weights, weight] <;> omega
          apply ih _ kept _ _ b.1 (by rw [weights_append]; omega) (by rw [weights_append]; omega) hb.1
          · intro i hi
            simp only [List.mem_append] at hi
            rcases hi with (hi | hi) | hi
            · exact hlip i hi
            · exact ha.2.1 i hi
            · exact hb.2.1 i hi
          · intro i hi
            simp only [List.mem_append] at hi
            rcases hi with (hi | hi) | hi
            · exact hlsp i hi
            · exact ha.2.2 i hi
            · exact hb.2.2 i hi
          · exact hkept
          · intro e he
            rcases List.mem_append.mp he with he | he
            · exact htodo' e he
            · split at he
              · rw [List.mem_singleton] at he
                subst he
                exact ⟨⟨hy4, fun _ => by assumption⟩, hyc⟩
              · simp at he
        | false =>
          simp only [Bool.false_eq_true, if_false]
          exact stay
      | true =>
        have hy3 : 4 * y + 3 < n := hyB rfl
        unfold decLis
        refine Safe.bind (Safe.bit (by decide)) (fun f _ => ?_)
        cases f with
        | true =>
          simp only [if_true]
          have hwt := weight_children (length := n) hy4 (by omega)
          apply ih _ kept lip lsp out (by rw [weights_append]; omega) (by rw [weights_append]; omega) ho hlip
            hlsp hkept
          intro e he
          rcases List.mem_append.mp he with he | he
          · exact htodo' e he
          · simp only [List.mem_cons, List.not_mem_nil, or_false] at he
            rcases he with rfl | rfl
            · exact ⟨⟨by simp only; omega, by simp⟩, by simp only; omega⟩
            · exact ⟨⟨by simp only; omega, by simp⟩, by simp only; omega⟩
        | false =>
          simp only [Bool.false_eq_true, if_false]
          exact stay

theorem decRefine_safe (n : Nat) (c : Int) : ∀ (l : List Nat) (out : List Int), out.length = n →
    (∀ i ∈ l, i < n) → Safe (decRefine c l out) (fun o => o.length = n) := by
  intro l
  induction l with
  | nil => exact fun out h _ => Safe.pure h
  | cons i l ih =>
    intro out h hl
    have hi := hl i (by simp)
    have hl' : ∀ j ∈ l, j < n := fun j hj => hl j (by simp [hj])
    unfold decRefine
    refine Safe.bind (Safe.bit (by decide)) (fun f _ => ?_)
    cases f with
    | true =>
      simp only [if_true]
      rw [List.getElem?_eq_getElem (by omega)]
      exact ih _ (by rw [List.length_set]; exact h) hl'
    | false =>
      simp only [Bool.false_eq_true, if_false]
      exact ih out h hl'

theorem decPass_safe (n : Nat) (p : Nat) (s : Lists) (hs : ListsSafe n s) (out : List Int)
    (h : out.length = n) :
    Safe (decPass n p s out) (fun r => r.1.length = n ∧ ListsSafe n r.2) := by
  obtain ⟨h1, h2, h3, h4⟩ := hs
  unfold decPass
  refine Safe.bind (decLip_safe n _ s.lip out h h1) (fun a ha => ?_)
  refine Safe.bind (decLis_safe n _ (lisFuel n) (lisFuel n) s.lis [] a.2.1 (s.lsp ++ a.2.2) a.1 h4
    (by simp only [weights, List.map_nil, List.sum_nil, zero_add] at h4 ⊢; exact h4) ha.1 ha.2.1 ?_ (by simp) h3)
    (fun b hb => ?_)
  · intro i hi
    rcases List.mem_append.mp hi with hi | hi
    · exact h2 i hi
    · exact ha.2.2 i hi
  · refine Safe.bind (decRefine_safe n _ _ b.1 hb.1 (fun i hi => hb.2.2.1 i (List.mem_of_mem_take hi)))
      (fun o ho => Safe.pure ⟨ho, hb.2.1, hb.2.2.1, hb.2.2.2.1, hb.2.2.2.2⟩)

theorem decPlanes_safe (n : Nat) : ∀ (p : Nat) (s : Lists), ListsSafe n s → ∀ out : List Int, out.length = n →
    Safe (decPlanes n p s out) (fun o => o.length = n) := by
  intro p
  induction p with
  | zero =>
    intro s hs out h
    exact Safe.bind (decPass_safe n 0 s hs out h) (fun r hr => Safe.pure hr.1)
  | succ p ih =>
    intro s hs out h
    exact Safe.bind (decPass_safe n (p + 1) s hs out h) (fun r hr => ih r.2 hr.2 r.1 hr.1)

theorem bi2de_lt (l : List Bool) : bi2de l < 2 ^ l.length := by
  induction l with
  | nil => simp [bi2de]
  | cons b l ih =>
    rw [bi2de, List.length_cons, pow_succ]
    cases b <;> simp <;> omega

/-- **C66** Whatever bytes it gets as a wavelet stream, also damaged or truncated ones, the decoder of a
block of at least sixteen coefficients returns: it does not read or write outside the block, does not throw,
and does not loop for ever.  The block has the announced length, and there are at most 15 bit planes; the
decoder can be used again. -/
theorem c66_any_stream (d : Decoder) (hd : d.counters = resetCounters) (bytes : List UInt8) (out : List Int)
    (length : Nat) (h : 16 ≤ length) :
    ∃ block wavmax bits d', d.decodeEffect bytes out length = .ok ((block, wavmax, bits), d') ∧
      block.length = length ∧ 0 ≤ wavmax ∧ wavmax < 17 ∧ bits ≤ 15 ∧ d'.counters = resetCounters := by
  have hgood : (d.init (convert2bits bytes)).Good := c21_init d (by rw [hd]; exact reset_valid)
    (by rw [hd]; rfl) _
  have hlists : ListsSafe length (initLists length) := by
    rw [initLists_eq (by omega)]
    refine ⟨?_, by simp, ?_, ?_⟩
    · intro i hi
      simp only [List.mem_cons, List.not_mem_nil, or_false] at hi
      omega
    · intro e he
      simp only [List.mem_cons, List.not_mem_nil, or_false] at he
      rcases he with rfl | rfl | rfl | rfl <;>
        exact ⟨⟨by norm_num, by simp⟩, by simp only; omega⟩
    · unfold lisFuel weights weight
      simp only [List.map_cons, List.map_nil, List.sum_cons, List.sum_nil, Bool.false_eq_true, if_false]
      have e : length = (length - 7) + 7 := by omega
      rw [show length - 4 = (length - 7) + 3 by omega, show length - 5 = (length - 7) + 2 by omega,
        show length - 6 = (length - 7) + 1 by omega]
      conv_rhs => rw [e]
      rw [pow_add, pow_add, pow_add, pow_add]
      have : 0 < 4 ^ (length - 7) := by positivity
      omega
  have hsafe : Safe (decodeSymbols length out) (fun r => r.1.length = length ∧ 0 ≤ r.2.1 ∧ r.2.1 < 17 ∧
      r.2.2 ≤ 15) := by
    unfold decodeSymbols
    simp only
    refine Safe.bind (P := fun b => b ≤ 15) ?_ (fun bits hbits => ?_)
    · unfold getMaxAllocBits
      refine Safe.bind (Safe.bits (by decide) 4) (fun l hl => Safe.pure ?_)
      have := bi2de_lt l
      rw [hl] at this
      omega
    refine Safe.bind (P := fun w => 0 ≤ w ∧ w < 17) ?_ (fun wavmax hw => ?_)
    · unfold getWavmax
      refine Safe.bind (Safe.bit (by decide)) (fun mode _ => ?_)
      refine Safe.bind (Safe.bits (by decide) 7) (fun l hl => Safe.pure ?_)
      have hlt := bi2de_lt l
      rw [hl] at hlt
      have h0 : (0 : Rat) ≤ (bi2de l : Rat) := by positivity
      have h1 : (bi2de l : Rat) < 128 := by exact_mod_cast hlt
      split
      · refine ⟨by positivity, ?_⟩
        rw [div_lt_iff₀ (by norm_num)]
        norm_num
        linarith
      · refine ⟨by positivity, ?_⟩
        have : (bi2de l : Rat) / 2 ^ 3 < 16 := by
          rw [div_lt_iff₀ (by norm_num)]
          norm_num
          linarith
        linarith
    exact Safe.bind (decPlanes_safe length bits _ hlists _ (resize_length _ _))
      (fun o ho => Safe.pure ⟨ho, hw.1, hw.2, hbits⟩)
  obtain ⟨⟨block, wavmax, bits⟩, d', e1, -, e3, e4, e5, e6⟩ := hsafe _ hgood
  refine ⟨block, wavmax, bits, { d' with counters := resetCounters }, ?_, e3, e4, e5, e6, rfl⟩
  unfold Decoder.decodeEffect
  rw [if_neg (by omega), e1]

/-- The outcome of decoding with a new decoder. -/
def errorOf (bytes : List UInt8) (length : Nat) : Option Err :=
  match ({} : Decoder).decodeEffect bytes (List.replicate length 0) length with
  | .error e => some e
  | .ok _ => none

/-- **C66, shorter blocks.** For blocks of 8 and of 15 coefficients it does not hold: two bytes are enough to
make the decoder write behind the end of the block. -/
theorem c66_unsafe : errorOf [1, 128] 8 = some .ub ∧ errorOf [255, 255] 15 = some .ub := by
  decide +kernel

/-- **C66, no coefficients.** A band that announces the block length 0 makes the decoder convert the
logarithm of 0 to an integer. -/
theorem c66_zero_unsafe (d : Decoder) (bytes : List UInt8) (out : List Int) :
    d.decodeEffect bytes out 0 = .error .ub := rfl

/-- Non-vacuity: the same two bytes for 16 coefficients. -/
example : errorOf [1, 128] 16 = none ∧ errorOf [255, 255] 16 = none := by decide +kernel

end Haptics.Spiht
