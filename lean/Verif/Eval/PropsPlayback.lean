import Verif.Eval.Playback
import Verif.Eval.SpecPlayback
import Verif.Bits.FloatDouble
import Verif.Wavelet.PropsSignal
import Verif.Encoder.PropsIvsTime
import Mathlib.Tactic.LinearCombination

/-! C88: which sample of the signal each sample of the output is. -/

namespace Haptics.Playback
open Haptics

theorem truncQ_int (z : Int) : truncQ (z : ℚ) = z := by
  unfold truncQ
  split <;> simp

theorem castInt_int {z : Int} (h0 : 0 ≤ z) (h1 : z < 2 ^ 31) : castInt (z : ℚ) = .ok z := by
  unfold castInt
  rw [truncQ_int, if_pos ⟨by omega, h1⟩]

theorem position_eq (ts fs ti : Nat) : position ts fs 0 ti = fl64 (ts * fl64 ((ti : ℚ) / fs)) := by
  unfold position
  rw [Int.cast_zero, zero_mul, fl64_zero, sub_zero, fl64_fl64]

theorem position_nonneg (ts fs ti : Nat) : 0 ≤ position ts fs 0 ti := by
  rw [position_eq]
  have : 0 ≤ fl64 ((ti : ℚ) / fs) := flo_nonneg _ _ (by positivity)
  exact flo_nonneg _ _ (by positivity)

/-- The rounded position, in samples, is not far off. -/
theorem position_close {ts fs ti : Nat} (hts : 0 < ts) (hfs : 0 < fs) (hfs' : fs < 2 ^ 31) (hti : ti < 2 ^ 31) :
    (ts : ℚ) * ti - ts / 2 ^ 20 ≤ position ts fs 0 ti * fs ∧ position ts fs 0 ti * fs ≤ ts * ti + ts / 2 ^ 20 := by
  rw [position_eq]
  have hf : (0 : ℚ) < fs := by exact_mod_cast hfs
  have hf' : (fs : ℚ) ≤ 2 ^ 31 := by exact_mod_cast hfs'.le
  have ht : (1 : ℚ) ≤ ts := by exact_mod_cast hts
  have hn0 : (0 : ℚ) ≤ ti := by positivity
  have hn : (ti : ℚ) ≤ 2 ^ 31 := by exact_mod_cast hti.le
  obtain ⟨a1, a2⟩ := Ivs.fl64_close ((ti : ℚ) / fs) (by positivity)
  have ha0 : 0 ≤ fl64 ((ti : ℚ) / fs) := flo_nonneg _ _ (by positivity)
  set a := fl64 ((ti : ℚ) / fs)
  have e : (ti : ℚ) / fs * fs = ti := by field_simp
  have b1 : ti - 1 / 2 ^ 21 ≤ a * fs := by
    have := mul_le_mul_of_nonneg_right a1 hf.le
    have e2 : ((ti : ℚ) / fs - (ti / fs / 2 ^ 53 + 1 / 2 ^ 100)) * fs = ti - (ti / 2 ^ 53 + fs / 2 ^ 100) := by
      field_simp
    linarith
  have b2 : a * fs ≤ ti + (1 / 2 ^ 22 + 1 / 2 ^ 60) := by
    have := mul_le_mul_of_nonneg_right a2 hf.le
    have e2 : ((ti : ℚ) / fs + (ti / fs / 2 ^ 53 + 1 / 2 ^ 100)) * fs = ti + (ti / 2 ^ 53 + fs / 2 ^ 100) := by
      field_simp
    linarith
  have b1' : ti - (1 / 2 ^ 22 + 1 / 2 ^ 60) ≤ a * fs := by
    have := mul_le_mul_of_nonneg_right a1 hf.le
    have e2 : ((ti : ℚ) / fs - (ti / fs / 2 ^ 53 + 1 / 2 ^ 100)) * fs = ti - (ti / 2 ^ 53 + fs / 2 ^ 100) := by
      field_simp
    linarith
  obtain ⟨c1, c2⟩ := Ivs.fl64_close ((ts : ℚ) * a) (by positivity)
  set p := fl64 ((ts : ℚ) * a)
  have d1 := mul_le_mul_of_nonneg_right c1 hf.le
  have d2 := mul_le_mul_of_nonneg_right c2 hf.le
  have f1 : (ts : ℚ) * (ti - (1 / 2 ^ 22 + 1 / 2 ^ 60)) ≤ ts * (a * fs) := mul_le_mul_of_nonneg_left b1' (by linarith)
  have f2 : (ts : ℚ) * (a * fs) ≤ ts * (ti + (1 / 2 ^ 22 + 1 / 2 ^ 60)) := mul_le_mul_of_nonneg_left b2 (by linarith)
  have f3 : (ts : ℚ) * (a * fs) ≤ ts * (2 ^ 31 + 1) :=
    mul_le_mul_of_nonneg_left (by linarith) (by linarith)
  have e1 : ((ts : ℚ) * a - (ts * a / 2 ^ 53 + 1 / 2 ^ 100)) * fs =
      ts * (a * fs) - (ts * (a * fs) / 2 ^ 53 + fs / 2 ^ 100) := by ring
  have e2 : ((ts : ℚ) * a + (ts * a / 2 ^ 53 + 1 / 2 ^ 100)) * fs =
      ts * (a * fs) + (ts * (a * fs) / 2 ^ 53 + fs / 2 ^ 100) := by ring
  have g : (fs : ℚ) / 2 ^ 100 ≤ ts / 2 ^ 60 := by
    have : (fs : ℚ) / 2 ^ 100 ≤ 2 ^ 31 / 2 ^ 100 := by gcongr
    have h2 : (1 : ℚ) / 2 ^ 60 ≤ ts / 2 ^ 60 := by gcongr
    have h3 : (2 : ℚ) ^ 31 / 2 ^ 100 ≤ 1 / 2 ^ 60 := by norm_num
    linarith
  rw [e1] at d1
  rw [e2] at d2
  constructor
  · linarith
  · linarith

section
variable {ts fs bl bt ti : Nat}

theorem position_lt (hts : 0 < ts) (hts' : ts < 2 ^ 21) (hfs : 0 < fs) (hfs' : fs < 2 ^ 31) (hti : ti < 2 ^ 31) :
    position ts fs 0 ti < 2 ^ 53 := by
  have h := (position_close hts hfs hfs' hti).2
  have h0 := position_nonneg ts fs ti
  have h1 : (1 : ℚ) ≤ fs := by exact_mod_cast hfs
  have h2 : (ts : ℚ) ≤ 2 ^ 21 := by exact_mod_cast hts'.le
  have h2' : (0 : ℚ) ≤ ts := by positivity
  have h3 : (ti : ℚ) ≤ 2 ^ 31 := by exact_mod_cast hti.le
  have h3' : (0 : ℚ) ≤ ti := by positivity
  have : position ts fs 0 ti ≤ position ts fs 0 ti * fs := le_mul_of_one_le_right h0 h1
  have : (ts : ℚ) * ti ≤ 2 ^ 21 * 2 ^ 31 := mul_le_mul h2 h3 h3' (by norm_num)
  linarith

theorem isDouble_position : IsDouble (position ts fs 0 ti) := by
  rw [position_eq]; exact isDouble_fl64 _

/-- The relative position that is computed for block `j`. -/
theorem relative_close (hts : 0 < ts) (hts' : ts < 2 ^ 21) (hfs : 0 < fs) (hfs' : fs < 2 ^ 31) (hti : ti < 2 ^ 31)
    (hbt : bt * fs = bl * ts) (j : Nat) (hj : ((j * bt : ℕ) : ℚ) ≤ position ts fs 0 ti) :
    0 ≤ relative ts fs (j * bt) (position ts fs 0 ti) ∧
    (ti : ℚ) - j * bl - 1 / 2 ≤ relative ts fs (j * bt) (position ts fs 0 ti) ∧
    relative ts fs (j * bt) (position ts fs 0 ti) ≤ ti - j * bl + 1 / 2 := by
  obtain ⟨p1, p2⟩ := position_close hts hfs hfs' hti
  have hp := position_lt hts hts' hfs hfs' hti
  unfold relative
  rw [fl64_sub_nat isDouble_position hp _ hj]
  set p := position ts fs 0 ti
  have hf : (0 : ℚ) < fs := by exact_mod_cast hfs
  have ht : (1 : ℚ) ≤ ts := by exact_mod_cast hts
  have hn : (ti : ℚ) ≤ 2 ^ 31 := by exact_mod_cast hti.le
  have hn0 : (0 : ℚ) ≤ ti := by positivity
  have hbt' : (bt : ℚ) * fs = bl * ts := by exact_mod_cast hbt
  have hjn : (0 : ℚ) ≤ j * bl := by positivity
  have hx : 0 ≤ p - (j * bt : ℕ) := by linarith
  have e : (p - (j * bt : ℕ)) * fs = p * fs - ts * (j * bl) := by
    push_cast
    linear_combination -(j : ℚ) * hbt'
  have hx0 : 0 ≤ (p - (j * bt : ℕ)) * fs := by positivity
  obtain ⟨y1, y2⟩ := Ivs.fl64_close _ hx0
  have hy0 : 0 ≤ fl64 ((p - (j * bt : ℕ)) * fs) := flo_nonneg _ _ hx0
  set y := fl64 ((p - (j * bt : ℕ)) * fs)
  rw [e] at y1 y2 hx0
  have hr0 : 0 ≤ y / ts := by positivity
  obtain ⟨r1, r2⟩ := Ivs.fl64_close _ hr0
  refine ⟨flo_nonneg _ _ hr0, ?_⟩
  set r := fl64 (y / ts)
  have htj : (0 : ℚ) ≤ ts * (j * bl) := by positivity
  have hy2 : y / ts ≤ ti - j * bl + 1 / 4 := by
    rw [div_le_iff₀ (by linarith)]
    have : (ts : ℚ) * ti ≤ ts * 2 ^ 31 := mul_le_mul_of_nonneg_left hn (by linarith)
    nlinarith
  have hy1 : ti - j * bl - 1 / 4 ≤ y / ts := by
    rw [le_div_iff₀ (by linarith)]
    have : (ts : ℚ) * ti ≤ ts * 2 ^ 31 := mul_le_mul_of_nonneg_left hn (by linarith)
    nlinarith
  constructor <;> linarith

theorem evaluate_ok (hts : 0 < ts) (hts' : ts < 2 ^ 21) (hfs : 0 < fs) (hfs' : fs < 2 ^ 31) (hti : ti < 2 ^ 31)
    (hbt : bt * fs = bl * ts) (j : Nat) (hj : ((j * bt : ℕ) : ℚ) ≤ position ts fs 0 ti) (b : List ℚ)
    (hb : b.length = bl) :
    ∃ i : Nat, (i + j * bl = ti ∨ i + 1 + j * bl = ti) ∧
      ((i : ℤ) = ⌊relative ts fs (j * bt) (position ts fs 0 ti)⌋) ∧
      evaluateWavelet ts fs (j * bt, b) (position ts fs 0 ti) = .ok (if bl ≤ i then 0 else b.getD i 0) := by
  obtain ⟨h0, h1, h2⟩ := relative_close hts hts' hfs hfs' hti hbt j hj
  unfold evaluateWavelet
  simp only
  set r := relative ts fs (j * bt) (position ts fs 0 ti)
  have hf0 : 0 ≤ ⌊r⌋ := Int.floor_nonneg.2 h0
  have hf1 : ⌊r⌋ ≤ ti - j * bl := by
    have : r < ((ti - j * bl : ℤ) : ℚ) + 1 := by push_cast; linarith
    have := Int.floor_lt.2 (show r < ((ti - j * bl + 1 : ℤ) : ℚ) by push_cast at this ⊢; linarith)
    omega
  have hf2 : (ti : ℤ) - j * bl - 1 ≤ ⌊r⌋ := by
    apply Int.le_floor.2
    push_cast
    linarith
  have hjb : (0 : ℤ) ≤ j * bl := by positivity
  rw [castInt_int hf0 (by omega)]
  obtain ⟨i, hi⟩ := Int.eq_ofNat_of_zero_le hf0
  refine ⟨i, ?_, hi.symm, ?_⟩
  · have : ((j * bl : ℕ) : ℤ) = j * bl := by push_cast; rfl
    omega
  · simp only
    rw [hi, hb]
    by_cases h : bl ≤ i
    · rw [if_pos h, if_pos (by exact_mod_cast h)]
    · rw [if_neg h, if_neg (by push Not; exact_mod_cast not_le.1 h), if_neg (by omega), Int.toNat_natCast]

end

/-! ### The sum over the effects -/

/-- An effect that adds nothing. -/
def Quiet (ts fs : Nat) (p : ℚ) (e : Nat × List ℚ) : Prop :=
  (e.1 : ℚ) ≤ p → evaluateWavelet ts fs e p = .ok 0

theorem sumEffects_quiet {ts fs : Nat} {p : ℚ} : ∀ (l : List (Nat × List ℚ)) (acc : ℚ), fl64 acc = acc →
    (∀ e ∈ l, Quiet ts fs p e) → sumEffects ts fs p l acc = .ok acc
  | [], acc, _, _ => rfl
  | e :: l, acc, ha, h => by
    have ih := sumEffects_quiet l acc ha (fun x hx => h x (List.mem_cons_of_mem _ hx))
    have he := h e List.mem_cons_self
    unfold sumEffects
    by_cases hp : (e.1 : ℚ) ≤ p
    · rw [if_pos hp, he hp]
      simp only
      rw [add_zero, ha]
      exact ih
    · rw [if_neg hp]
      exact ih

theorem sumEffects_append {ts fs : Nat} {p : ℚ} : ∀ (l m : List (Nat × List ℚ)) (acc v : ℚ),
    sumEffects ts fs p l acc = .ok v → sumEffects ts fs p (l ++ m) acc = sumEffects ts fs p m v
  | [], m, acc, v, h => by rw [sumEffects] at h; rw [Except.ok.inj h]; rfl
  | e :: l, m, acc, v, h => by
    rw [List.cons_append]
    rw [sumEffects] at h ⊢
    split at h
    · next hp =>
      rw [if_pos hp]
      split at h
      · exact absurd h (by simp)
      · next x hx =>
        exact sumEffects_append l m _ v h
    · next hp =>
      rw [if_neg hp]
      exact sumEffects_append l m _ v h

/-- One block is heard alone. -/
theorem sample_one {ts fs bt ti : Nat} {blocks : List (List ℚ)} {c : Nat} (hc : c < blocks.length) {v : ℚ}
    (hv : fl64 v = v) (hp : ((c * bt : ℕ) : ℚ) ≤ position ts fs 0 ti)
    (he : evaluateWavelet ts fs (c * bt, blocks[c]) (position ts fs 0 ti) = .ok v)
    (hq : ∀ (j : Nat) (hj : j < blocks.length), j ≠ c → Quiet ts fs (position ts fs 0 ti) (j * bt, blocks[j])) :
    sample (place bt blocks) ts fs fs 0 ti = .ok v := by
  have hl : (place bt blocks).length = blocks.length := by unfold place; rw [List.length_mapIdx]
  have hget : ∀ (j : Nat) (hj : j < blocks.length), (place bt blocks)[j]'(by rw [hl]; exact hj) = (j * bt, blocks[j]) := by
    intro j hj
    unfold place
    rw [List.getElem_mapIdx]
  have hsplit : place bt blocks =
      (place bt blocks).take c ++ (c * bt, blocks[c]) :: (place bt blocks).drop (c + 1) := by
    rw [← hget c hc, List.cons_getElem_drop_succ, List.take_append_drop]
  have hne : place bt blocks ≠ [] := by
    intro h
    rw [h] at hl
    simp at hl
    omega
  unfold sample
  rw [if_neg hne, hsplit, List.reverse_append, List.reverse_cons, List.append_assoc]
  have h1 : sumEffects ts fs (position ts fs 0 ti) ((place bt blocks).drop (c + 1)).reverse 0 = .ok 0 := by
    apply sumEffects_quiet _ _ fl64_zero
    intro e he
    rw [List.mem_reverse, List.mem_drop_iff_getElem] at he
    obtain ⟨i, hi, rfl⟩ := he
    rw [hget _ (by rw [← hl]; omega)]
    exact hq _ _ (by omega)
  rw [sumEffects_append _ _ _ _ h1, List.singleton_append]
  unfold sumEffects
  rw [if_pos (by exact hp), he]
  simp only
  rw [zero_add, hv]
  apply sumEffects_quiet _ _ hv
  intro e he
  rw [List.mem_reverse, List.mem_take_iff_getElem] at he
  obtain ⟨i, hi, rfl⟩ := he
  rw [hget _ (by omega)]
  exact hq _ _ (by omega)

theorem flatten_getD {bl : Nat} : ∀ (blocks : List (List ℚ)), (∀ b ∈ blocks, b.length = bl) →
    ∀ (c r : Nat) (hc : c < blocks.length), r < bl → blocks.flatten.getD (c * bl + r) 0 = (blocks[c]).getD r 0
  | [], _, c, r, hc, _ => by simp at hc
  | b :: blocks, h, c, r, hc, hr => by
    have hb := h b List.mem_cons_self
    rw [List.flatten_cons]
    cases c with
    | zero =>
      rw [Nat.zero_mul, Nat.zero_add, List.getD_eq_getElem?_getD, List.getElem?_append_left (by omega),
        ← List.getD_eq_getElem?_getD]
      rfl
    | succ c =>
      rw [Nat.succ_mul, List.getD_eq_getElem?_getD, List.getElem?_append_right (by omega), ← List.getD_eq_getElem?_getD,
        show c * bl + bl + r - b.length = c * bl + r by omega]
      exact flatten_getD blocks (fun x hx => h x (List.mem_cons_of_mem _ hx)) c r (by simpa using hc) hr

theorem flatten_length {bl : Nat} : ∀ (blocks : List (List ℚ)), (∀ b ∈ blocks, b.length = bl) →
    blocks.flatten.length = blocks.length * bl
  | [], _ => by simp
  | b :: blocks, h => by
    rw [List.flatten_cons, List.length_append, flatten_length blocks (fun x hx => h x (List.mem_cons_of_mem _ hx)),
      h b List.mem_cons_self, List.length_cons, Nat.succ_mul, Nat.add_comm]

/-- **C88 (partial).** A signal cut into blocks that last a whole number of ticks is played back, sample by sample,
up to a delay of one sample: every sample of the output is the sample of the signal at the same place or the one
before it.  No two blocks are added up, no sample is silent, and nothing is read outside of the blocks.  Missing:
that the delay is always zero, which is false (`c88_negation`). -/
theorem c88_partial (ts fs bl bt : Nat) (blocks : List (List ℚ)) (hts : 0 < ts) (hts' : ts < 2 ^ 21) (hfs : 0 < fs)
    (hfs' : fs < 2 ^ 31) (hbt : bt * fs = bl * ts) (hb : ∀ b ∈ blocks, b.length = bl)
    (hd : ∀ b ∈ blocks, ∀ s ∈ b, fl64 s = s) (hlen : blocks.flatten.length ≤ 2 ^ 31) :
    Plays (sample (place bt blocks) ts fs fs 0) blocks 1 := by
  intro ti hti
  have hfl := flatten_length blocks hb
  have hti' : ti < 2 ^ 31 := by omega
  have hbl : 0 < bl := by
    rcases Nat.eq_zero_or_pos bl with h | h
    · subst h; rw [hfl, Nat.mul_zero] at hti; omega
    · exact h
  have hbt0 : 0 < bt := by
    rcases Nat.eq_zero_or_pos bt with h | h
    · subst h
      rw [Nat.zero_mul] at hbt
      have := Nat.mul_pos hbl hts
      omega
    · exact h
  obtain ⟨p1, p2⟩ := position_close hts hfs hfs' hti'
  have hp53 := position_lt hts hts' hfs hfs' hti'
  have hpd : IsDouble (position ts fs 0 ti) := isDouble_position
  have hp0 := position_nonneg ts fs ti
  have hev := fun j hj b => @evaluate_ok ts fs bl bt ti hts hts' hfs hfs' hti' hbt j hj b
  have hf : (0 : ℚ) < fs := by exact_mod_cast hfs
  have ht : (1 : ℚ) ≤ ts := by exact_mod_cast hts
  have hbt' : (bt : ℚ) * fs = bl * ts := by exact_mod_cast hbt
  -- block and place in the block
  obtain ⟨c, r, hr, hcr⟩ : ∃ c r, r < bl ∧ ti = c * bl + r :=
    ⟨ti / bl, ti % bl, Nat.mod_lt _ hbl, by rw [Nat.mul_comm]; exact (Nat.div_add_mod _ _).symm⟩
  have hc : c < blocks.length := by
    rw [hfl, hcr] at hti
    by_contra h
    have := Nat.mul_le_mul_right bl (not_lt.1 h)
    omega
  have hlb : ∀ (j : Nat) (hj : j < blocks.length), (blocks[j]).length = bl := fun j hj => hb _ (List.getElem_mem _)
  have hval : ∀ (j : Nat) (hj : j < blocks.length) (i : Nat), fl64 ((blocks[j]).getD i 0) = (blocks[j]).getD i 0 := by
    intro j hj i
    rw [List.getD_eq_getElem?_getD]
    cases h : (blocks[j])[i]? with
    | none => exact fl64_zero
    | some s => exact hd _ (List.getElem_mem hj) s (List.mem_of_getElem? h)
  have hC : bl * ts < 2 ^ 53 := by
    have : bl ≤ 2 ^ 31 := by
      rw [hfl] at hlen
      exact (Nat.le_mul_of_pos_left _ (by omega)).trans hlen
    calc bl * ts ≤ 2 ^ 31 * ts := Nat.mul_le_mul_right _ this
      _ < 2 ^ 31 * 2 ^ 22 := Nat.mul_lt_mul_of_pos_left (by omega) (by norm_num)
      _ = 2 ^ 53 := by norm_num
  have hbt53 : bt < 2 ^ 53 := lt_of_le_of_lt (Nat.le_mul_of_pos_right _ hfs) (hbt ▸ hC)
  set p := position ts fs 0 ti with hpdef
  -- later blocks have not begun
  have hlate : ∀ j, c < j → p < ((j * bt : ℕ) : ℚ) := by
    intro j hj
    by_contra hcon
    push Not at hcon
    have h1 := mul_le_mul_of_nonneg_right hcon hf.le
    have h2 : ((j * bt : ℕ) : ℚ) * fs = ts * ((j * bl : ℕ) : ℚ) := by push_cast; linear_combination (j : ℚ) * hbt'
    have h3 : ti + 1 ≤ j * bl := by
      have := Nat.mul_le_mul_right bl hj
      rw [Nat.succ_mul] at this
      omega
    have h4 : (ti : ℚ) + 1 ≤ ((j * bl : ℕ) : ℚ) := by exact_mod_cast h3
    have h5 : (ts : ℚ) * (ti + 1) ≤ ts * ((j * bl : ℕ) : ℚ) := mul_le_mul_of_nonneg_left h4 (by linarith)
    linarith
  by_cases hpc : ((c * bt : ℕ) : ℚ) ≤ p
  · -- block `c` is heard
    obtain ⟨i, hi, -, he⟩ := hev c hpc blocks[c] (hlb c hc)
    have hib : i < bl := by omega
    rw [if_neg (by omega)] at he
    refine ⟨c * bl + i, by omega, by omega, ?_⟩
    rw [flatten_getD blocks hb c i hc hib]
    refine sample_one hc (hval c hc i) hpc he ?_
    intro j hj hjc hjp
    rcases lt_or_gt_of_ne hjc with h | h
    · obtain ⟨i', -, hi', he'⟩ := hev j hjp blocks[j] (hlb j hj)
      rw [he', if_pos]
      have hle : (bl : ℚ) ≤ relative ts fs (j * bt) p := by
        have hjp' : ((j * bt : ℕ) : ℚ) ≤ p := hjp
        have h1 : (bt : ℚ) ≤ p - ((j * bt : ℕ) : ℚ) := by
          have : j * bt + bt ≤ c * bt := by
            have := Nat.mul_le_mul_right bt h
            rwa [Nat.succ_mul] at this
          have : ((j * bt : ℕ) : ℚ) + bt ≤ ((c * bt : ℕ) : ℚ) := by exact_mod_cast this
          linarith
        have h2 : (bl * ts : ℕ) ≤ fl64 ((p - ((j * bt : ℕ) : ℚ)) * fs) := by
          rw [← fl64_nat hC]
          apply fl64_mono
          push_cast
          rw [← hbt']
          exact mul_le_mul_of_nonneg_right (by push_cast at h1; exact h1) hf.le
        unfold relative
        rw [fl64_sub_nat hpd hp53 _ hjp']
        rw [← fl64_nat (show bl < 2 ^ 53 by exact lt_of_le_of_lt (Nat.le_mul_of_pos_right _ hts) hC)]
        apply fl64_mono
        rw [le_div_iff₀ (by linarith)]
        push_cast at h2 ⊢
        exact h2
      have : (bl : ℤ) ≤ ⌊relative ts fs (j * bt) p⌋ := Int.le_floor.2 (by exact_mod_cast hle)
      omega
    · exact absurd hjp (not_le.2 (hlate j h))
  · -- the position was rounded down to before the block
    push Not at hpc
    have hpc' := mul_lt_mul_of_pos_right hpc hf
    have h2 : ((c * bt : ℕ) : ℚ) * fs = ts * ((c * bl : ℕ) : ℚ) := by push_cast; linear_combination (c : ℚ) * hbt'
    rw [h2] at hpc'
    have hr0 : r = 0 := by
      by_contra hne
      have h3 : c * bl + 1 ≤ ti := by omega
      have h4 : ((c * bl : ℕ) : ℚ) + 1 ≤ ti := by exact_mod_cast h3
      have h5 : (ts : ℚ) * (((c * bl : ℕ) : ℚ) + 1) ≤ ts * ti := mul_le_mul_of_nonneg_left h4 (by linarith)
      linarith
    subst hr0
    have hc0 : c ≠ 0 := by
      rintro rfl
      rw [Nat.zero_mul, Nat.cast_zero] at hpc
      linarith
    obtain ⟨d, rfl⟩ := Nat.exists_eq_succ_of_ne_zero hc0
    have hd' : d < blocks.length := by omega
    have htid : ti = d * bl + bl := by rw [hcr, Nat.succ_mul]; rfl
    have hpd1 : ((d * bt : ℕ) : ℚ) ≤ p := by
      by_contra hcon
      push Not at hcon
      have h1 := mul_lt_mul_of_pos_right hcon hf
      have h2 : ((d * bt : ℕ) : ℚ) * fs = ts * ((d * bl : ℕ) : ℚ) := by push_cast; linear_combination (d : ℚ) * hbt'
      have h3 : d * bl + 1 ≤ ti := by omega
      have h4 : ((d * bl : ℕ) : ℚ) + 1 ≤ ti := by exact_mod_cast h3
      have h5 : (ts : ℚ) * (((d * bl : ℕ) : ℚ) + 1) ≤ ts * ti := mul_le_mul_of_nonneg_left h4 (by linarith)
      linarith
    obtain ⟨i, hi, hir, he⟩ := hev d hpd1 blocks[d] (hlb d hd')
    have hlt : relative ts fs (d * bt) p < bl := by
      unfold relative
      rw [fl64_sub_nat hpd hp53 _ hpd1]
      have hx : p - ((d * bt : ℕ) : ℚ) < bt := by
        rw [Nat.succ_mul] at hpc
        push_cast at hpc ⊢
        linarith
      have hxd : IsDouble (p - ((d * bt : ℕ) : ℚ)) := by
        rw [← fl64_sub_nat hpd hp53 _ hpd1]; exact isDouble_fl64 _
      have hx0 : 0 ≤ p - ((d * bt : ℕ) : ℚ) := by linarith
      have g1 := isDouble_gap hxd hbt53 hx0 hx
      have g2 : (p - ((d * bt : ℕ) : ℚ)) * fs ≤ ((bl * ts : ℕ) : ℚ) * (1 - 1 / 2 ^ 53) := by
        have := mul_le_mul_of_nonneg_right g1 hf.le
        push_cast at this ⊢
        rw [← hbt']
        linarith
      have g3 := fl64_lt_nat (Nat.mul_pos hbl hts) g2
      have g4 := isDouble_gap (isDouble_fl64 _) hC (flo_nonneg 53 (-1022) (mul_nonneg hx0 hf.le)) g3
      apply fl64_lt_nat hbl
      rw [div_le_iff₀ (by linarith)]
      push_cast at g4 ⊢
      linarith
    have hib : i < bl := by
      have : ⌊relative ts fs (d * bt) p⌋ < (bl : ℤ) := Int.floor_lt.2 (by exact_mod_cast hlt)
      omega
    rw [if_neg (by omega)] at he
    refine ⟨d * bl + i, by omega, by omega, ?_⟩
    rw [flatten_getD blocks hb d i hd' hib]
    refine sample_one hd' (hval d hd' i) hpd1 he ?_
    intro j hj hjd hjp
    rcases lt_or_gt_of_ne hjd with h | h
    · obtain ⟨i', hi', -, he'⟩ := hev j hjp blocks[j] (hlb j hj)
      rw [he', if_pos]
      have := Nat.mul_le_mul_right bl h
      rw [Nat.succ_mul] at this
      omega
    · rcases Nat.eq_or_lt_of_le h with h | h
      · have hjp' : ((j * bt : ℕ) : ℚ) ≤ p := hjp
        rw [← h] at hjp'
        exact absurd hjp' (not_le.2 hpc)
      · exact absurd hjp (not_le.2 (hlate j h))

/-- Two blocks of 1024 samples at 8000 Hz: 128 ticks each. -/
example : 128 * 8000 = 1024 * 1000 ∧ (List.replicate 2 (List.replicate 1024 (1 / 2 : ℚ))).flatten.length ≤ 2 ^ 31 := by
  decide +kernel

/-- **C88 is false** as it stands: at 8000 Hz sample 1001 of the output is sample 1000 of the signal, since the
position is rounded down before it is cut off to a whole number. -/
theorem c88_negation : ∃ blocks : List (List ℚ), (∀ b ∈ blocks, b.length = 1024) ∧
    (∀ b ∈ blocks, ∀ s ∈ b, fl64 s = s) ∧
    ¬ Plays (sample (place 128 blocks) 1000 8000 8000 0) blocks 0 := by
  refine ⟨[(List.range 1024).map (fun i : Nat => (i : ℚ))], ?_, ?_, ?_⟩
  · intro b hb
    rw [List.mem_singleton.1 hb, List.length_map, List.length_range]
  · intro b hb s hs
    rw [List.mem_singleton.1 hb, List.mem_map] at hs
    obtain ⟨i, hi, rfl⟩ := hs
    exact fl64_nat (by have := List.mem_range.1 hi; omega)
  · intro h
    obtain ⟨i, h1, h2, h3⟩ := h 1001 (by decide +kernel)
    have : i = 1001 := by omega
    subst this
    revert h3
    decide +kernel

/-- **C88 (partial).** There is no delay at a sampling frequency that is a power of two. -/
theorem c88_exact_partial (ts f bl bt : Nat) (blocks : List (List ℚ)) (hts : 0 < ts) (hts' : ts < 2 ^ 21)
    (hf : f < 31) (hbt : bt * 2 ^ f = bl * ts) (hb : ∀ b ∈ blocks, b.length = bl)
    (hd : ∀ b ∈ blocks, ∀ s ∈ b, fl64 s = s) (hlen : blocks.flatten.length ≤ 2 ^ 31) :
    Plays (sample (place bt blocks) ts (2 ^ f) (2 ^ f) 0) blocks 0 := by
  intro ti hti
  refine ⟨ti, le_refl _, le_refl _, ?_⟩
  have hfl := flatten_length blocks hb
  have hti' : ti < 2 ^ 31 := by omega
  have hbl : 0 < bl := by
    rcases Nat.eq_zero_or_pos bl with h | h
    · subst h; rw [hfl, Nat.mul_zero] at hti; omega
    · exact h
  have hfs' : 2 ^ f < 2 ^ 31 := Nat.pow_lt_pow_right (by norm_num) hf
  have hfs : 0 < 2 ^ f := by positivity
  have hp53 := position_lt hts hts' hfs hfs' hti'
  have hpd : IsDouble (position ts (2 ^ f) 0 ti) := isDouble_position
  have hev := fun j hj b => @evaluate_ok ts (2 ^ f) bl bt ti hts hts' hfs hfs' hti' hbt j hj b
  have hff : ((2 ^ f : ℕ) : ℚ) ≠ 0 := by positivity
  have ht0 : (ts : ℚ) ≠ 0 := by exact_mod_cast hts.ne'
  have hz : ∀ z : ℚ, z / ((2 ^ f : ℕ) : ℚ) = z * 2 ^ (-(f : ℤ)) := by
    intro z
    push_cast
    rw [zpow_neg, zpow_natCast, div_eq_mul_inv]
  have hprod : ts * ti < 2 ^ 53 := by
    calc ts * ti ≤ 2 ^ 21 * ti := Nat.mul_le_mul_right _ hts'.le
      _ < 2 ^ 21 * 2 ^ 32 := Nat.mul_lt_mul_of_pos_left (by omega) (by norm_num)
      _ = 2 ^ 53 := by norm_num
  have hp : position ts (2 ^ f) 0 ti = ((ts * ti : ℕ) : ℚ) / ((2 ^ f : ℕ) : ℚ) := by
    rw [position_eq]
    have e1 : fl64 ((ti : ℚ) / ((2 ^ f : ℕ) : ℚ)) = (ti : ℚ) / ((2 ^ f : ℕ) : ℚ) := by
      apply IsDouble.exact
      exact ⟨ti, -(f : ℤ), by rw [hz]; push_cast; rfl, by rw [abs_of_nonneg (by positivity)]; omega, by omega⟩
    have e2 : (ts : ℚ) * ((ti : ℚ) / ((2 ^ f : ℕ) : ℚ)) = ((ts * ti : ℕ) : ℚ) / ((2 ^ f : ℕ) : ℚ) := by
      push_cast; ring
    rw [e1, e2]
    apply IsDouble.exact
    exact ⟨(ts * ti : ℕ), -(f : ℤ), by rw [hz]; norm_cast, by rw [abs_of_nonneg (by positivity)]; exact_mod_cast hprod,
      by omega⟩
  -- where the blocks begin
  have hbegin : ∀ j : Nat, ((j * bt : ℕ) : ℚ) ≤ position ts (2 ^ f) 0 ti ↔ j * bl ≤ ti := by
    intro j
    rw [hp, le_div_iff₀ (by positivity)]
    have : j * bt * 2 ^ f = ts * (j * bl) := by rw [Nat.mul_assoc, hbt]; ring
    constructor
    · intro h
      have h : j * bt * 2 ^ f ≤ ts * ti := by exact_mod_cast h
      rw [this] at h
      exact Nat.le_of_mul_le_mul_left h hts
    · intro h
      have h : j * bt * 2 ^ f ≤ ts * ti := by rw [this]; exact Nat.mul_le_mul_left _ h
      exact_mod_cast h
  have hrel : ∀ j : Nat, j * bl ≤ ti → relative ts (2 ^ f) (j * bt) (position ts (2 ^ f) 0 ti) = ((ti - j * bl : ℕ) : ℚ) := by
    intro j hj
    unfold relative
    rw [fl64_sub_nat hpd hp53 _ ((hbegin j).2 hj), hp]
    have e : (((ts * ti : ℕ) : ℚ) / ((2 ^ f : ℕ) : ℚ) - ((j * bt : ℕ) : ℚ)) * ((2 ^ f : ℕ) : ℚ) =
        ((ts * (ti - j * bl) : ℕ) : ℚ) := by
      have hbt' : (bt : ℚ) * ((2 ^ f : ℕ) : ℚ) = bl * ts := by exact_mod_cast hbt
      rw [sub_mul, div_mul_cancel₀ _ hff]
      push_cast [Nat.cast_sub hj] at hbt' ⊢
      linear_combination -(j : ℚ) * hbt'
    have hsm : ts * (ti - j * bl) < 2 ^ 53 := lt_of_le_of_lt (Nat.mul_le_mul_left _ (Nat.sub_le _ _)) hprod
    rw [e, fl64_nat hsm]
    have e2 : ((ts * (ti - j * bl) : ℕ) : ℚ) / ts = ((ti - j * bl : ℕ) : ℚ) := by
      rw [Nat.cast_mul]; field_simp
    rw [e2]
    exact fl64_nat (by omega)
  obtain ⟨c, r, hr, hcr⟩ : ∃ c r, r < bl ∧ ti = c * bl + r :=
    ⟨ti / bl, ti % bl, Nat.mod_lt _ hbl, by rw [Nat.mul_comm]; exact (Nat.div_add_mod _ _).symm⟩
  have hc : c < blocks.length := by
    rw [hfl, hcr] at hti
    by_contra h
    have := Nat.mul_le_mul_right bl (not_lt.1 h)
    omega
  have hlb : ∀ (j : Nat) (hj : j < blocks.length), (blocks[j]).length = bl := fun j hj => hb _ (List.getElem_mem _)
  have hpc := (hbegin c).2 (by omega)
  obtain ⟨i, -, hir, he⟩ := hev c hpc blocks[c] (hlb c hc)
  rw [hrel c (by omega), Int.floor_natCast] at hir
  have hi : i = r := by omega
  subst hi
  rw [if_neg (by omega)] at he
  rw [hcr, flatten_getD blocks hb c i hc hr]
  rw [← hcr]
  refine sample_one hc ?_ hpc he ?_
  · rw [List.getD_eq_getElem?_getD]
    cases h : (blocks[c])[i]? with
    | none => exact fl64_zero
    | some s => exact hd _ (List.getElem_mem hc) s (List.mem_of_getElem? h)
  · intro j hj hjc hjp
    have hjt := (hbegin j).1 hjp
    obtain ⟨i', -, hi', he'⟩ := hev j hjp blocks[j] (hlb j hj)
    rw [hrel j hjt, Int.floor_natCast] at hi'
    rw [he', if_pos]
    rcases lt_or_gt_of_ne hjc with h | h
    · have := Nat.mul_le_mul_right bl h
      rw [Nat.succ_mul] at this
      omega
    · have := Nat.mul_le_mul_right bl h
      rw [Nat.succ_mul] at this
      omega

/-- Blocks of 1024 samples at 8192 Hz and 1000 ticks per second: 125 ticks each. -/
example : 125 * 2 ^ 13 = 1024 * 1000 := by norm_num

/-- The decoder places the blocks one after the other. -/
theorem transformed_place (inverse : Nat → List Rat → List Rat) (band : Wavelet.WaveletBand) (k ts : Nat)
    (d : Spiht.Decoder) (out : List (Nat × List Rat)) (hts' : ts < 2 ^ 21) (hfs : 0 < band.upper)
    (hk : Wavelet.decodedLength band.blockLength band.upper = 2 ^ k) (bt : Nat) (hbt : 2 ^ k * ts = band.upper * bt)
    (h : Wavelet.transformBand inverse band ts d = .ok out) (hn : out.length * 2 ^ k ≤ 2 ^ 31) :
    out = place bt (out.map (·.2)) := by
  unfold Wavelet.transformBand at h
  have hp := Wavelet.transformLoop_positions _ _ _ _ _ _ _ _ h
  rw [hk] at hp
  have hl : out.length = band.effects.length := by
    have := congrArg List.length hp
    simpa using this
  apply List.ext_getElem
  · unfold place; rw [List.length_mapIdx, List.length_map]
  · intro j h1 h2
    simp only [place, List.getElem_mapIdx, List.getElem_map]
    have hj : (out.map (·.1))[j]'(by rw [List.length_map]; exact h1) = j * bt := by
      have hg : (out.map (·.1))[j]? = some (Wavelet.decodedPosition (0 + j) (2 ^ k) ts band.upper) := by
        rw [hp, List.getElem?_map, List.getElem?_range (by omega), Option.map_some]
      rw [List.getElem?_eq_getElem (by rw [List.length_map]; exact h1)] at hg
      rw [Option.some.inj hg, Nat.zero_add, Wavelet.c67_position k band.upper ts j hfs ⟨bt, hbt⟩]
      · unfold Wavelet.blockTicks
        rw [hbt, Nat.mul_div_cancel_left _ hfs]
      · have e1 : j * 2 ^ k ≤ 2 ^ 31 := (Nat.mul_le_mul_right _ h1.le).trans hn
        calc j * 2 ^ k * ts ≤ 2 ^ 31 * ts := Nat.mul_le_mul_right _ e1
          _ < 2 ^ 31 * 2 ^ 22 := Nat.mul_lt_mul_of_pos_left (by omega) (by norm_num)
          _ = 2 ^ 53 := by norm_num
    rw [List.getElem_map] at hj
    rw [← hj]

/-- **C88 (partial).** The same, from what the decoder leaves behind: a wavelet band at its own sampling frequency,
with blocks of `2 ^ k` samples that last a whole number of ticks, is played as the samples of its blocks one after
the other, with a delay of one sample at most, and without at a frequency that is a power of two. -/
theorem c88_transformed_partial (inverse : Nat → List Rat → List Rat) (band : Wavelet.WaveletBand) (k ts : Nat)
    (d : Spiht.Decoder) (out : List (Nat × List Rat)) (hts : 0 < ts) (hts' : ts < 2 ^ 21) (hfs : 0 < band.upper)
    (hfs' : band.upper < 2 ^ 31) (hk : Wavelet.decodedLength band.blockLength band.upper = 2 ^ k)
    (hdvd : band.upper ∣ 2 ^ k * ts)
    (h : Wavelet.transformBand inverse band ts d = .ok out) (hlen : ∀ e ∈ out, e.2.length = 2 ^ k)
    (hd : ∀ e ∈ out, ∀ s ∈ e.2, fl64 s = s) (hn : (out.map (·.2)).flatten.length ≤ 2 ^ 31) :
    Plays (sample out ts band.upper band.upper 0) (out.map (·.2)) 1 ∧
      ∀ f, band.upper = 2 ^ f → Plays (sample out ts band.upper band.upper 0) (out.map (·.2)) 0 := by
  obtain ⟨bt, hbt⟩ := hdvd
  have hbl : ∀ b ∈ out.map (·.2), b.length = 2 ^ k := by
    intro b hb
    obtain ⟨e, he, rfl⟩ := List.mem_map.1 hb
    exact hlen e he
  have hdd : ∀ b ∈ out.map (·.2), ∀ s ∈ b, fl64 s = s := by
    intro b hb
    obtain ⟨e, he, rfl⟩ := List.mem_map.1 hb
    exact hd e he
  have hn' : out.length * 2 ^ k ≤ 2 ^ 31 := by
    rw [flatten_length _ hbl, List.length_map] at hn
    exact hn
  have hout := transformed_place inverse band k ts d out hts' hfs hk bt hbt h hn'
  have hbt' : bt * band.upper = 2 ^ k * ts := by rw [hbt]; ring
  constructor
  · have := c88_partial ts band.upper (2 ^ k) bt (out.map (·.2)) hts hts' hfs hfs' hbt' hbl hdd hn
    rw [← hout] at this
    exact this
  · intro f hf
    rw [hf] at hbt' hfs' ⊢
    have := c88_exact_partial ts f (2 ^ k) bt (out.map (·.2)) hts hts'
      ((Nat.pow_lt_pow_iff_right (by norm_num)).1 hfs') hbt' hbl hdd hn
    rw [← hout] at this
    exact this

/-- A band of one block of 16 samples at 8000 Hz that the encoder made. -/
example : Wavelet.decodedLength 2 8000 = 2 ^ 4 ∧ 8000 ∣ 2 ^ 4 * 1000 ∧
    ((Wavelet.transformBand (fun _ l => l) ⟨8000, 2, [(2, [34, 112, 147, 145, 170, 2])]⟩ 1000 {}).toOption.any
      (fun l => l.all (fun e => e.2.length == 16 && e.2.all (fun s => decide (fl64 s = s))))) = true := by
  decide +kernel

end Haptics.Playback
