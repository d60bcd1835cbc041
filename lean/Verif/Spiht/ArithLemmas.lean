import Verif.Spiht.Arith
import Mathlib.Tactic.Ring
import Mathlib.Tactic.Linarith

/-
The arithmetic coder: the decoder sees the number that the encoder's bits denote, with the bits to follow
taken out, and this number stays in the range of both.
-/
namespace Haptics.Spiht

/-! ### Infinite bit strings -/

/-- An infinite string of bits. -/
abbrev Str := Nat → Bool

def scons (b : Bool) (s : Str) : Str
  | 0 => b
  | n + 1 => s n

def stail (s : Str) : Str := fun n => s (n + 1)

theorem scons_eta (s : Str) : scons (s 0) (stail s) = s := by
  funext n; cases n <;> rfl

def prepend : List Bool → Str → Str
  | [], s => s
  | b :: l, s => scons b (prepend l s)

/-- A finite string followed by zeros. -/
def toStr (l : List Bool) : Str := prepend l (fun _ => false)

theorem prepend_append (a b : List Bool) (s : Str) : prepend (a ++ b) s = prepend a (prepend b s) := by
  induction a with
  | nil => rfl
  | cons x a ih => simp only [List.cons_append, prepend, ih]

theorem toStr_append (a b : List Bool) : toStr (a ++ b) = prepend a (toStr b) := prepend_append a b _

theorem toStr_getD (l : List Bool) (i : Nat) : toStr l i = l.getD i false := by
  unfold toStr
  induction l generalizing i with
  | nil => simp [prepend]
  | cons b l ih =>
    cases i with
    | zero => rfl
    | succ i => simpa [prepend, scons] using ih i

/-- The number denoted by the first `n` bits. -/
def val : Nat → Str → Int
  | 0, _ => 0
  | n + 1, s => (if s 0 then 2 ^ n else 0) + val n (stail s)

theorem val_succ (n : Nat) (s : Str) : val (n + 1) s = 2 * val n s + (if s n then 1 else 0) := by
  induction n generalizing s with
  | zero => simp [val]
  | succ n ih =>
    rw [val, ih, val]
    simp only [stail]
    split <;> ring_nf

theorem val_bounds (n : Nat) (s : Str) : 0 ≤ val n s ∧ val n s < 2 ^ n := by
  induction n generalizing s with
  | zero => simp [val]
  | succ n ih =>
    obtain ⟨h1, h2⟩ := ih (stail s)
    rw [val, pow_succ]
    split <;> constructor <;> linarith

/-- The first bit, then `f` copies of its opposite, then the other bits. -/
def follow (f : Nat) (s : Str) : Str := scons (s 0) (prepend (List.replicate f (! s 0)) (stail s))

theorem follow_zero (s : Str) : follow 0 s = s := scons_eta s

/-- The window of the decoder after dropping the first bit, and with one bit more. -/
theorem val_cons (b : Bool) (s : Str) : val 10 (scons b s) = (if b then 512 else 0) + val 9 s := by
  rw [val]
  simp only [scons]
  rfl

/-- The string whose second bit was a bit to follow. -/
def opposed (s : Str) : Str := scons (s 0) (scons (! s 0) (stail s))

theorem follow_opposed (f : Nat) (s : Str) : follow f (opposed s) = follow (f + 1) s := by
  have h : ∀ (n : Nat) (b : Bool) (t : Str),
      prepend (List.replicate n b) (scons b t) = prepend (List.replicate (n + 1) b) t := by
    intro n b t
    induction n with
    | zero => rfl
    | succ n ih => simp only [List.replicate_succ, prepend] at ih ⊢; rw [ih]
  exact congrArg (scons (s 0)) (h f (! s 0) (stail s))

theorem val_opposed (s : Str) : 2 * val 10 (opposed s) + (if s 9 then 1 else 0) = 512 + val 10 s := by
  have h1 : val 10 (opposed s) = (if s 0 then 512 else 256) + val 8 (stail s) := by
    have e1 : stail (opposed s) 0 = ! s 0 := rfl
    have e2 : stail (stail (opposed s)) = stail s := rfl
    have e3 : opposed s 0 = s 0 := rfl
    rw [val, val, e1, e2, e3]
    cases s 0 <;> simp
  have h2 : val 10 s = (if s 0 then 512 else 0) + val 9 (stail s) := by
    rw [val]; norm_num
  have h3 : val 9 (stail s) = 2 * val 8 (stail s) + (if stail s 8 then 1 else 0) := val_succ 8 (stail s)
  have h4 : stail s 8 = s 9 := rfl
  rw [h1, h2, h3, h4]
  cases s 0 <;> simp <;> ring

/-! ### The two loops -/

/-- A range that needs no adjustment. -/
structure Normal (l u : Int) : Prop where
  low : 0 ≤ l
  left : l < 512
  right : 512 < u
  high : u ≤ 1024
  wide : l < 256 ∨ 768 < u

/-- The decoder has this range and sees this string. -/
structure At (d : Decoder) (l u : Int) (T : Str) : Prop where
  lower : d.lower = l
  upper : d.upper = u
  leading : d.leading = val 10 T
  rest : ∀ i, d.rest.getD i false = T (10 + i)

theorem nextDigit_at {d : Decoder} {l u : Int} {T : Str} (h : At d l u T) :
    nextDigit d.rest = if T 10 then 1 else 0 := by
  unfold nextDigit
  have := h.rest 0
  cases hr : d.rest <;> simp [hr] at this ⊢ <;> simp [← this]

theorem tail_at {d : Decoder} {l u : Int} {T : Str} (h : At d l u T) (i : Nat) :
    d.rest.tail.getD i false = T (11 + i) := by
  have := h.rest (i + 1)
  rw [show 11 + i = 10 + (i + 1) by ring, ← this]
  cases d.rest <;> simp

theorem renorm_spec : ∀ (fuel : Nat) (l u : Int) (f : Nat), 0 ≤ l → l < u → u ≤ 1024 →
    1024 < (u - l) * 2 ^ fuel →
    ∃ (out : List Bool) (l' u' : Int) (f' : Nat), renormEnc fuel l u f = some (out, l', u', f') ∧
      Normal l' u' ∧ (l = 0 → l' = 0 ∧ (f = 0 → f' = 0 ∧ ∀ b ∈ out, b = false)) ∧
      ∀ (T' : Str), l' ≤ val 10 T' → val 10 T' < u' →
        ∃ T : Str, prepend out (follow f' T') = follow f T ∧ l ≤ val 10 T ∧ val 10 T < u ∧
          ∀ d : Decoder, At d l u T →
            ∃ d', renormDec fuel d = some d' ∧ At d' l' u' T' ∧ d'.counters = d.counters := by
  intro fuel
  induction fuel with
  | zero => intro l u f h0 h1 h2 h3; simp at h3; omega
  | succ fuel ih =>
    intro l u f h0 h1 h2 h3
    rw [pow_succ] at h3
    unfold renormEnc renormDec
    by_cases c1 : u ≤ HALF
    · obtain ⟨out, l', u', f', e1, e2, ez, e3⟩ := ih (l * 2) (u * 2) 0 (by omega) (by omega)
        (by simp only [HALF] at c1; omega) (by nlinarith)
      refine ⟨false :: (List.replicate f true ++ out), l', u', f', by rw [if_pos c1, e1]; rfl, e2, ?_, ?_⟩
      · intro hl
        obtain ⟨z1, z2⟩ := ez (by omega)
        refine ⟨z1, fun hf => ⟨(z2 rfl).1, ?_⟩⟩
        subst hf
        intro b hb
        simp only [List.replicate_zero, List.nil_append, List.mem_cons] at hb
        rcases hb with rfl | hb
        · rfl
        · exact (z2 rfl).2 b hb
      intro T' t1 t2
      obtain ⟨T, k1, k2, k3, k4⟩ := e3 T' t1 t2
      rw [follow_zero] at k1
      have hv : val 10 T = 2 * val 9 T + (if T 9 then 1 else 0) := val_succ 9 T
      refine ⟨scons false T, ?_, ?_, ?_, ?_⟩
      · simp only [prepend, prepend_append, k1]
        rfl
      · rw [val_cons]; simp only [Bool.false_eq_true, if_false]; split at hv <;> omega
      · rw [val_cons]; simp only [Bool.false_eq_true, if_false]; split at hv <;> omega
      · intro d hd
        rw [if_pos (by rw [hd.upper]; exact c1)]
        obtain ⟨d', m1, m2, m3⟩ := k4 { d with
          lower := d.lower * 2, upper := d.upper * 2
          leading := d.leading * 2 + nextDigit d.rest, rest := d.rest.tail } ⟨by simp [hd.lower],
            by simp [hd.upper], by
              simp only [hd.leading, nextDigit_at hd, val_cons]
              have : scons false T 10 = T 9 := rfl
              rw [this, hv]
              simp only [Bool.false_eq_true, if_false]
              omega, by
              intro i
              simp only [tail_at hd]
              rw [show 11 + i = (10 + i) + 1 by ring]
              rfl⟩
        exact ⟨d', m1, m2, m3⟩
    · by_cases c2 : l ≥ HALF
      · obtain ⟨out, l', u', f', e1, e2, ez, e3⟩ := ih ((l - HALF) * 2) ((u - HALF) * 2) 0
          (by simp only [HALF] at *; omega) (by omega) (by simp only [HALF] at *; omega)
          (by nlinarith)
        refine ⟨true :: (List.replicate f false ++ out), l', u', f',
          by rw [if_neg c1, if_pos c2, e1]; rfl, e2,
          fun hl => by simp only [HALF] at c2; omega, ?_⟩
        intro T' t1 t2
        obtain ⟨T, k1, k2, k3, k4⟩ := e3 T' t1 t2
        rw [follow_zero] at k1
        have hv : val 10 T = 2 * val 9 T + (if T 9 then 1 else 0) := val_succ 9 T
        simp only [HALF] at c1 c2 k2 k3
        refine ⟨scons true T, ?_, ?_, ?_, ?_⟩
        · simp only [prepend, prepend_append, k1]
          rfl
        · rw [val_cons]; simp only [if_true]; split at hv <;> omega
        · rw [val_cons]; simp only [if_true]; split at hv <;> omega
        · intro d hd
          rw [if_neg (by rw [hd.upper]; simp only [HALF]; omega),
            if_pos (by rw [hd.lower]; simp only [HALF]; omega)]
          obtain ⟨d', m1, m2, m3⟩ := k4 { d with
            lower := (d.lower - HALF) * 2, upper := (d.upper - HALF) * 2
            leading := (d.leading - HALF) * 2 + nextDigit d.rest, rest := d.rest.tail }
              ⟨by simp [hd.lower], by simp [hd.upper], by
                simp only [hd.leading, nextDigit_at hd, val_cons]
                have : scons true T 10 = T 9 := rfl
                rw [this, hv]
                simp only [if_true, HALF]
                omega, by
                intro i
                simp only [tail_at hd]
                rw [show 11 + i = (10 + i) + 1 by ring]
                rfl⟩
          exact ⟨d', m1, m2, m3⟩
      · by_cases c3 : l ≥ FIRST_QTR ∧ u ≤ THIRD_QTR
        · obtain ⟨out, l', u', f', e1, e2, ez, e3⟩ := ih ((l - FIRST_QTR) * 2) ((u - FIRST_QTR) * 2)
            (f + 1) (by simp only [FIRST_QTR] at *; omega) (by omega)
            (by simp only [FIRST_QTR, THIRD_QTR] at *; omega) (by nlinarith)
          refine ⟨out, l', u', f', by rw [if_neg c1, if_neg c2, if_pos c3, e1], e2,
            fun hl => by simp only [FIRST_QTR] at c3; omega, ?_⟩
          intro T' t1 t2
          obtain ⟨T, k1, k2, k3, k4⟩ := e3 T' t1 t2
          have hv := val_opposed T
          simp only [FIRST_QTR, HALF, THIRD_QTR] at c1 c2 c3 k2 k3
          refine ⟨opposed T, by rw [k1, follow_opposed], ?_, ?_, ?_⟩
          · split at hv <;> omega
          · split at hv <;> omega
          · intro d hd
            rw [if_neg (by rw [hd.upper]; simp only [HALF]; omega),
              if_neg (by rw [hd.lower]; simp only [HALF]; omega),
              if_pos (by rw [hd.lower, hd.upper]; simp only [FIRST_QTR, THIRD_QTR]; omega)]
            obtain ⟨d', m1, m2, m3⟩ := k4 { d with
              lower := (d.lower - FIRST_QTR) * 2, upper := (d.upper - FIRST_QTR) * 2
              leading := (d.leading - FIRST_QTR) * 2 + nextDigit d.rest, rest := d.rest.tail }
                ⟨by simp [hd.lower], by simp [hd.upper], by
                  simp only [hd.leading, nextDigit_at hd, FIRST_QTR]
                  have : opposed T 10 = T 9 := rfl
                  rw [this]
                  omega, by
                  intro i
                  simp only [tail_at hd]
                  rw [show 11 + i = (9 + i) + 2 by ring, show 10 + i = (9 + i) + 1 by ring]
                  rfl⟩
            exact ⟨d', m1, m2, m3⟩
        · refine ⟨[], l, u, f, by rw [if_neg c1, if_neg c2, if_neg c3], ?_, ?_, ?_⟩
          · simp only [FIRST_QTR, HALF, THIRD_QTR] at c1 c2 c3
            exact ⟨h0, by omega, by omega, h2, by omega⟩
          · exact fun hl => ⟨hl, fun hf => ⟨hf, by simp⟩⟩
          · intro T' t1 t2
            refine ⟨T', rfl, t1, t2, ?_⟩
            intro d hd
            exact ⟨d, by rw [if_neg (by rw [hd.upper]; exact c1), if_neg (by rw [hd.lower]; exact c2),
              if_neg (by rw [hd.lower, hd.upper]; exact c3)], hd, rfl⟩

end Haptics.Spiht
