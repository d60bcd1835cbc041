import Verif.Crc.Model
import Verif.Crc.Spec
import Verif.Bits.Lemmas
import Mathlib.RingTheory.Coprime.Lemmas
import Mathlib.Tactic.ComputeDegree
import Mathlib.Tactic.LinearCombination

namespace Haptics
open Polynomial

theorem two_eq_zero_poly : (2 : (ZMod 2)[X]) = 0 := by
  have : (2 : ZMod 2) = 0 := by decide
  calc (2 : (ZMod 2)[X]) = C 2 := rfl
    _ = 0 := by rw [this]; simp

theorem add_self_poly (a : (ZMod 2)[X]) : a + a = 0 := by
  rw [← two_mul, two_eq_zero_poly, zero_mul]

theorem bitsPoly_degree_lt (l : Bits) : (bitsPoly l).degree < l.length := by
  induction l with
  | nil => simp [bitsPoly]
  | cons b t ih =>
    simp only [bitsPoly]
    apply lt_of_le_of_lt (degree_add_le _ _)
    rw [max_lt_iff]
    constructor
    · cases b
      · simp
      · simp only [if_true, one_mul, degree_X_pow, List.length_cons]
        exact_mod_cast Nat.lt_succ_self _
    · exact lt_trans ih (by simp only [List.length_cons]; exact_mod_cast Nat.lt_succ_self _)

theorem bitsPoly_append (a b : Bits) :
    bitsPoly (a ++ b) = bitsPoly a * X ^ b.length + bitsPoly b := by
  induction a with
  | nil => simp [bitsPoly]
  | cons x a ih =>
    simp only [List.cons_append, bitsPoly, ih, List.length_append, pow_add]
    ring

@[simp] theorem bitsPoly_replicate_false (n : Nat) : bitsPoly (List.replicate n false) = 0 := by
  induction n with
  | zero => rfl
  | succ n ih => simp [List.replicate_succ, bitsPoly, ih]

theorem bitsPoly_coeff (l : Bits) (i : Nat) (h : i < l.length) :
    (bitsPoly l).coeff (l.length - 1 - i) = if l[i] then 1 else 0 := by
  induction l generalizing i with
  | nil => simp at h
  | cons b t ih =>
    simp only [bitsPoly, coeff_add, List.length_cons, Nat.add_sub_cancel]
    have hd : (bitsPoly t).coeff t.length = 0 := coeff_eq_zero_of_degree_lt (bitsPoly_degree_lt t)
    cases i with
    | zero =>
      simp only [Nat.sub_zero, hd, add_zero, List.getElem_cons_zero]
      cases b <;> simp
    | succ i =>
      simp only [List.length_cons, Nat.add_lt_add_iff_right] at h
      have e : t.length - (i + 1) = t.length - 1 - i := by omega
      rw [e, ih i h, List.getElem_cons_succ]
      have : t.length - 1 - i ≠ t.length := by omega
      cases b
      · simp
      · simp [coeff_X_pow, this]

theorem bitsPoly_inj {a b : Bits} (hl : a.length = b.length) (h : bitsPoly a = bitsPoly b) : a = b := by
  apply List.ext_getElem hl
  intro i h1 h2
  have ha := bitsPoly_coeff a i h1
  have hb := bitsPoly_coeff b i h2
  rw [h, hl, hb] at ha
  by_cases hx : a[i] = true <;> by_cases hy : b[i] = true <;> simp_all

theorem bitsPoly_eq_zero {b : Bits} (h : bitsPoly b = 0) : true ∉ b := by
  intro hm
  have : b = List.replicate b.length false :=
    bitsPoly_inj (by simp) (by rw [h]; simp)
  rw [this] at hm
  simp at hm

theorem xorPrefix_length (t p : Bits) : (xorPrefix t p).length = t.length := by
  induction t generalizing p with
  | nil => cases p <;> rfl
  | cons b t ih => cases p <;> simp [xorPrefix, ih]

theorem bitsPoly_xorPrefix (t p : Bits) (h : p.length ≤ t.length) :
    bitsPoly (xorPrefix t p) = bitsPoly t + bitsPoly p * X ^ (t.length - p.length) := by
  induction t generalizing p with
  | nil =>
    have : p = [] := by simpa using h
    subst this; simp [xorPrefix, bitsPoly]
  | cons b t ih =>
    cases p with
    | nil => simp [xorPrefix, bitsPoly]
    | cons q p =>
      simp only [List.length_cons, Nat.add_le_add_iff_right] at h
      simp only [xorPrefix, bitsPoly, xorPrefix_length, ih p h, List.length_cons]
      have e : t.length + 1 - (p.length + 1) = t.length - p.length := by omega
      have e2 : (X : (ZMod 2)[X]) ^ t.length = X ^ p.length * X ^ (t.length - p.length) := by
        rw [← pow_add]; congr 1; omega
      rw [e]
      have hx : ∀ x y : Bool, ((if (x != y) = true then 1 else 0 : (ZMod 2)[X]))
          = (if x = true then 1 else 0) + (if y = true then 1 else 0) := by
        intro x y
        cases x <;> cases y <;> simp
        exact (by rw [one_add_one_eq_two]; exact two_eq_zero_poly.symm)
      rw [hx]
      simp only [e2]
      ring

theorem crcStep_length (p l : Bits) (h : l ≠ []) : (crcStep p l).length + 1 = l.length := by
  cases l with
  | nil => exact absurd rfl h
  | cons b t => cases b <;> simp [crcStep, xorPrefix_length]

theorem crcStep_dvd (p l : Bits) (h : l.length > p.length) :
    genPoly p ∣ bitsPoly (crcStep p l) - bitsPoly l := by
  cases l with
  | nil => simp at h
  | cons b t =>
    simp only [List.length_cons] at h
    cases b
    · simp [crcStep, bitsPoly]
    · simp only [crcStep, if_true, bitsPoly]
      rw [bitsPoly_xorPrefix t p (by omega)]
      refine ⟨X ^ (t.length - p.length), ?_⟩
      have e2 : (X : (ZMod 2)[X]) ^ t.length = X ^ p.length * X ^ (t.length - p.length) := by
        rw [← pow_add]; congr 1; omega
      rw [genPoly, e2]
      have := two_eq_zero_poly
      linear_combination (- X ^ p.length * X ^ (t.length - p.length)) * this

theorem crcLoop_spec (p : Bits) (k : Nat) (l : Bits) (hl : p.length ≤ l.length)
    (hk : l.length ≤ p.length + k) :
    (crcLoop p k l).length = p.length ∧ genPoly p ∣ bitsPoly (crcLoop p k l) - bitsPoly l := by
  induction k generalizing l with
  | zero => simp [crcLoop]; omega
  | succ k ih =>
    simp only [crcLoop]
    by_cases h : l.length > p.length
    · rw [if_pos h]
      have hne : l ≠ [] := by rintro rfl; simp at h
      have hs := crcStep_length p l hne
      obtain ⟨h1, h2⟩ := ih (crcStep p l) (by omega) (by omega)
      refine ⟨h1, ?_⟩
      have := dvd_add h2 (crcStep_dvd p l h)
      simpa using this
    · rw [if_neg h]
      exact ⟨by omega, by simp⟩

theorem computeCRC_length (b p : Bits) : (computeCRC b p).length = p.length := by
  unfold computeCRC
  exact (crcLoop_spec p _ _ (by simp) (by simp)).1

theorem computeCRC_dvd (b p : Bits) :
    genPoly p ∣ bitsPoly (computeCRC b p) - bitsPoly b * X ^ p.length := by
  have := (crcLoop_spec p (b ++ List.replicate p.length false).length
    (b ++ List.replicate p.length false) (by simp) (by simp)).2
  rw [bitsPoly_append] at this
  simpa [computeCRC] using this

theorem genPoly_monic (p : Bits) : (genPoly p).Monic := by
  unfold genPoly
  exact monic_X_pow_add (bitsPoly_degree_lt p)

theorem genPoly_degree (p : Bits) : (genPoly p).degree = p.length := by
  unfold genPoly
  rw [degree_add_eq_left_of_degree_lt]
  · simp
  · rw [degree_X_pow]; exact bitsPoly_degree_lt p

/-- Sum of bit strings is sum of polynomials. -/
theorem bitsPoly_xorBits (a b : Bits) (h : a.length = b.length) :
    bitsPoly (xorBits a b) = bitsPoly a + bitsPoly b := by
  induction a generalizing b with
  | nil =>
    cases b with
    | nil => simp [xorBits, bitsPoly]
    | cons y b => simp at h
  | cons x a ih =>
    cases b with
    | nil => simp at h
    | cons y b =>
      simp only [List.length_cons, Nat.add_right_cancel_iff] at h
      have ih := ih b h
      unfold xorBits at ih ⊢
      simp only [List.zipWith_cons_cons, bitsPoly, ih, List.length_zipWith, h, min_self]
      cases x <;> cases y <;> simp <;> ring_nf
      rw [two_eq_zero_poly]; ring

/-- The receiver accepts exactly the words divisible by the generator. -/
theorem crc_accept_iff (m c p : Bits) (hc : c.length = p.length) :
    computeCRC m p = c ↔ genPoly p ∣ bitsPoly (m ++ c) := by
  have hd := computeCRC_dvd m p
  have hneg : ∀ x y : (ZMod 2)[X], x - y = x + y := by
    intro x y
    have := add_self_poly y
    linear_combination -this
  rw [hneg] at hd
  rw [bitsPoly_append, hc]
  constructor
  · intro h
    rw [h] at hd
    rw [add_comm]; exact hd
  · intro h
    have h2 : genPoly p ∣ bitsPoly (computeCRC m p) + bitsPoly c := by
      have := dvd_add hd h
      have e : bitsPoly (computeCRC m p) + bitsPoly m * X ^ p.length
          + (bitsPoly m * X ^ p.length + bitsPoly c)
          = bitsPoly (computeCRC m p) + bitsPoly c
            + (bitsPoly m * X ^ p.length + bitsPoly m * X ^ p.length) := by ring
      rw [e, add_self_poly, add_zero] at this
      exact this
    have h3 : bitsPoly (computeCRC m p) + bitsPoly c = 0 := by
      apply eq_zero_of_dvd_of_degree_lt h2
      rw [genPoly_degree]
      apply lt_of_le_of_lt (degree_add_le _ _)
      rw [max_lt_iff]
      constructor
      · have := bitsPoly_degree_lt (computeCRC m p)
        rwa [computeCRC_length] at this
      · have := bitsPoly_degree_lt c
        rwa [hc] at this
    apply bitsPoly_inj (by rw [computeCRC_length, hc])
    have := hneg (bitsPoly (computeCRC m p)) (bitsPoly c)
    rw [h3] at this
    exact sub_eq_zero.mp this

theorem burst_not_dvd (p e : Bits) (hp : p.getLast? = some true) (he : IsBurst p.length e) :
    ¬ genPoly p ∣ bitsPoly e := by
  obtain ⟨a, c, b, rfl, hb, ht⟩ := he
  rw [bitsPoly_append, bitsPoly_append]
  simp only [bitsPoly_replicate_false, zero_mul, zero_add, add_zero, List.length_replicate]
  intro hdvd
  have hcop : IsCoprime (genPoly p) (X ^ c) := by
    apply IsCoprime.pow_right
    obtain ⟨q, hq⟩ : ∃ q, p = q ++ [true] := by
      rw [List.getLast?_eq_some_iff] at hp; exact hp
    refine ⟨1, -(X ^ q.length + bitsPoly q), ?_⟩
    rw [genPoly, hq, bitsPoly_append]
    simp [bitsPoly, pow_succ]
    ring
  have h2 := hcop.dvd_of_dvd_mul_right hdvd
  have h3 : bitsPoly b = 0 := by
    apply eq_zero_of_dvd_of_degree_lt h2
    rw [genPoly_degree]
    exact lt_of_lt_of_le (bitsPoly_degree_lt b) (by exact_mod_cast hb)
  exact bitsPoly_eq_zero h3 ht

end Haptics
