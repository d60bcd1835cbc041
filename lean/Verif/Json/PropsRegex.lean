import Verif.Json.Regex
import Verif.Json.SpecRegex
import Mathlib.Tactic.Linarith
import Mathlib.Tactic.NormNum

/-! C69: which versions, dates and URIs are accepted. -/

namespace Haptics.Json
open Haptics

/-! ### The preferred match -/

def Re.first (r : Re) (x : Str × Groups) : Option (Str × Groups) := (r.run x).head?

theorem first_opt (a : Re) (x) : (Re.opt a).first x = some ((a.first x).getD x) := by
  unfold Re.first
  rw [Re.run]
  cases a.run x <;> rfl

theorem starRun_head (p : UInt8 → Bool) (s : Str) : (starRun p s).head? = some (s.dropWhile p) := by
  induction s with
  | nil => rfl
  | cons b s ih =>
    rw [starRun]
    split
    · next h =>
      rw [List.head?_append, ih, List.dropWhile_cons_of_pos h]
      rfl
    · next h => rw [List.dropWhile_cons_of_neg h]; rfl

theorem first_star (p : UInt8 → Bool) (x) : (Re.star p).first x = some (x.1.dropWhile p, x.2) := by
  unfold Re.first
  rw [Re.run, List.head?_map, starRun_head]
  rfl

theorem first_seq (a b : Re) (hb : ∀ y, b.first y ≠ none) (x) : (Re.seq a b).first x = (a.first x).bind b.first := by
  unfold Re.first at hb ⊢
  rw [Re.run]
  cases h : a.run x with
  | nil => rfl
  | cons y l =>
    rw [List.flatMap_cons, List.head?_append, List.head?_cons, Option.bind_some]
    cases hy : (b.run y).head? with
    | none => exact absurd hy (hb y)
    | some z => rfl

theorem run_opt_ne (a : Re) (x) : (Re.opt a).run x ≠ [] := by rw [Re.run]; simp

theorem seq_ne (a b : Re) (hb : ∀ y, b.run y ≠ []) (x) : (Re.seq a b).run x ≠ [] ↔ a.run x ≠ [] := by
  rw [Re.run, Ne, List.flatMap_eq_nil_iff]
  constructor
  · rintro h h'
    exact h (by simp [h'])
  · intro h h'
    obtain ⟨y, hy⟩ := List.exists_mem_of_ne_nil _ h
    exact hb y (h' y hy)

instance (b : UInt8) : Decidable (IsDigit b) := inferInstanceAs (Decidable (_ ∧ _))

theorem digit_run (x) : digit.run x = match x with
    | ([], _) => []
    | (b :: s, g) => if IsDigit b then [(s, g)] else [] := by
  obtain ⟨s, g⟩ := x
  cases s with
  | nil => rfl
  | cons b s =>
    simp only [digit, Re.run, between, decide_eq_true_eq]
    rfl

/-! ### Dates -/

theorem digits_ne (r : Re) (hr : ∀ y, r.run y ≠ []) (s : Str) (g : Groups) :
    (Re.seq digit (.seq digit (.seq digit (.seq digit r)))).run (s, g) ≠ [] ↔
      ∃ a b c d t, IsDigit a ∧ IsDigit b ∧ IsDigit c ∧ IsDigit d ∧ s = a :: b :: c :: d :: t := by
  have one : ∀ (r : Re) (s : Str) (g : Groups), (Re.seq digit r).run (s, g) ≠ [] ↔
      ∃ a t, IsDigit a ∧ s = a :: t ∧ r.run (t, g) ≠ [] := by
    intro r s g
    rw [Re.run, digit_run]
    cases s with
    | nil => simp
    | cons b s =>
      simp only
      split
      · next h => simp [h]
      · next h => simp [h]
  constructor
  · intro h
    obtain ⟨a, s1, ha, rfl, h1⟩ := (one _ _ _).mp h
    obtain ⟨b, s2, hb, rfl, h2⟩ := (one _ _ _).mp h1
    obtain ⟨c, s3, hc, rfl, h3⟩ := (one _ _ _).mp h2
    obtain ⟨d, s4, hd, rfl, h4⟩ := (one _ _ _).mp h3
    exact ⟨a, b, c, d, s4, ha, hb, hc, hd, rfl⟩
  · rintro ⟨a, b, c, d, t, ha, hb, hc, hd, rfl⟩
    exact (one _ _ _).mpr ⟨a, _, ha, rfl, (one _ _ _).mpr ⟨b, _, hb, rfl, (one _ _ _).mpr ⟨c, _, hc, rfl,
      (one _ _ _).mpr ⟨d, _, hd, rfl, hr _⟩⟩⟩⟩

theorem mem_suffixes (s t : Str) : t ∈ suffixes s ↔ t <:+ s := by
  induction s with
  | nil => simp [suffixes]
  | cons b s ih => rw [suffixes, List.mem_cons, ih, List.suffix_cons_iff]

theorem dateRe_eq : ∃ tail, dateRe = .seq (.opt (.cls (oneOf ['+', '-'])))
    (.seq digit (.seq digit (.seq digit (.seq digit (.opt tail))))) := ⟨_, rfl⟩

/-- The expression for dates finds a match in every text with four digits in a row. -/
theorem date_iff (s : Str) : dateCheck s = true ↔ HasFourDigits s := by
  unfold dateCheck Re.search
  rw [List.any_eq_true]
  obtain ⟨tail, htail⟩ := dateRe_eq
  rw [htail]
  have ne : ∀ l : List (Str × Groups), (!l.isEmpty) = true ↔ l ≠ [] := by intro l; cases l <;> simp
  constructor
  · rintro ⟨t, ht, h⟩
    rw [mem_suffixes] at ht
    obtain ⟨before, rfl⟩ := ht
    rw [ne] at h
    rw [Re.run, Re.run, List.flatMap_append] at h
    have : ((Re.cls (oneOf ['+', '-'])).run (t, [])) = [] ∨
        ∃ c t', t = c :: t' ∧ (Re.cls (oneOf ['+', '-'])).run (t, []) = [(t', [])] := by
      cases t with
      | nil => left; rfl
      | cons c t' =>
        rw [Re.run]
        split
        · right; exact ⟨c, t', rfl, rfl⟩
        · left; rfl
    have four : ∀ t' : Str, (Re.seq digit (.seq digit (.seq digit (.seq digit (.opt tail))))).run (t', []) ≠ [] →
        HasFourDigits t' := fun t' h' => by
      obtain ⟨a, b, c, d, u, ha, hb, hc, hd, rfl⟩ := (digits_ne _ (run_opt_ne _) t' []).mp h'
      exact ⟨[], u, a, b, c, d, ha, hb, hc, hd, rfl⟩
    have ext : ∀ (l t' : Str), HasFourDigits t' → HasFourDigits (l ++ t') := by
      rintro l t' ⟨bef, aft, a, b, c, d, ha, hb, hc, hd, rfl⟩
      exact ⟨l ++ bef, aft, a, b, c, d, ha, hb, hc, hd, by simp⟩
    rcases this with h0 | ⟨c, t', rfl, h0⟩
    · rw [h0, List.flatMap_nil, List.nil_append, List.flatMap_cons, List.flatMap_nil, List.append_nil] at h
      exact ext _ _ (four _ h)
    · rw [h0, List.flatMap_cons, List.flatMap_nil, List.append_nil, List.flatMap_cons, List.flatMap_nil,
        List.append_nil] at h
      rcases Classical.em ((Re.seq digit (.seq digit (.seq digit (.seq digit (.opt tail))))).run (t', []) = []) with h1 | h1
      · rw [h1, List.nil_append] at h
        exact ext _ _ (four _ h)
      · have := ext [c] _ (four _ h1)
        exact ext _ _ this
  · rintro ⟨before, after, a, b, c, d, ha, hb, hc, hd, rfl⟩
    refine ⟨a :: b :: c :: d :: after, (mem_suffixes _ _).mpr ⟨before, rfl⟩, ?_⟩
    rw [ne]
    rw [Re.run, Re.run, List.flatMap_append]
    intro h
    rw [List.append_eq_nil_iff] at h
    have h2 := h.2
    rw [List.flatMap_cons, List.flatMap_nil, List.append_nil] at h2
    exact (digits_ne _ (run_opt_ne _) _ []).mpr ⟨a, b, c, d, after, ha, hb, hc, hd, rfl⟩ h2

/-- **C69 (dates).** Every text with four digits in a row is accepted as a date. -/
theorem c69_date_negation (before after : Str) (a b c d : UInt8) (ha : IsDigit a) (hb : IsDigit b) (hc : IsDigit c)
    (hd : IsDigit d) : dateCheck (before ++ a :: b :: c :: d :: after) = true :=
  (date_iff _).mpr ⟨before, after, a, b, c, d, ha, hb, hc, hd, rfl⟩

/-- **C69 (dates).** And no other. -/
theorem c69_date_partial (s : Str) (h : dateCheck s = true) : HasFourDigits s := (date_iff s).mp h

/-- "room 4711?" is a date. -/
example : dateCheck ("room 4711?".toUTF8.toList) = true := by decide +kernel

example : dateCheck ("2023-13".toUTF8.toList) = true ∧ dateCheck ("23-01-01".toUTF8.toList) = false := by decide +kernel

/-! ### URIs -/

theorem run_suffix (r : Re) : ∀ x y, y ∈ r.run x → y.1 <:+ x.1 := by
  induction r with
  | cls p =>
    rintro ⟨s, g⟩ y h
    cases s with
    | nil => simp [Re.run] at h
    | cons b s =>
      rw [Re.run] at h
      split at h
      · rw [List.mem_singleton] at h; subst h; exact List.suffix_cons _ _
      · simp at h
  | stop =>
    rintro ⟨s, g⟩ y h
    cases s with
    | nil => rw [Re.run, List.mem_singleton] at h; subst h; exact List.suffix_rfl
    | cons b s => simp [Re.run] at h
  | seq a b iha ihb =>
    intro x y h
    rw [Re.run, List.mem_flatMap] at h
    obtain ⟨z, hz, hy⟩ := h
    exact (ihb z y hy).trans (iha x z hz)
  | opt a ih =>
    intro x y h
    rw [Re.run, List.mem_append, List.mem_singleton] at h
    rcases h with h | rfl
    · exact ih x y h
    · exact List.suffix_rfl
  | star p =>
    intro x y h
    rw [Re.run, List.mem_map] at h
    obtain ⟨s, hs, rfl⟩ := h
    obtain ⟨t, g⟩ := x
    simp only at hs ⊢
    induction t with
    | nil => simp [starRun] at hs; subst hs; exact List.suffix_rfl
    | cons b t ih =>
      rw [starRun] at hs
      split at hs
      · rw [List.mem_append, List.mem_singleton] at hs
        rcases hs with hs | rfl
        · exact (ih hs).trans (List.suffix_cons _ _)
        · exact List.suffix_rfl
      · rw [List.mem_singleton] at hs; subst hs; exact List.suffix_rfl
  | group n a ih =>
    intro x y h
    rw [Re.run, List.mem_map] at h
    obtain ⟨z, hz, rfl⟩ := h
    exact ih x z hz

theorem first_suffix (r : Re) (x y) (h : r.first x = some y) : y.1 <:+ x.1 := run_suffix r x y (List.mem_of_head? h)

theorem opt_suffix (r : Re) (x) : ((r.first x).getD x).1 <:+ x.1 := by
  cases h : r.first x with
  | none => exact List.suffix_rfl
  | some y => exact first_suffix r x y h

/-- An optional part that begins with the first character of the text is matched. -/
theorem opt_taken (p q : UInt8 → Bool) (b : UInt8) (s : Str) (g : Groups) (hb : p b = true) :
    ((Re.seq (.cls p) (.star q)).first (b :: s, g)).getD (b :: s, g) = (s.dropWhile q, g) := by
  rw [first_seq _ _ (fun y => by rw [first_star]; simp)]
  have : (Re.cls p).first (b :: s, g) = some (s, g) := by
    unfold Re.first
    rw [Re.run, if_pos hb]
    rfl
  rw [this, Option.bind_some, first_star]
  rfl

theorem dropWhile_length (p : UInt8 → Bool) (s : Str) : (s.dropWhile p).length ≤ s.length :=
  (List.dropWhile_suffix p).length_le

theorem uriRe_eq : ∃ a b, uriRe = .seq (.opt a) (.seq (.opt b) (.seq (.star (noneOf ['?', '#']))
    (.seq (.opt (.seq (ch '?') (.star (noneOf ['#'])))) (.opt (.seq (ch '#') (.star (noneOf ['\n', '\r']))))))) :=
  ⟨_, _, rfl⟩

/-- **C69 (URIs).** Every text that is not empty is accepted as a URI. -/
theorem c69_uri (s : Str) : uriCheck s = true ↔ s ≠ [] := by
  obtain ⟨a, b, h⟩ := uriRe_eq
  have ho : ∀ (r : Re) y, (Re.opt r).first y ≠ none := by intro r y; rw [first_opt]; simp
  have hm : ∃ y1 y2 y3 y4 y5 : Str × Groups, uriRe.match? s = some y5 ∧ y1.1 <:+ s ∧ y2.1 <:+ y1.1 ∧
      y3.1 = y2.1.dropWhile (noneOf ['?', '#']) ∧
      y4 = ((Re.seq (ch '?') (.star (noneOf ['#']))).first y3).getD y3 ∧
      y5 = ((Re.seq (ch '#') (.star (noneOf ['\n', '\r']))).first y4).getD y4 := by
    rw [h]
    change ∃ y1 y2 y3 y4 y5 : Str × Groups, Re.first _ (s, []) = some y5 ∧ _
    have t4 : ∀ y, (Re.seq (.opt (.seq (ch '?') (.star (noneOf ['#'])))) (.opt (.seq (ch '#') (.star (noneOf ['\n', '\r']))))).first y
        ≠ none := by
      intro y; rw [first_seq _ _ (ho _), first_opt, Option.bind_some]; exact ho _ _
    have t3 : ∀ y, (Re.seq (.star (noneOf ['?', '#'])) (.seq (.opt (.seq (ch '?') (.star (noneOf ['#']))))
        (.opt (.seq (ch '#') (.star (noneOf ['\n', '\r'])))))).first y ≠ none := by
      intro y; rw [first_seq _ _ t4, first_star, Option.bind_some]; exact t4 _
    have t2 : ∀ y, (Re.seq (.opt b) (.seq (.star (noneOf ['?', '#'])) (.seq (.opt (.seq (ch '?') (.star (noneOf ['#']))))
        (.opt (.seq (ch '#') (.star (noneOf ['\n', '\r']))))))).first y ≠ none := by
      intro y; rw [first_seq _ _ t3, first_opt, Option.bind_some]; exact t3 _
    rw [first_seq _ _ t2, first_opt, Option.bind_some, first_seq _ _ t3, first_opt, Option.bind_some, first_seq _ _ t4,
      first_star, Option.bind_some, first_seq _ _ (ho _), first_opt, Option.bind_some, first_opt]
    exact ⟨_, _, _, _, _, rfl, opt_suffix a (s, []), opt_suffix b _, rfl, rfl, rfl⟩
  obtain ⟨y1, y2, y3, y4, y5, hm, h1, h2, h3, h4, h5⟩ := hm
  have s4 : y4.1 <:+ y3.1 := h4 ▸ opt_suffix _ _
  have s5 : y5.1 <:+ y4.1 := h5 ▸ opt_suffix _ _
  have s3 : y3.1 <:+ y2.1 := h3 ▸ List.dropWhile_suffix _
  unfold uriCheck
  rw [hm]
  simp only [decide_eq_true_eq]
  constructor
  · rintro hne rfl
    have := ((((s5.trans s4).trans s3).trans h2).trans h1).length_le
    simp at this
    simp [this] at hne
  · intro hs hlen
    obtain ⟨c, t, rfl⟩ := List.exists_cons_of_ne_nil hs
    have l1 := h1.length_le
    have l2 := h2.length_le
    have l3 := s3.length_le
    have l4 := s4.length_le
    have l5 := s5.length_le
    have e1 : y1.1 = c :: t := h1.eq_of_length (by omega)
    have e2 : y2.1 = c :: t := (h2.eq_of_length (by omega)).trans e1
    have e3 : y3.1 = c :: t := (s3.eq_of_length (by omega)).trans e2
    have e4 : y4.1 = c :: t := (s4.eq_of_length (by omega)).trans e3
    have e5 : y5.1 = c :: t := (s5.eq_of_length (by omega)).trans e4
    obtain ⟨y3s, y3g⟩ := y3
    obtain ⟨y4s, y4g⟩ := y4
    simp only at e3 e4 h3
    subst e3 e4
    have hc : noneOf ['?', '#'] c = false := by
      by_contra hc
      rw [e2, List.dropWhile_cons_of_pos (by simpa using hc)] at h3
      have := dropWhile_length (noneOf ['?', '#']) t
      rw [← h3] at this
      simp at this
    have hc' : (c == '?'.toNat.toUInt8) = true ∨ (c == '#'.toNat.toUInt8) = true := by
      by_contra h
      rw [not_or] at h
      simp [noneOf, oneOf] at hc
      simp [hc] at h
      exact h.2 (hc h.1)
    rcases hc' with hc' | hc'
    · unfold ch at h4
      rw [opt_taken (fun x => x == '?'.toNat.toUInt8) _ _ _ _ hc'] at h4
      have := dropWhile_length (noneOf ['#']) t
      rw [← (Prod.mk.inj h4).1] at this
      simp at this
    · unfold ch at h5
      rw [opt_taken (fun x => x == '#'.toNat.toUInt8) _ _ _ _ hc'] at h5
      rw [h5] at e5
      simp only at e5
      have := dropWhile_length (noneOf ['\n', '\r']) t
      rw [e5] at this
      simp at this

/-! ### Versions -/

theorem dash_run (x : Str × Groups) : (ch '-').run x = match x with
    | ([], _) => []
    | (b :: s, g) => if b = 45 then [(s, g)] else [] := by
  obtain ⟨s, g⟩ := x
  cases s with
  | nil => rfl
  | cons b s =>
    simp only [ch, Re.run, beq_iff_eq]
    rfl

theorem year_run (s : Str) : (Re.group 1 (seqs [digit, digit, digit, digit])).run (s, []) = match s with
    | a :: b :: c :: d :: t =>
      if IsDigit a ∧ IsDigit b ∧ IsDigit c ∧ IsDigit d then [(t, [(1, [a, b, c, d])])] else []
    | _ => [] := by
  have one : ∀ (r : Re) (s : Str), (Re.seq digit r).run (s, []) = match s with
      | a :: t => if IsDigit a then r.run (t, []) else []
      | [] => [] := by
    intro r s
    rw [Re.run, digit_run]
    cases s with
    | nil => rfl
    | cons a t =>
      simp only
      by_cases h : IsDigit a
      · rw [if_pos h, if_pos h]; simp
      · rw [if_neg h, if_neg h]; rfl
  rw [Re.run]
  simp only [seqs]
  match s with
  | [] => rw [one]; rfl
  | [a] => rw [one]; simp only; rw [one]; simp
  | [a, b] => rw [one]; simp only; rw [one]; simp only; rw [one]; simp
  | [a, b, c] =>
    rw [one]; simp only; rw [one]; simp only; rw [one]; simp only; rw [digit_run]; simp
  | a :: b :: c :: d :: t =>
    rw [one]; simp only; rw [one]; simp only; rw [one]; simp only; rw [digit_run]; simp only
    by_cases ha : IsDigit a
    · by_cases hb : IsDigit b
      · by_cases hc : IsDigit c
        · by_cases hd : IsDigit d
          · rw [if_pos ha, if_pos hb, if_pos hc, if_pos hd, if_pos ⟨ha, hb, hc, hd⟩]
            simp only [List.map_cons, List.map_nil, List.length_cons]
            rw [show t.length + 1 + 1 + 1 + 1 - t.length = 4 by omega]
            rfl
          · rw [if_pos ha, if_pos hb, if_pos hc, if_neg hd, if_neg (fun h => hd h.2.2.2)]; rfl
        · rw [if_pos ha, if_pos hb, if_neg hc, if_neg (fun h => hc h.2.2.1)]; rfl
      · rw [if_pos ha, if_neg hb, if_neg (fun h => hb h.2.1)]; rfl
    · rw [if_neg ha, if_neg (fun h => ha h.1)]; rfl

theorem amendment_run (t : Str) (g : Groups) :
    (Re.seq (.opt (.group 2 (seqs [ch '-', .group 3 digit]))) .stop).run (t, g) = match t with
    | [] => [([], g)]
    | [e, y] => if e = 45 ∧ IsDigit y then [([], (2, [e, y]) :: (3, [y]) :: g)] else []
    | _ => [] := by
  simp only [seqs]
  rw [Re.run, Re.run, Re.run, Re.run, dash_run]
  match t with
  | [] => rfl
  | [e] =>
    simp only
    by_cases h : e = 45
    · subst h; rfl
    · rw [if_neg h]; rfl
  | [e, y] =>
    simp only
    by_cases h : e = 45
    · subst h
      rw [if_pos rfl]
      by_cases hy : IsDigit y
      · rw [if_pos ⟨rfl, hy⟩]
        simp only [List.flatMap_cons, List.flatMap_nil, List.append_nil]
        rw [Re.run, digit_run]
        simp only
        rw [if_pos hy]
        simp [Re.run]
      · rw [if_neg (fun h => hy h.2)]
        simp only [List.flatMap_cons, List.flatMap_nil, List.append_nil]
        rw [Re.run, digit_run]
        simp only
        rw [if_neg hy]
        simp [Re.run]
    · rw [if_neg h, if_neg (fun h' => h h'.1)]; rfl
  | e :: y :: z :: t =>
    simp only
    by_cases h : e = 45
    · subst h
      rw [if_pos rfl]
      simp only [List.flatMap_cons, List.flatMap_nil, List.append_nil]
      rw [Re.run, digit_run]
      simp only
      by_cases hy : IsDigit y
      · rw [if_pos hy]; simp [Re.run]
      · rw [if_neg hy]; simp [Re.run]
    · rw [if_neg h]; rfl

theorem version_match (s : Str) : versionRe.match? s = match s with
    | [a, b, c, d] => if IsDigit a ∧ IsDigit b ∧ IsDigit c ∧ IsDigit d then some ([], [(1, [a, b, c, d])]) else none
    | [a, b, c, d, e, y] =>
      if (IsDigit a ∧ IsDigit b ∧ IsDigit c ∧ IsDigit d) ∧ e = 45 ∧ IsDigit y then
        some ([], [(2, [e, y]), (3, [y]), (1, [a, b, c, d])]) else none
    | _ => none := by
  unfold Re.match? versionRe
  rw [seqs, Re.run, year_run]
  · match s with
    | [] => rfl
    | [a] => rfl
    | [a, b] => rfl
    | [a, b, c] => rfl
    | a :: b :: c :: d :: t =>
      simp only
      by_cases h : IsDigit a ∧ IsDigit b ∧ IsDigit c ∧ IsDigit d
      · rw [if_pos h, List.flatMap_cons, List.flatMap_nil, List.append_nil]
        change ((Re.seq (.opt (.group 2 (seqs [ch '-', .group 3 digit]))) .stop).run _).head? = _
        rw [amendment_run]
        match t with
        | [] => simp [h]
        | [e] => rfl
        | [e, y] =>
          simp only
          by_cases h' : e = 45 ∧ IsDigit y
          · rw [if_pos h', if_pos ⟨h, h'⟩]; rfl
          · rw [if_neg h', if_neg (fun k => h' k.2)]; rfl
        | e :: y :: z :: t => rfl
      · rw [if_neg h]
        match t with
        | [] => simp [h]
        | [e] => rfl
        | [e, y] => simp [h]
        | e :: y :: z :: t => rfl
  · intro h; cases h

theorem year_value (a b c d : UInt8) : atoi [a, b, c, d]
    = 1000 * (a.toNat - 48) + 100 * (b.toNat - 48) + 10 * (c.toNat - 48) + (d.toNat - 48) := by
  simp only [atoi, List.foldl]
  omega

theorem year_number (a b c d : UInt8) (h : IsDigit a ∧ IsDigit b ∧ IsDigit c ∧ IsDigit d) :
    isNumber [a, b, c, d] = true := by
  obtain ⟨ha, hb, hc, hd⟩ := h
  unfold IsDigit at *
  simp [isNumber, ha, hb, hc, hd]

/-- **C69 (versions).** Exactly the versions are accepted. -/
theorem c69_version (s : Str) : versionCheck s = true ↔ IsVersion s := by
  unfold versionCheck
  rw [version_match]
  constructor
  · intro h
    match s with
    | [] => cases h
    | [a] => cases h
    | [a, b] => cases h
    | [a, b, c] => cases h
    | [a, b, c, d] =>
      simp only at h
      by_cases hd : IsDigit a ∧ IsDigit b ∧ IsDigit c ∧ IsDigit d
      · rw [if_pos hd] at h
        simp [piece, List.lookup] at h
        exact ⟨a, b, c, d, hd.1, hd.2.1, hd.2.2.1, hd.2.2.2, by rw [← year_value]; exact h.2, .inl rfl⟩
      · rw [if_neg hd] at h; cases h
    | [a, b, c, d, e] => cases h
    | [a, b, c, d, e, y] =>
      simp only at h
      by_cases hd : (IsDigit a ∧ IsDigit b ∧ IsDigit c ∧ IsDigit d) ∧ e = 45 ∧ IsDigit y
      · rw [if_pos hd] at h
        obtain ⟨hd, rfl, hy⟩ := hd
        simp [piece, List.lookup] at h
        refine ⟨a, b, c, d, hd.1, hd.2.1, hd.2.2.1, hd.2.2.2, by rw [← year_value]; exact h.1.2, .inr ⟨y, hy, ?_, rfl⟩⟩
        rintro rfl
        exact absurd h.2.2 (by decide)
      · rw [if_neg hd] at h; cases h
    | a :: b :: c :: d :: e :: y :: z :: t => cases h
  · rintro ⟨a, b, c, d, ha, hb, hc, hd, hy, rfl | ⟨y, hdy, hy0, rfl⟩⟩
    · simp only
      rw [if_pos ⟨ha, hb, hc, hd⟩]
      simp [piece, List.lookup, year_number a b c d ⟨ha, hb, hc, hd⟩, year_value, hy]
    · simp only
      rw [if_pos ⟨⟨ha, hb, hc, hd⟩, trivial, hdy⟩]
      have h1 : isNumber [y] = true := by
        unfold IsDigit at hdy
        simp [isNumber, hdy]
      have h2 : 0 < atoi [y] := by
        simp only [atoi, List.foldl]
        have h3 : 48 ≤ y.toNat := by have := hdy.1; exact this
        have h4 : y.toNat ≠ 48 := by
          intro h
          apply hy0
          exact UInt8.toNat_inj.mp h
        omega
      simp [piece, List.lookup, year_number a b c d ⟨ha, hb, hc, hd⟩, year_value, hy, h1, h2]

example : versionCheck ("2023".toUTF8.toList) = true ∧ versionCheck ("2025-2".toUTF8.toList) = true ∧
    versionCheck ("2022-1".toUTF8.toList) = false ∧ versionCheck ("2023-0".toUTF8.toList) = false ∧
    versionCheck ("2023-10".toUTF8.toList) = false := by decide +kernel

end Haptics.Json
