import Verif.Stream.Writer
import Verif.Stream.SpecTidy

/-
C37: empty components are removed before streaming.
-/
namespace Haptics

theorem emptyEffect_eq (bandType : Nat) (e : Effect) : emptyEffect bandType e = decide (e.Void bandType) := by
  unfold emptyEffect
  rw [Bool.eq_iff_iff, decide_eq_true_eq]
  simp [Effect.Void, and_assoc]

/-- What full pruning keeps is not affected by a sweep. -/
theorem prune_sweep {α : Type} (clean : α → α) (empty : α → Bool) (pr : α → α) (keep : α → Bool)
    (h1 : ∀ x, pr (clean x) = pr x) (h2 : ∀ x, empty (clean x) = true → keep (pr x) = false)
    (l : List α) : ((sweep clean empty l).map pr).filter keep = (l.map pr).filter keep := by
  induction l using sweep.induct clean empty with
  | case1 => rfl
  | case2 x h => simp [sweep, h, h2 x h]
  | case3 x h => simp [sweep, h, h1]
  | case4 x y l h ih => simp only [sweep, h, if_true, List.map_cons, List.filter_cons, h2 x h, ih]; rfl
  | case5 x y l h ih =>
    simp only [sweep, h, if_false, Bool.false_eq_true, List.map_cons, List.filter_cons, h1] at ih ⊢
    rw [ih]

/-- Without anything to tidy after a void component, a sweep is complete. -/
theorem sweep_eq_filter {α : Type} (clean : α → α) (empty : α → Bool) (l : List α)
    (h : l.IsChain (fun x y => empty (clean x) = true → clean y = y ∧ empty y = false)) :
    sweep clean empty l = (l.map clean).filter (fun x => !empty x) := by
  induction l using sweep.induct clean empty with
  | case1 => rfl
  | case2 x hx => simp [sweep, hx]
  | case3 x hx => simp [sweep, hx]
  | case4 x y l hx ih =>
    rw [List.isChain_cons_cons] at h
    obtain ⟨hy1, hy2⟩ := h.1 hx
    have hl : l.IsChain (fun x y => empty (clean x) = true → clean y = y ∧ empty y = false) := by
      cases l with
      | nil => exact .nil
      | cons z l => exact (List.isChain_cons_cons.1 h.2).2
    simp only [sweep, hx, if_true, List.map_cons, List.filter_cons, Bool.not_true, Bool.false_eq_true,
      if_false, hy1, hy2, Bool.not_false, ih hl]
  | case5 x y l hx ih =>
    rw [List.isChain_cons_cons] at h
    simp only [sweep, hx, Bool.false_eq_true, if_false]
    rw [ih h.2, List.map_cons (l := y :: l), List.filter_cons]
    simp [hx]

theorem isEmpty_false {α : Type} {l : List α} : l.isEmpty = false ↔ l ≠ [] := by
  cases l <;> simp

theorem Band.prune_check (b : Band) : (checkBand b).prune = b.prune := by
  unfold Band.prune checkBand
  dsimp only
  congr 1
  have := prune_sweep id (emptyEffect b.bandType) id (fun e => ¬ e.Void b.bandType) (fun _ => rfl)
    (fun x hx => by rw [emptyEffect_eq] at hx; simpa using hx) b.effects
  simpa using this

theorem Channel.prune_check (c : Channel) : (checkChannel c).prune = c.prune := by
  unfold Channel.prune checkChannel
  dsimp only
  congr 1
  refine prune_sweep checkBand _ Band.prune _ Band.prune_check (fun b hb => ?_) c.bands
  rw [← Band.prune_check]
  simp only [List.isEmpty_iff] at hb
  simp [Band.prune, hb]

theorem Perception.prune_check (p : Perception) : (checkPerception p).prune = p.prune := by
  unfold Perception.prune checkPerception
  dsimp only
  congr 1
  refine prune_sweep checkChannel _ Channel.prune _ Channel.prune_check (fun b hb => ?_) p.channels
  rw [← Channel.prune_check]
  simp only [List.isEmpty_iff] at hb
  simp [Channel.prune, hb]

/-- **C37** Removing empty components never removes anything else: whatever full pruning of the
experience keeps is still there, however often components are removed. -/
theorem c37_only_empty (h : Experience) (n : Nat) : (checkHapticComponent^[n] h).prune = h.prune := by
  have key : ∀ h : Experience, (checkHapticComponent h).prune = h.prune := by
    intro h
    unfold Experience.prune checkHapticComponent
    dsimp only
    congr 1
    refine prune_sweep checkPerception _ Perception.prune _ Perception.prune_check (fun b hb => ?_)
      h.perceptions
    rw [← Perception.prune_check]
    simp only [List.isEmpty_iff] at hb
    simp [Perception.prune, hb]
  induction n generalizing h with
  | zero => rfl
  | succ n ih => rw [Function.iterate_succ_apply, ih, key]

theorem Band.check_eq (b : Band) (h : b.Spaced) : checkBand b = b.prune := by
  unfold Band.prune checkBand
  congr 1
  rw [sweep_eq_filter]
  · simp only [List.map_id]
    congr 1
    funext e
    simp [emptyEffect_eq]
  · refine h.effects.imp ?_
    intro x y hxy hx
    rw [emptyEffect_eq] at hx ⊢
    have := hxy (by simpa using hx)
    exact ⟨rfl, by simpa using this⟩

theorem sweep_congr {α : Type} {c1 c2 : α → α} (empty : α → Bool) (l : List α)
    (h : ∀ x ∈ l, c1 x = c2 x) : sweep c1 empty l = sweep c2 empty l := by
  induction l using sweep.induct c1 empty with
  | case1 => rfl
  | case2 x hx => simp [sweep, h x (by simp)]
  | case3 x hx => simp [sweep, h x (by simp)]
  | case4 x y l hx ih =>
    have e := h x (by simp)
    rw [e] at hx
    simp only [sweep, e, hx, if_true]
    rw [ih (fun z hz => h z (by simp [hz]))]
  | case5 x y l hx ih =>
    have e := h x (by simp)
    rw [e] at hx
    simp only [sweep, e, hx, if_false, Bool.false_eq_true]
    rw [ih (fun z hz => h z (List.mem_cons_of_mem _ hz))]

theorem Channel.check_eq (c : Channel) (h : c.Spaced) : checkChannel c = c.prune := by
  unfold Channel.prune checkChannel
  congr 1
  rw [sweep_congr _ _ (fun b hb => b.check_eq (h.bands b hb)), sweep_eq_filter]
  refine h.next.imp ?_
  intro x y hxy hx
  obtain ⟨h1, h2⟩ := hxy (by simpa using hx)
  exact ⟨h1, isEmpty_false.2 h2⟩

theorem Perception.check_eq (p : Perception) (h : p.Spaced) : checkPerception p = p.prune := by
  unfold Perception.prune checkPerception
  congr 1
  rw [sweep_congr _ _ (fun b hb => b.check_eq (h.channels b hb)), sweep_eq_filter]
  refine h.next.imp ?_
  intro x y hxy hx
  obtain ⟨h1, h2⟩ := hxy (by simpa using hx)
  exact ⟨h1, isEmpty_false.2 h2⟩

/-- **C37 (partial)** If no component that has to be removed is followed immediately by one that needs
tidying as well, everything void is removed: no effect, band, channel or perception with nothing in it is
left.
Missing: neighbouring empty components, see `c37_negation`. -/
theorem c37_all_empty_partial (h : Experience) (hs : h.Spaced) :
    checkHapticComponent h = h.prune ∧
    (∀ p ∈ (checkHapticComponent h).perceptions, p.channels ≠ [] ∧ ∀ c ∈ p.channels, c.bands ≠ [] ∧
      ∀ b ∈ c.bands, b.effects ≠ [] ∧ ∀ e ∈ b.effects, ¬ e.Void b.bandType) := by
  have e : checkHapticComponent h = h.prune := by
    unfold Experience.prune checkHapticComponent
    congr 1
    rw [sweep_congr _ _ (fun b hb => b.check_eq (hs.perceptions b hb)), sweep_eq_filter]
    refine hs.next.imp ?_
    intro x y hxy hx
    obtain ⟨h1, h2⟩ := hxy (by simpa using hx)
    exact ⟨h1, isEmpty_false.2 h2⟩
  refine ⟨e, ?_⟩
  rw [e]
  intro p hp
  simp only [Experience.prune, List.mem_filter, List.mem_map] at hp
  obtain ⟨⟨p, -, rfl⟩, hne⟩ := hp
  refine ⟨by simpa using hne, fun c hc => ?_⟩
  simp only [Perception.prune, List.mem_filter, List.mem_map] at hc
  obtain ⟨⟨c, -, rfl⟩, hne⟩ := hc
  refine ⟨by simpa using hne, fun b hb => ?_⟩
  simp only [Channel.prune, List.mem_filter, List.mem_map] at hb
  obtain ⟨⟨b, -, rfl⟩, hne⟩ := hb
  refine ⟨by simpa using hne, fun x hx => ?_⟩
  simp only [Band.prune, List.mem_filter, decide_eq_true_eq] at hx
  exact hx.2

/-- An effect with something to play. -/
def someEffect : Effect := { id := 0, keyframes := [{ relativePosition := some 0 }] }

/-- Non-vacuity: an empty effect, an empty band and an empty channel, each followed by a full one, are
removed. -/
example : ∃ h : Experience, h.Spaced ∧ h.perceptions.length = 1 ∧
    (h.perceptions.map (fun p => p.channels.map (fun c => c.bands.map (fun b => b.effects.length))))
      = [[[0, 2], [], [2]]] ∧
    ((checkHapticComponent h).perceptions.map (fun p => p.channels.map (fun c => c.bands.map
      (fun b => b.effects.length)))) = [[[2], [2]]] := by
  let b0 : Band := {}
  let b2 : Band := { effects := [someEffect, someEffect] }
  have h0 : b0.Spaced := ⟨by simp [b0]⟩
  have hv : ¬ someEffect.Void b2.bandType := by decide
  have h2 : b2.Spaced := ⟨by simp [b2, hv]⟩
  have hp : b2.prune = b2 := by simp [b2, Band.prune, hv]
  let c1 : Channel := { bands := [b0, b2] }
  let c2 : Channel := {}
  let c3 : Channel := { bands := [b2] }
  have k1 : c1.Spaced := ⟨by simp [c1, h0, h2], by simp [c1, hp, b2]⟩
  have k2 : c2.Spaced := ⟨by simp [c2], by simp [c2]⟩
  have k3 : c3.Spaced := ⟨by simp [c3, h2], by simp [c3]⟩
  have hp3 : c3.prune = c3 := by simp [c3, Channel.prune, hp, b2]
  have hp1 : c1.prune.bands ≠ [] := by simp [c1, Channel.prune, hp, b2]
  refine ⟨{ perceptions := [{ channels := [c1, c2, c3] }] },
    ⟨by simp; exact ⟨by simp [k1, k2, k3], by simp [hp1, hp3, c3]⟩, by simp⟩, rfl, rfl, ?_⟩
  decide +kernel

/-- **C37, violated for neighbouring empty components**: of two empty effects the second is passed over,
and so are two empty bands, two empty channels and two empty perceptions. -/
theorem c37_negation :
    (∃ b : Band, (checkBand b).effects ≠ [] ∧ b.prune.effects = []) ∧
    (∃ c : Channel, ∃ b ∈ (checkChannel c).bands, b.effects = []) ∧
    (∃ p : Perception, ∃ c ∈ (checkPerception p).channels, c.bands = []) ∧
    (∃ h : Experience, ∃ p ∈ (checkHapticComponent h).perceptions, p.channels = []) :=
  ⟨⟨{ effects := [{}, {}] }, by simp [checkBand, sweep, emptyEffect], by decide +kernel⟩,
    ⟨{ bands := [{}, {}] }, {}, by simp [checkChannel, checkBand, sweep], rfl⟩,
    ⟨{ channels := [{}, {}] }, {}, by simp [checkPerception, checkChannel, sweep], rfl⟩,
    ⟨{ perceptions := [{}, {}] }, {}, by simp [checkHapticComponent, checkPerception, sweep], rfl⟩⟩

/-- A run of `n` components to be removed shrinks to `n / 2` in each pass. -/
theorem sweep_replicate {α : Type} (clean : α → α) (empty : α → Bool) (x : α)
    (hx : empty (clean x) = true) (n : Nat) :
    sweep clean empty (List.replicate n x) = List.replicate (n / 2) x := by
  induction n using Nat.strong_induction_on with
  | _ n ih =>
    match n with
    | 0 => rfl
    | 1 => simp [sweep, hx]
    | n + 2 =>
      simp only [List.replicate_succ, sweep, hx, if_true]
      rw [ih n (by omega), show (n + 2) / 2 = n / 2 + 1 by omega, List.replicate_succ]

/-- **C37, the number of passes matters.**  Writing a stream removes empty components seven times before
the data is written.  Of fewer than 128 perceptions, all of them empty, none is left by then; of 128, one
is. -/
theorem c37_seven_passes (n : Nat) :
    ((checkHapticComponent^[7] { perceptions := List.replicate n {} }).perceptions = []) ↔ n < 128 := by
  have step : ∀ n, checkHapticComponent { perceptions := List.replicate n {} }
      = { perceptions := List.replicate (n / 2) {} } := by
    intro n
    simp only [checkHapticComponent]
    rw [sweep_replicate _ _ _ (by simp [checkPerception, sweep])]
  simp only [Function.iterate_succ_apply, Function.iterate_zero, id_eq, step, List.replicate_eq_nil_iff]
  omega

end Haptics
