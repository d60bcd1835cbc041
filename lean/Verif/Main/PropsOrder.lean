import Verif.Main.SpecOrder
import Verif.Main.PropsSolo
import Mathlib.Data.List.Forall2
import Mathlib.Data.List.Perm.Basic

/-! **C117** The order of perceptions and channels does not matter. -/

namespace Haptics
open SynthMain

theorem forward_mapE {α β : Type} {f : α → Except Err β} {l : List α} {r : List β} (h : List.Forall₂ (fun a b => f a = .ok b) l r) :
    mapE f l = .ok r := by
  induction h with
  | nil => rfl
  | cons h1 _ ih => simp only [mapE, h1, ih]

/-- A track with its references replaced. -/
def playedTrack (t : Perception × Channel) : Perception × Channel := (t.1, linearizeChannel t.1.effectLibrary t.2)

theorem tracks_eq (h : Experience) : h.tracks = (channelsOf h.perceptions).map (fun pc => ({ pc.1 with channels := [] }, pc.2)) := by
  unfold Experience.tracks channelsOf
  rw [List.map_flatMap]
  congr 1
  funext p
  rw [List.map_map]
  rfl

/-- What is played of an experience depends on its tracks. -/
theorem tracks_played (parts : Parts) (h : Experience) (ts n : Nat) (fs pad : Int) (sig : List (List (Option ℝ))) :
    List.Forall₂ (Played parts ts n fs pad) (channelsOf h.linearize.perceptions) sig ↔
      List.Forall₂ (fun t s => Played parts ts n fs pad (playedTrack t) s) h.tracks sig := by
  have : h.linearize.perceptions = h.perceptions.map Perception.linearizeLibrary := rfl
  rw [this, channelsOf_linearize, tracks_eq, List.forall₂_map_left_iff, List.forall₂_map_left_iff]
  exact Iff.rfl

/-- So does its length. -/
theorem tracks_length (h : Experience) : h.linearize.perceptions.flatMap Perception.channels = h.tracks.map (fun t => (playedTrack t).2) := by
  have : h.linearize.perceptions = h.perceptions.map Perception.linearizeLibrary := rfl
  rw [channels_of, this, channelsOf_linearize, tracks_eq, List.map_map, List.map_map]
  rfl

theorem decoded_mapE {parts : Parts} {ts : Nat} {ps : List Perception}
    (h : ∀ pc ∈ channelsOf ps, ∃ bands, List.Forall₂ (Decoded parts ts) pc.2.bands bands) :
    ∃ qs, mapE (decodePerception parts ts) ps = .ok qs := by
  refine mapE_total _ _ fun p hp => ?_
  obtain ⟨cs, hcs⟩ := mapE_total (decodeChannel parts ts) p.channels (fun c hc => by
    obtain ⟨bands, hb⟩ := h (p, c) (List.mem_flatMap.mpr ⟨p, hp, List.mem_map.mpr ⟨c, hc, rfl⟩⟩)
    exact ⟨{ c with bands := bands }, by
      unfold decodeChannel
      rw [decoded_forward hb]
      rfl⟩)
  exact ⟨{ p with channels := cs }, by
    unfold decodePerception
    rw [hcs]
    rfl⟩

/-- `c82_content` the other way round: what the signals are to be is what is played. -/
theorem play_of (parts : Parts) (h : Experience) (fs pad : Int) (sig : List (List (Option ℝ))) (ts : Nat) (length : ℚ) (n : Nat)
    (h1 : h.timescale = some ts) (h2 : h.linearize.timeLength = .ok length) (h3 : sampleCount length fs pad ts = .ok n) (h0 : sig ≠ [])
    (h4 : List.Forall₂ (Played parts ts n fs pad) (channelsOf h.linearize.perceptions) sig) : synthesize parts h fs pad = .ok sig := by
  obtain ⟨qs, hq⟩ := decoded_mapE (parts := parts) (ts := ts) (ps := h.linearize.perceptions) (by
    intro pc hpc
    obtain ⟨i, hi, rfl⟩ := List.getElem_of_mem hpc
    obtain ⟨bands, r, hd, -, -⟩ := h4.get hi (by rw [← h4.length_eq]; exact hi)
    exact ⟨bands, hd⟩)
  have hts : h.linearize.timescale = some ts := h1
  unfold synthesize
  rw [h2]
  show playFile parts h.linearize length fs pad = _
  unfold playFile
  rw [hts, Option.getD_some, hq]
  have hc := decode_channels (mapE_forall₂ _ _ _ hq)
  have hpl : mapE (playChannel parts length fs pad ts) (channelsOf qs) = .ok sig := by
    refine forward_mapE (forall₂_trans' ?_ hc.flip h4)
    rintro ⟨q, c'⟩ ⟨p, c⟩ s ⟨bands, d1, d2, d3⟩ ⟨bands', r, e1, e2, e3⟩
    dsimp only at d1 d2 d3 e1 e2 e3
    have : bands' = bands := Except.ok.inj ((decoded_forward e1).symm.trans (decoded_forward d1))
    subst this d2
    unfold playChannel
    rw [h3]
    show (({ c with bands := bands' } : Channel).evaluateChannel parts.samples parts.other n fs pad ts).bind _ = _
    rw [e2, e3]
    unfold factor
    rw [d3]
    rfl
  show (mapE (playChannel parts length fs pad ts) (channelsOf qs)).bind _ = _
  rw [hpl]
  show (if sig.isEmpty = true then _ else _) = _
  rw [if_neg (by simpa using h0)]
  rfl

/-- The length of an experience with the same tracks in another order. -/
theorem tracks_timeLength {h h' : Experience} (ht : h'.timescale = h.timescale) (hp : h.tracks.Perm h'.tracks) {length : ℚ}
    (hl : h.linearize.timeLength = .ok length) : h'.linearize.timeLength = .ok length := by
  unfold Experience.timeLength at hl ⊢
  rw [show h'.linearize.timescale = h.linearize.timescale from ht]
  cases hts : h.linearize.timescale with
  | none => rw [hts] at hl; cases hl
  | some ts =>
    rw [hts] at hl
    simp only [tracks_length] at hl ⊢
    cases hm : mapE (fun c : Channel => c.lengths ts) (h.tracks.map fun t => (playedTrack t).2) with
    | error e => rw [hm] at hl; cases hl
    | ok l =>
      rw [hm] at hl
      have := Except.ok.inj hl
      subst this
      obtain ⟨l', hl', hperm⟩ := List.perm_comp_forall₂ (hp.symm.map fun t => (playedTrack t).2) (mapE_forall₂ _ _ _ hm)
      rw [forward_mapE hl']
      refine congrArg Except.ok (List.Perm.foldl_eq ?_ _)
      exact hperm.flatten

theorem play_nonempty (parts : Parts) (h : Experience) (fs pad : Int) : synthesize parts h fs pad ≠ .ok [] := by
  intro hs
  obtain ⟨_, _, _, -, -, -, h0, -⟩ := c82_signals parts h fs pad [] hs
  exact h0 rfl

/-- **C117.** Two experiences with the same channels, each under the same description of its perception, sound the same: it does not matter in which order they are, or
how many perceptions they are in.  If one can be played, so can the other, and every channel has the same signal. -/
theorem c117_order (parts : Parts) (h h' : Experience) (fs pad : Int) (ht : h'.timescale = h.timescale) (hp : h.tracks.Perm h'.tracks)
    (sig : List (List (Option ℝ))) (hs : synthesize parts h fs pad = .ok sig) :
    ∃ sig', synthesize parts h' fs pad = .ok sig' ∧ sig'.length = h'.tracks.length ∧ (h.tracks.zip sig).Perm (h'.tracks.zip sig') := by
  obtain ⟨ts, length, n, h1, h2, h3, h4⟩ := c82_content parts h fs pad sig hs
  rw [tracks_played] at h4
  have h5 : List.Forall₂ (fun t (x : (Perception × Channel) × List (Option ℝ)) => x.1 = t ∧ Played parts ts n fs pad (playedTrack t) x.2)
      h.tracks (h.tracks.zip sig) := by
    clear hs
    generalize h.tracks = l at h4
    induction h4 with
    | nil => exact .nil
    | cons hx _ ih => exact .cons ⟨rfl, hx⟩ ih
  obtain ⟨w, hw, hperm⟩ := List.perm_comp_forall₂ hp.symm h5
  have hfst : w.map Prod.fst = h'.tracks := by
    clear hperm hp
    generalize h'.tracks = l at hw
    induction hw with
    | nil => rfl
    | cons hx _ ih => rw [List.map_cons, hx.1, ih]
  have hz : h'.tracks.zip (w.map Prod.snd) = w := by
    rw [← hfst]
    exact (List.zip_of_prod rfl rfl).symm
  refine ⟨w.map Prod.snd, ?_, ?_, ?_⟩
  · refine play_of parts h' fs pad _ ts length n (ht.trans h1) (tracks_timeLength ht hp h2) h3 ?_ ?_
    · intro h0
      have hw0 : w = [] := List.map_eq_nil_iff.mp h0
      subst hw0
      have : h.tracks.zip sig = [] := List.Perm.eq_nil hperm.symm
      have hl := h4.length_eq
      have hsig : sig ≠ [] := by
        rintro rfl
        exact play_nonempty parts h fs pad hs
      rw [List.zip_eq_nil_iff] at this
      rcases this with e | e
      · rw [e] at hl
        exact hsig (List.length_eq_zero_iff.mp hl.symm)
      · exact hsig e
    · rw [tracks_played, List.forall₂_map_right_iff]
      exact hw.imp fun _ _ hx => hx.2
  · rw [List.length_map, ← hfst, List.length_map]
  · rw [hz]
    exact hperm.symm

/-- **C117.** With the channels in the same order the signals are in the same order: it does not matter whether channels are in one perception or in two with the same
description, nor what else is said of the experience. -/
theorem c117_regroup (parts : Parts) (h h' : Experience) (fs pad : Int) (ht : h'.timescale = h.timescale) (hp : h.tracks = h'.tracks)
    (sig : List (List (Option ℝ))) (hs : synthesize parts h fs pad = .ok sig) : synthesize parts h' fs pad = .ok sig := by
  obtain ⟨ts, length, n, h1, h2, h3, h4⟩ := c82_content parts h fs pad sig hs
  rw [tracks_played, hp, ← tracks_played] at h4
  exact play_of parts h' fs pad sig ts length n (ht.trans h1) (tracks_timeLength ht (hp ▸ .refl _) h2) h3
    (fun h0 => play_nonempty parts h fs pad (h0 ▸ hs)) h4

/-- Non-vacuity: the silent channel of `besideSilence` in a perception of its own, before the other. -/
example (parts : Parts) : ∃ h' : Experience, h'.perceptions.length = 2 ∧ h'.timescale = besideSilence.timescale ∧ besideSilence.tracks.Perm h'.tracks ∧
    besideSilence.tracks ≠ h'.tracks ∧ synthesize parts besideSilence 1000 0 = .ok [[some (1 / 2)], [some 0]] := by
  refine ⟨{ timescale := some 1000, perceptions := [{ channels := [{}] }, { channels := [{ bands := [resolved (instant 0) (instant 1)] }] }] }, rfl, rfl,
    .swap _ _ _, ?_, besideSilence_play parts⟩
  intro h
  have := congrArg (fun l => l.map (fun t : Perception × Channel => t.2.bands.length)) h
  simp [Experience.tracks, besideSilence] at this

/-- Non-vacuity: the channels of `besideSilence` in two perceptions. -/
example (parts : Parts) : ∃ h' : Experience, h'.perceptions.length = 2 ∧ h'.timescale = besideSilence.timescale ∧ besideSilence.tracks = h'.tracks ∧
    synthesize parts besideSilence 1000 0 = .ok [[some (1 / 2)], [some 0]] :=
  ⟨{ timescale := some 1000, perceptions := [{ channels := [{ bands := [resolved (instant 0) (instant 1)] }] }, { channels := [{}] }] }, rfl, rfl, rfl,
    besideSilence_play parts⟩

end Haptics
