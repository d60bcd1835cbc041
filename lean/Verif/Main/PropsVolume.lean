import Verif.Main.SpecVolume
import Verif.Main.PropsShared

/-! **C114** The volume of a channel, and what is not heard. -/

namespace Haptics
open SynthMain

theorem volumes_eq (h : Experience) : h.volumes = factors h.perceptions := by
  unfold Experience.volumes factors channelsOf
  rw [List.map_flatMap]
  congr 1
  funext p
  rw [List.map_map]
  rfl

theorem mapE_map {α α' β : Type} (f : α' → Except Err β) (g : α → α') (l : List α) : mapE f (l.map g) = mapE (fun a => f (g a)) l := by
  induction l with
  | nil => rfl
  | cons a l ih => rw [List.map_cons, mapE, mapE, ih]

theorem mapE_mapOk {α β γ : Type} (f : α → Except Err β) (k : β → γ) (l : List α) :
    mapE (fun a => (f a).map k) l = (mapE f l).map (List.map k) := by
  induction l with
  | nil => rfl
  | cons a l ih =>
    rw [mapE, mapE, ih]
    cases f a with
    | error e => rfl
    | ok b => cases mapE f l <;> rfl

theorem bare_linearize (h : Experience) : h.soundOnly.linearize = h.linearize.soundOnly := by
  unfold Experience.soundOnly Experience.linearize
  simp only [List.map_map]
  congr 1
  refine List.map_congr_left fun p _ => ?_
  simp only [Function.comp_apply, Perception.soundOnly, Perception.linearizeLibrary, List.map_map]
  congr 1

theorem bare_timeLength (h : Experience) : h.soundOnly.timeLength = h.timeLength := by
  unfold Experience.timeLength
  have e : (h.soundOnly.perceptions.flatMap Perception.channels) = (h.perceptions.flatMap Perception.channels).map Channel.soundOnly := by
    show (h.perceptions.map Perception.soundOnly).flatMap Perception.channels = _
    rw [List.flatMap_map, List.map_flatMap]
    rfl
  rw [e]
  show (match h.timescale with | none => _ | some timescale => _) = _
  cases h.timescale with
  | none => rfl
  | some ts =>
    simp only
    rw [mapE_map]
    rfl

theorem bare_decode (parts : Parts) (ts : Nat) (p : Perception) :
    decodePerception parts ts p.soundOnly = (decodePerception parts ts p).map Perception.soundOnly := by
  have hc : ∀ c : Channel, decodeChannel parts ts c.soundOnly = (decodeChannel parts ts c).map Channel.soundOnly := by
    intro c
    unfold decodeChannel
    show (mapE (decodeBand parts ts) c.bands).bind _ = _
    cases hb : mapE (decodeBand parts ts) c.bands <;> rfl
  unfold decodePerception
  have : mapE (decodeChannel parts ts) p.soundOnly.channels = (mapE (decodeChannel parts ts) p.channels).map (List.map Channel.soundOnly) := by
    show mapE (decodeChannel parts ts) (p.channels.map Channel.soundOnly) = _
    rw [mapE_map, ← mapE_mapOk]
    congr 1
    funext c
    exact hc c
  rw [this]
  cases mapE (decodeChannel parts ts) p.channels <;> rfl

theorem bare_channels (ps : List Perception) :
    channelsOf (ps.map Perception.soundOnly) = (channelsOf ps).map (fun pc => (pc.1.soundOnly, pc.2.soundOnly)) := by
  unfold channelsOf
  rw [List.flatMap_map, List.map_flatMap]
  congr 1
  funext p
  show (p.channels.map Channel.soundOnly).map _ = _
  rw [List.map_map, List.map_map]
  rfl

theorem louder_one (s : List (Option ℝ)) : louder 1 s = s := by
  unfold louder
  conv_rhs => rw [← List.map_id s]
  refine List.map_congr_left fun x _ => ?_
  cases x <;> simp

theorem bare_play (parts : Parts) (length : ℚ) (fs pad : Int) (ts : Nat) (pc : Perception × Channel) :
    playChannel parts length fs pad ts pc = (playChannel parts length fs pad ts (pc.1.soundOnly, pc.2.soundOnly)).map (louder (factor pc.1 pc.2)) := by
  have h1 : factor pc.1.soundOnly pc.2.soundOnly = 1 := by
    unfold factor
    show ((1 : ℚ) : ℝ) * (10 : ℝ) ^ ((none : Option Int).getD 0) = 1
    simp
  have h2 : pc.2.soundOnly.evaluateChannel = pc.2.evaluateChannel := rfl
  have h3 : (fun r : List (Option ℝ) => r.map (Option.map (fun x => x * (1 : ℝ)))) = fun r => r := funext fun r => louder_one r
  unfold playChannel
  cases sampleCount length fs pad ts with
  | error e => rfl
  | ok n =>
    show (Channel.evaluateChannel _ _ pc.2 n fs pad ts).bind _ = Except.map _ ((Channel.evaluateChannel _ _ pc.2.soundOnly n fs pad ts).bind _)
    have h4 : Channel.evaluateChannel parts.samples parts.other pc.2.soundOnly n fs pad ts =
      Channel.evaluateChannel parts.samples parts.other pc.2 n fs pad ts := rfl
    rw [h4]
    cases Channel.evaluateChannel parts.samples parts.other pc.2 n fs pad ts with
    | error e => rfl
    | ok r =>
      show Except.ok _ = Except.ok _
      congr 1
      simp only [h1]
      exact congrArg (louder _) (congrFun h3 r).symm

theorem play_louder (parts : Parts) (length : ℚ) (fs pad : Int) (ts : Nat) (l : List (Perception × Channel)) :
    mapE (playChannel parts length fs pad ts) l =
      (mapE (playChannel parts length fs pad ts) (l.map (fun pc => (pc.1.soundOnly, pc.2.soundOnly)))).map
        (fun sig => List.zipWith louder (l.map (fun pc => factor pc.1 pc.2)) sig) := by
  induction l with
  | nil => rfl
  | cons pc l ih =>
    simp only [List.map_cons, mapE]
    rw [bare_play, ih]
    cases playChannel parts length fs pad ts (pc.1.soundOnly, pc.2.soundOnly) with
    | error e => rfl
    | ok s => cases mapE (playChannel parts length fs pad ts) (l.map (fun pc => (pc.1.soundOnly, pc.2.soundOnly))) <;> rfl

/-- **C114.** Every experience is played like its effects alone, each channel as loud as its gain and the units of its perception say. -/
theorem c114_volume (parts : Parts) (h : Experience) (fs pad : Int) :
    synthesize parts h fs pad = (synthesize parts h.soundOnly fs pad).map (fun sig => List.zipWith louder h.volumes sig) := by
  rw [volumes_eq, ← linearize_keeps]
  unfold synthesize
  rw [bare_linearize, bare_timeLength]
  generalize h.linearize = g
  cases g.timeLength with
  | error e => rfl
  | ok length =>
    show playFile parts g length fs pad = (playFile parts g.soundOnly length fs pad).map _
    unfold playFile
    have hd : mapE (decodePerception parts (g.soundOnly.timescale.getD 1000)) g.soundOnly.perceptions =
        (mapE (decodePerception parts (g.timescale.getD 1000)) g.perceptions).map (List.map Perception.soundOnly) := by
      show mapE (decodePerception parts (g.timescale.getD 1000)) (g.perceptions.map Perception.soundOnly) = _
      rw [mapE_map, ← mapE_mapOk]
      congr 1
      funext p
      exact bare_decode _ _ p
    rw [hd]
    cases hps : mapE (decodePerception parts (g.timescale.getD 1000)) g.perceptions with
    | error e => rfl
    | ok ps =>
      have hk := decode_keeps _ _ _ _ hps
      show (match g.timescale with | none => _ | some timescale => _) = Except.map _ (match g.timescale with | none => _ | some timescale => _)
      cases g.timescale with
      | none => rfl
      | some ts =>
        simp only
        rw [play_louder, ← bare_channels]
        have hf : (channelsOf ps).map (fun pc => factor pc.1 pc.2) = factors g.perceptions := by rw [← hk]; rfl
        rw [hf]
        cases ha : mapE (playChannel parts length fs pad ts) (channelsOf (ps.map Perception.soundOnly)) with
        | error e => rfl
        | ok sig =>
          have hl := mapE_length _ _ _ ha
          have hl2 : (factors g.perceptions).length = sig.length := by
            rw [hl, bare_channels, ← hf, List.length_map, List.length_map]
          show (if (List.zipWith louder (factors g.perceptions) sig).isEmpty then _ else _) = Except.map _ (if sig.isEmpty then _ else _)
          cases sig with
          | nil => simp [Except.map]
          | cons s sig =>
            cases hff : factors g.perceptions with
            | nil => rw [hff] at hl2; cases hl2
            | cons k ks => rfl

/-- **C114.** Whatever else is said about an experience, its perceptions and channels is not heard. -/
theorem c114_metadata (parts : Parts) (h h' : Experience) (fs pad : Int) (hs : h.soundOnly = h'.soundOnly) (hv : h.volumes = h'.volumes) :
    synthesize parts h fs pad = synthesize parts h' fs pad := by
  rw [c114_volume, c114_volume parts h', hs, hv]

/-- **C114.** If of two experiences that differ only in gains, units and descriptions one can be played, so can the other; a channel with `k` times the
volume has `k` times the samples, and one of the same volume the same ones. -/
theorem c114_louder (parts : Parts) (h h' : Experience) (fs pad : Int) (hs : h.soundOnly = h'.soundOnly) (sig : List (List (Option ℝ)))
    (hp : synthesize parts h fs pad = .ok sig) :
    ∃ sig', synthesize parts h' fs pad = .ok sig' ∧ sig'.length = sig.length ∧
      ∀ (i : Nat) (v k : ℝ) (s : List (Option ℝ)), h.volumes[i]? = some v → h'.volumes[i]? = some (v * k) → sig[i]? = some s →
        ∃ s', sig'[i]? = some s' ∧ s'.length = s.length ∧ ∀ j : Nat, s'[j]? = (s[j]?).map (Option.map (fun x => x * k)) := by
  have hlv : h.volumes.length = h'.volumes.length := by
    have := congrArg (fun g : Experience => (g.perceptions.map (fun p => p.channels.length)).sum) hs
    simp only [Experience.soundOnly, List.map_map] at this
    unfold Experience.volumes
    rw [List.length_flatMap, List.length_flatMap]
    simpa [Perception.soundOnly, Function.comp_def] using this
  rw [c114_volume] at hp
  rw [c114_volume, ← hs]
  cases hb : synthesize parts h.soundOnly fs pad with
  | error e => rw [hb] at hp; cases hp
  | ok base =>
    rw [hb] at hp
    have := Except.ok.inj hp
    subst this
    refine ⟨_, rfl, by rw [List.length_zipWith, List.length_zipWith, hlv], ?_⟩
    intro i v k s hv hv' hi
    rw [List.getElem?_zipWith, hv] at hi
    rw [List.getElem?_zipWith, hv']
    cases hbi : base[i]? with
    | none => rw [hbi] at hi; cases hi
    | some b =>
      rw [hbi] at hi
      have := Option.some.inj hi
      subst this
      refine ⟨_, rfl, by simp [louder], fun j => ?_⟩
      unfold louder
      rw [List.getElem?_map, List.getElem?_map]
      cases b[j]? with
      | none => rfl
      | some x =>
        cases x with
        | none => rfl
        | some y =>
          show some (some (y * (v * k))) = some (some (y * v * k))
          rw [mul_assoc]

/-- **C114.** A channel with gain 0 is silent. -/
theorem c114_silent (parts : Parts) (h : Experience) (fs pad : Int) (sig : List (List (Option ℝ))) (hp : synthesize parts h fs pad = .ok sig)
    (i : Nat) (hi : h.volumes[i]? = some 0) (s : List (Option ℝ)) (hs : sig[i]? = some s) : ∀ x ∈ s, x = some 0 ∨ x = none := by
  rw [c114_volume] at hp
  cases hb : synthesize parts h.soundOnly fs pad with
  | error e => rw [hb] at hp; cases hp
  | ok base =>
    rw [hb] at hp
    have := Except.ok.inj hp
    subst this
    rw [List.getElem?_zipWith, hi] at hs
    cases hbi : base[i]? with
    | none => rw [hbi] at hs; cases hs
    | some b =>
      rw [hbi] at hs
      have := Option.some.inj hs
      subst this
      intro x hx
      obtain ⟨y, -, rfl⟩ := List.mem_map.mp hx
      cases y with
      | none => exact .inr rfl
      | some y => left; simp

/-- The example with other descriptions, another mixing coefficient, gain and units. -/
def twoInstantsLouder : Experience :=
  { twoInstants [] with
    description := [65]
    perceptions := (twoInstants []).perceptions.map (fun p =>
      { p with perceptionUnitExponent := some (-1), channels := p.channels.map (fun c => { c with gain := 3, mixingWeight := 0 }) }) }

/-- Non-vacuity: two experiences that sound the same, one three tenths as loud as the other. -/
example (parts : Parts) : (twoInstants []).soundOnly = twoInstantsLouder.soundOnly ∧ (twoInstants []).description ≠ twoInstantsLouder.description ∧
    (twoInstants []).volumes = [1] ∧ twoInstantsLouder.volumes = [1 * (3 / 10)] ∧
    synthesize parts (twoInstants []) 1000 0 = .ok [[some (1 / 2)]] ∧ synthesize parts twoInstantsLouder 1000 0 = .ok [[some (3 / 20)]] := by
  have hs : (twoInstants []).soundOnly = twoInstantsLouder.soundOnly := rfl
  have h1 : (twoInstants []).volumes = [1] := by simp [Experience.volumes, twoInstants]
  have h2 : twoInstantsLouder.volumes = [1 * (3 / 10)] := by
    simp [Experience.volumes, twoInstants, twoInstantsLouder]
    norm_num
  refine ⟨hs, by decide, h1, h2, twoInstants_play parts [], ?_⟩
  have h3 := twoInstants_play parts []
  rw [c114_volume, h1] at h3
  rw [c114_volume, h2, ← hs]
  cases hb : synthesize parts (twoInstants []).soundOnly 1000 0 with
  | error e => rw [hb] at h3; cases h3
  | ok base =>
    rw [hb] at h3
    have h4 := Except.ok.inj h3
    show Except.ok _ = _
    congr 1
    cases base with
    | nil => cases h4
    | cons b l =>
      simp only [List.zipWith_cons_cons, List.zipWith_nil_left, louder_one, List.cons.injEq, and_true] at h4 ⊢
      rw [h4]
      simp [louder]
      norm_num

end Haptics
