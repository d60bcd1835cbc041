import Verif.Encoder.PropsEnvelope
import Verif.Encoder.PropsIvsTime
import Verif.Encoder.PropsInject
import Verif.Encoder.PropsIvs

/-! C75: a whole IVS file: one channel for each timeline, with all effects the timeline plays. -/

namespace Haptics.Ivs
open Haptics

/-! ### Effects keep their keyframes on the way through the tree of repeat events -/

section tree
variable (P : Effect → Prop) (hP : ∀ e p, P e → P { e with position := p })

mutual
/-- All effects in the tree. -/
def RepeatNode.All (P : Effect → Prop) : RepeatNode → Prop
  | .mk _ myEffects children => (∀ e ∈ myEffects, P e) ∧ AllNodes P children
def AllNodes (P : Effect → Prop) : List RepeatNode → Prop
  | [] => True
  | c :: cs => c.All P ∧ AllNodes P cs
end

theorem allNodes_append (l m : List RepeatNode) : AllNodes P (l ++ m) ↔ AllNodes P l ∧ AllNodes P m := by
  induction l with
  | nil => simp [AllNodes]
  | cons a l ih => simp [AllNodes, ih, and_assoc]

mutual
theorem addRepeat_all (r : Repeat) : ∀ t : RepeatNode, t.All P → (t.addRepeat r).All P
  | .mk value myEffects children, h => by
    have ih := addNested_all r children
    rw [RepeatNode.All] at h
    rw [RepeatNode.addRepeat]
    split
    · next node hn => exact ih h.2 node hn
    · rw [RepeatNode.All, allNodes_append]
      exact ⟨h.1, h.2, by simp [AllNodes, RepeatNode.All]⟩
theorem addNested_all (r : Repeat) : ∀ l : List RepeatNode, AllNodes P l → ∀ t, addNested r l = some t → t.All P
  | [], _, t, ht => by simp [addNested] at ht
  | [.mk value myEffects children], h, t, ht => by
    have ih := addRepeat_all r (.mk value myEffects children)
    rw [addNested] at ht
    split at ht
    · injection ht with ht
      rw [← ht]
      exact ih h.1
    · cases ht
  | _ :: c :: cs, h, t, ht => by
    rw [addNested] at ht
    exact addNested_all r (c :: cs) h.2 t ht
end

mutual
theorem pushEffect_all (e : Effect) (he : P e) : ∀ t : RepeatNode, t.All P → ∀ t', t.pushEffect e = some t' → t'.All P
  | .mk value myEffects children, h, t', ht => by
    have ih := pushToChildren_all e he children
    rw [RepeatNode.All] at h
    rw [RepeatNode.pushEffect] at ht
    split at ht
    · cases ht
    · split at ht
      · next cs hcs =>
        injection ht with ht
        subst ht
        rw [RepeatNode.All]
        exact ⟨h.1, ih h.2 cs hcs⟩
      · injection ht with ht
        subst ht
        rw [RepeatNode.All]
        refine ⟨fun x hx => ?_, h.2⟩
        rcases List.mem_cons.mp ((place_perm e myEffects).mem_iff.mp hx) with rfl | hx
        · exact he
        · exact h.1 x hx
theorem pushToChildren_all (e : Effect) (he : P e) :
    ∀ l : List RepeatNode, AllNodes P l → ∀ l', pushToChildren e l = some l' → AllNodes P l'
  | [], _, l', hl => by simp [pushToChildren] at hl
  | c :: cs, h, l', hl => by
    have ih := pushEffect_all e he c
    have ih' := pushToChildren_all e he cs
    rw [AllNodes] at h
    rw [pushToChildren] at hl
    split at hl
    · next c' hc =>
      injection hl with hl
      subst hl
      rw [AllNodes]
      exact ⟨ih h.1 c' hc, h.2⟩
    · obtain ⟨cs', h1, h2⟩ := Option.map_eq_some_iff.mp hl
      subst h2
      rw [AllNodes]
      exact ⟨h.1, ih' h.2 cs' h1⟩
end

include hP in
theorem later_all (l : List Effect) (d : Int) (h : ∀ e ∈ l, P e) : ∀ e ∈ l.map (later d), P e := by
  intro e he
  obtain ⟨x, hx, rfl⟩ := List.mem_map.mp he
  exact hP _ _ (h x hx)

include hP in
mutual
theorem linearize_all : ∀ (t : RepeatNode) (d : Int), t.All P → ∀ e ∈ (t.linearize d).1, P e
  | .mk value myEffects children, d, h, e, he => by
    have ih := merge_all children myEffects d ((value.map (·.duration)).getD 0)
    rw [RepeatNode.All] at h
    rw [RepeatNode.linearize] at he
    obtain ⟨i, -, hi⟩ := List.mem_flatMap.mp he
    exact later_all P hP _ _ (ih h.1 h.2) e hi
theorem merge_all : ∀ (l : List RepeatNode) (myEffects : List Effect) (d u : Int), (∀ e ∈ myEffects, P e) →
    AllNodes P l → ∀ e ∈ (merge myEffects d u l).1, P e
  | [], myEffects, d, u, h, _, e, he => by
    rw [merge] at he
    exact later_all P hP _ _ h e he
  | c :: cs, myEffects, d, u, h, hl, e, he => by
    have ih := linearize_all c d
    rw [AllNodes] at hl
    rw [merge] at he
    dsimp only at he
    rcases List.mem_append.mp he with he | he
    · rcases List.mem_append.mp he with he | he
      · refine later_all P hP _ _ (fun x hx => h x ?_) e he
        exact (List.takeWhile_sublist _).subset hx
      · exact ih hl.1 e he
    · exact merge_all cs _ _ _ (fun x hx => h x ((List.dropWhile_sublist _).subset hx)) hl.2 e he
end

include hP in
/-- What holds of all launched effects, wherever they are, holds of all effects that are played. -/
theorem expand_all (rs : List Repeat) (es : List Effect) (h : ∀ e ∈ es, P e) : ∀ e ∈ expandRepeats rs es, P e := by
  refine linearize_all P hP _ 0 ?_
  have h0 : (repeatTree rs).All P := by
    unfold repeatTree
    have : ∀ t : RepeatNode, t.All P → (rs.foldl (fun t r => t.addRepeat r) t).All P := by
      induction rs with
      | nil => exact fun t ht => ht
      | cons r rs ih => exact fun t ht => ih _ (addRepeat_all P r t ht)
    exact this _ (by simp [RepeatNode.All, AllNodes])
  generalize repeatTree rs = t at h0
  induction es generalizing t with
  | nil => exact h0
  | cons e es ih =>
    refine ih (fun x hx => h x (List.mem_cons_of_mem _ hx)) _ ?_
    unfold RepeatNode.push
    cases hp : t.pushEffect e with
    | none => exact h0
    | some t' => exact pushEffect_all P e (h e List.mem_cons_self) t h0 t' hp

end tree

/-! ### Launch events -/

/-- The basis effect lasts at least one tick and has no negative attack or fade (-1 means that there is none). -/
structure Regular (b : Basis) (l : Launch) (ts : Nat) : Prop where
  duration : ∀ d, toTicks (getDuration b l) ts = .ok d → 0 < d
  attack : ∀ a, b.attackTime = some a → -1 ≤ a
  fade : ∀ f, b.fadeTime = some f → -1 ≤ f

/-- The launch event names a basis effect of a known type. -/
def known (basis : List Basis) (l : Launch) : Bool :=
  match basis.find? (·.name == l.effect) with
  | none => false
  | some b => b.type == "periodic" || b.type == "magsweep"

theorem toTicks_zero (ts : Nat) : toTicks 0 ts = .ok 0 := by
  unfold toTicks
  simp only [Int.cast_zero, zero_mul, fl64_zero]
  rfl

theorem toTicks_nonneg (ms : Int) (ts : Nat) (r : Int) (h : 0 ≤ ms) (hr : toTicks ms ts = .ok r) : 0 ≤ r :=
  c72_monotone 0 ms ts 0 r h (toTicks_zero ts) hr

theorem convert_timed (b : Basis) (l : Launch) (ts : Nat) (e : Effect) (hr : Regular b l ts)
    (h : convertToEffect b l ts = .ok (some e)) : e.position = l.time.getD (-1) ∧ e.Timed := by
  obtain ⟨signal, freq, d, hd, -⟩ := convert_shape b l ts e h
  have hd0 := hr.duration d hd
  obtain ⟨h1, h2⟩ := c73_keyframes b l ts e d h hd hd0 (fun a hn ha => toTicks_nonneg _ _ _ (by
      cases hc : b.attackTime with
      | none => rw [hc] at hn; exact absurd rfl hn
      | some x => rw [hc] at hn; have := hr.attack x hc; simp at hn ⊢; omega) ha)
    (fun f hn hf => toTicks_nonneg _ _ _ (by
      cases hc : b.fadeTime with
      | none => rw [hc] at hn; exact absurd rfl hn
      | some x => rw [hc] at hn; have := hr.fade x hc; simp at hn ⊢; omega) hf)
  refine ⟨h1, d, ?_, hd0.le⟩
  obtain ⟨k, r, hk, hp⟩ := h2.last
  rw [hk]
  simp [hp]

theorem convert_known (b : Basis) (l : Launch) (ts : Nat) (r : Option Effect) (h : convertToEffect b l ts = .ok r) :
    r.isSome = (b.type == "periodic" || b.type == "magsweep") := by
  unfold convertToEffect at h
  dsimp only at h
  by_cases h1 : b.type = "periodic"
  · rw [if_pos h1] at h
    cases hf : frequency (getPeriod b l) with
    | error x => rw [hf] at h; cases h
    | ok f =>
      rw [hf] at h
      change (Except.bind (toTicks (getDuration b l) ts) _) = _ at h
      cases ht : toTicks (getDuration b l) ts with
      | error x => rw [ht] at h; cases h
      | ok d =>
        rw [ht] at h
        change (Except.bind (envelope b ts (amplitudeOf (getMagnitude b l)) d (plain b l (getWaveform b) f d)) _) = _ at h
        cases hv : envelope b ts (amplitudeOf (getMagnitude b l)) d (plain b l (getWaveform b) f d) with
        | error x => rw [hv] at h; cases h
        | ok e =>
          rw [hv] at h
          injection h with h
          subst h
          simp [h1]
  · rw [if_neg h1] at h
    by_cases h2 : b.type = "magsweep"
    · rw [if_pos h2] at h
      change (Except.bind (toTicks (getDuration b l) ts) _) = _ at h
      cases ht : toTicks (getDuration b l) ts with
      | error x => rw [ht] at h; cases h
      | ok d =>
        rw [ht] at h
        change (Except.bind (envelope b ts (amplitudeOf (getMagnitude b l)) d (plain b l 0 170 d)) _) = _ at h
        cases hv : envelope b ts (amplitudeOf (getMagnitude b l)) d (plain b l 0 170 d) with
        | error x => rw [hv] at h; cases h
        | ok e =>
          rw [hv] at h
          injection h with h
          subst h
          simp [h2]
    · rw [if_neg h2] at h
      injection h with h
      subst h
      simp [h1, h2]

/-- Each launch event that names a basis effect of a known type gives an effect at its time, in order. -/
theorem launched_spec (basis : List Basis) (ts : Nat) (ls : List Launch) (es : List Effect)
    (hr : ∀ l ∈ ls, ∀ b ∈ basis, b.name = l.effect → Regular b l ts) (h : launched basis ts ls = .ok es) :
    es.map (·.position) = (ls.filter (known basis)).map (fun l => l.time.getD (-1)) ∧ ∀ e ∈ es, e.Timed := by
  induction ls generalizing es with
  | nil => injection h with h; subst h; simp
  | cons l ls ih =>
    have ih := ih (hr := fun l hl => hr l (List.mem_cons_of_mem _ hl))
    rw [launched] at h
    cases hb : getLaunchedEffect basis l with
    | none =>
      rw [hb] at h
      have hk : known basis l = false := by unfold known; unfold getLaunchedEffect at hb; rw [hb]
      rw [List.filter_cons_of_neg (by simp [hk])]
      exact ih es h
    | some b =>
      rw [hb] at h
      have hk : known basis l = (b.type == "periodic" || b.type == "magsweep") := by
        unfold known; unfold getLaunchedEffect at hb; rw [hb]
      have hreg : Regular b l ts := hr l List.mem_cons_self b (List.mem_of_find?_eq_some hb)
        (by simpa using List.find?_some hb)
      cases hc : convertToEffect b l ts with
      | error x => simp only [hc] at h; cases h
      | ok r =>
        simp only [hc] at h
        have hs := convert_known b l ts r hc
        cases r with
        | none =>
          rw [List.filter_cons_of_neg (by rw [hk, ← hs]; simp)]
          exact ih es h
        | some e =>
          rw [List.filter_cons_of_pos (by rw [hk, ← hs]; rfl)]
          cases hl : launched basis ts ls with
          | error x => rw [hl] at h; cases h
          | ok es' =>
            rw [hl] at h
            injection h with h
            subst h
            obtain ⟨h1, h2⟩ := convert_timed b l ts e hreg hc
            obtain ⟨i1, i2⟩ := ih es' hl
            refine ⟨by rw [List.map_cons, List.map_cons, h1, i1], fun x hx => ?_⟩
            rcases List.mem_cons.mp hx with rfl | hx
            · exact h2
            · exact i2 x hx

/-- The same effect, at its time in ticks. -/
def InTicks (ts : Nat) (e e' : Effect) : Prop := ∃ p, toTicks e.position ts = .ok p ∧ e' = { e with position := p }

theorem ticks_spec (ts : Nat) (es es' : List Effect) (h : ticks ts es = .ok es') :
    List.Forall₂ (InTicks ts) es es' := by
  induction es generalizing es' with
  | nil => injection h with h; subst h; exact .nil
  | cons e es ih =>
    rw [ticks] at h
    cases hp : toTicks e.position ts with
    | error x => rw [hp] at h; cases h
    | ok p =>
      rw [hp] at h
      cases hl : ticks ts es with
      | error x => rw [hl] at h; cases h
      | ok l =>
        rw [hl] at h
        injection h with h
        subst h
        exact .cons ⟨p, hp, rfl⟩ (ih l hl)

theorem timed_position (e : Effect) (p : Int) (h : e.Timed) : ({ e with position := p } : Effect).Timed := h

/-- **C75.** The effects of a timeline, once its repeat events are expanded and times are in ticks, are added to its
channel: all of them and nothing else, one at a time in each band. -/
theorem c75_timeline (sort : List Repeat → List Repeat) (basis : List Basis) (ts : Nat) (t : Timeline) (c d : Channel)
    (hr : ∀ l ∈ t.launchEvents, ∀ b ∈ basis, b.name = l.effect → Regular b l ts)
    (hc : ∀ b ∈ c.bands, b.bandType = BandType.VectorialWave → b.Sequential ∧ ∀ e ∈ b.effects, e.Timed)
    (h : encodeTimeline sort basis ts t c = .ok d) :
    ∃ es played, es.map (·.position) = (t.launchEvents.filter (known basis)).map (fun l => l.time.getD (-1)) ∧
      launched basis ts t.launchEvents = .ok es ∧
      List.Forall₂ (InTicks ts) (expandRepeats (sort t.repeatEvents) es) played ∧
      Extends 0 1000 c d ∧ d.effects.Perm (c.effects ++ played) ∧
      ∀ b ∈ d.bands, b.bandType = BandType.VectorialWave → b.Sequential := by
  unfold encodeTimeline at h
  cases hl : launched basis ts t.launchEvents with
  | error x => rw [hl] at h; cases h
  | ok es =>
    rw [hl] at h
    change Except.bind (ticks ts (expandRepeats (sort t.repeatEvents) es)) _ = _ at h
    cases ht : ticks ts (expandRepeats (sort t.repeatEvents) es) with
    | error x => rw [ht] at h; cases h
    | ok played =>
      rw [ht] at h
      change c.injectAll 0 1000 played = .ok d at h
      obtain ⟨h1, h2⟩ := launched_spec basis ts _ es hr hl
      have h3 := expand_all Effect.Timed timed_position (sort t.repeatEvents) es h2
      have h4 := ticks_spec ts _ _ ht
      have h5 : ∀ e ∈ played, e.Timed := by
        intro e he
        obtain ⟨i, hi⟩ := List.getElem?_of_mem he
        have hlen := h4.length_eq
        have hi' := (List.getElem?_eq_some_iff.mp hi).1
        obtain ⟨p, -, hp⟩ := (List.forall₂_iff_get.mp h4).2 i (by omega) hi'
        rw [List.getElem?_eq_getElem hi'] at hi
        injection hi with hi
        rw [← hi]
        change played.get ⟨i, hi'⟩ = _ at hp
        rw [List.get_eq_getElem] at hp
        rw [hp]
        exact timed_position _ _ (h3 _ (List.get_mem _ _))
      obtain ⟨d', k1, k2, k3, k4⟩ := c74_distributed 0 1000 c played hc h5
      rw [h] at k1
      injection k1 with k1
      subst k1
      exact ⟨es, played, h1, rfl, h4, k2, k3, k4⟩

/-- **C75.** Without repeat events, these are the launched effects. -/
theorem c75_no_repeats (es : List Effect) : (expandRepeats [] es).Perm es := by
  unfold expandRepeats
  have h0 : repeatTree [] = .mk none [] ([].map (leaf · [])) := rfl
  rw [h0, pushAll none [] ⟨by simp, List.Pairwise.nil⟩ es (by simp)]
  have hid : (placeAll (es.filter (fun e => !covered [] e.position))) = placeAll es := by
    congr 1
    rw [List.filter_eq_self]
    intro e _
    simp [covered]
  rw [hid]
  have hl : ∀ l : List Effect, (RepeatNode.linearize 0 (.mk none l [])).1 = l := by
    intro l
    have : ∀ e : Effect, later 0 e = e := fun e => by cases e; simp [later]
    have h2 : later 0 = id := funext this
    simp [RepeatNode.linearize, merge, h2]
  rw [List.map_nil, hl]
  exact placeAll_perm es

/-- **C75.** The k-th timeline goes to the k-th channel, which is made for it if the perception has none; channels
without timeline and the rest of the perception stay as they are. -/
theorem c75_channels (sort : List Repeat → List Repeat) (f : File) (ts : Nat) (p q : Perception)
    (h : encode sort f ts p = .ok q) :
    { q with channels := [] } = { p with channels := [] } ∧
    q.channels.length = max p.channels.length f.timelines.length ∧
    (∀ (i : Nat) (t : Timeline), f.timelines[i]? = some t → ∃ d : Channel, q.channels[i]? = some d ∧
      encodeTimeline sort f.basisEffects ts t (p.channels[i]?.getD
        { id := 0, description := t.name ++ [32, 45, 32] ++ f.lastModified }) = .ok d) ∧
    ∀ i : Nat, f.timelines.length ≤ i → q.channels[i]? = p.channels[i]? := by
  unfold encode at h
  cases hc : encodeTimelines sort f ts f.timelines p.channels with
  | error x => rw [hc] at h; cases h
  | ok cs =>
    rw [hc] at h
    injection h with h
    subst h
    refine ⟨rfl, ?_⟩
    dsimp only
    generalize f.timelines = tl at hc
    generalize p.channels = pc at hc
    induction tl generalizing pc cs with
    | nil =>
      injection hc with hc
      subst hc
      simp
    | cons t tl ih =>
      cases pc with
      | nil =>
        rw [encodeTimelines] at hc
        cases h1 : encodeTimeline sort f.basisEffects ts t (newChannel f t) with
        | error x => rw [h1] at hc; cases hc
        | ok c =>
          rw [h1] at hc
          cases h2 : encodeTimelines sort f ts tl [] with
          | error x => rw [h2] at hc; cases hc
          | ok cs' =>
            rw [h2] at hc
            injection hc with hc
            subst hc
            obtain ⟨i1, i2, i3⟩ := ih cs' [] h2
            refine ⟨by simpa using i1, fun i t' hi => ?_, fun i hi => ?_⟩
            · cases i with
              | zero =>
                simp at hi
                subst hi
                exact ⟨c, rfl, h1⟩
              | succ i => simpa using i2 i t' (by simpa using hi)
            · cases i with
              | zero => simp at hi
              | succ i => simpa using i3 i (by simpa using hi)
      | cons c pc =>
        rw [encodeTimelines] at hc
        cases h1 : encodeTimeline sort f.basisEffects ts t c with
        | error x => rw [h1] at hc; cases hc
        | ok c' =>
          rw [h1] at hc
          cases h2 : encodeTimelines sort f ts tl pc with
          | error x => rw [h2] at hc; cases hc
          | ok cs' =>
            rw [h2] at hc
            injection hc with hc
            subst hc
            obtain ⟨i1, i2, i3⟩ := ih cs' pc h2
            refine ⟨by simp only [List.length_cons]; omega, fun i t' hi => ?_, fun i hi => ?_⟩
            · cases i with
              | zero =>
                simp at hi
                subst hi
                exact ⟨c', rfl, h1⟩
              | succ i => simpa using i2 i t' (by simpa using hi)
            · cases i with
              | zero => simp at hi
              | succ i => simpa using i3 i (by simpa using hi)

/-- A file with two timelines: the first plays the rumble at 0, 150 and 300 ms and names an effect that does not
exist. -/
def twoTimelines : File :=
  { lastModified := [50], basisEffects := [{ rumble with name := [82] }]
    timelines := [{ name := [65], launchEvents := [{ effect := [82], time := some 0 }, { effect := [88] },
      { effect := [82], time := some 150 }, { effect := [82], time := some 300 }] },
      { name := [66], launchEvents := [{ effect := [82], time := some 20 }] }] }

def summary (r : Except Err Perception) : Option (List (Int × List (List (Int × Int)))) :=
  r.toOption.map (fun p => p.channels.map (fun c => (c.id, c.bands.map (fun b => b.effects.map
    (fun e => (e.position, e.length))))))

example : summary (encode id twoTimelines 1000 {}) = some
    [(0, [[(0, 200), (300, 200)], [(150, 200)]]), (0, [[(20, 200)]])] := by decide +kernel

example : ∀ t ∈ twoTimelines.timelines, ∀ l ∈ t.launchEvents, ∀ b ∈ twoTimelines.basisEffects, b.name = l.effect →
    Regular b l 1000 := by
  have key : ∀ t ∈ twoTimelines.timelines, ∀ l ∈ t.launchEvents, ∀ b ∈ twoTimelines.basisEffects,
      toTicks (getDuration b l) 1000 = .ok 200 ∧ b.attackTime = some 50 ∧ b.fadeTime = some 100 := by decide +kernel
  intro t ht l hl b hb _
  obtain ⟨h1, h2, h3⟩ := key t ht l hl b hb
  refine ⟨fun d hd => ?_, fun a ha => ?_, fun f hf => ?_⟩
  · rw [h1] at hd; injection hd with hd; omega
  · rw [h2] at ha; injection ha with ha; omega
  · rw [h3] at hf; injection hf with hf; omega

/-- **C75, what does not hold.** The channels of different timelines have different identifiers: all are 0. -/
theorem c75_ids_negation : ∃ (f : File) (q : Perception), encode id f 1000 {} = .ok q ∧
    ¬ (q.channels.map (·.id)).Nodup := by
  refine ⟨twoTimelines, ?_⟩
  generalize h : encode id twoTimelines 1000 {} = r
  have : r.toOption.map (fun q => q.channels.map (·.id)) = some [0, 0] := by rw [← h]; decide +kernel
  match r, this with
  | .ok q, this =>
    refine ⟨q, rfl, ?_⟩
    have : q.channels.map (·.id) = [0, 0] := Option.some.inj this
    rw [this]
    simp

end Haptics.Ivs
