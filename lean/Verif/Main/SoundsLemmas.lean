import Verif.Main.SpecSounds
import Verif.Main.PropsSynth
import Verif.Eval.NearChannel

/-! Synthesizing experiences that are nearly the same. -/

namespace Haptics.SynthMain
open Haptics

variable {δ η γ : ℚ}

theorem mapE_congr₂ {α α' β : Type} {P : α → α' → Prop} {f : α → Except Err β} {f' : α' → Except Err β} {l : List α} {l' : List α'}
    (hl : List.Forall₂ P l l') (h : ∀ a a', P a a' → f' a' = f a) : mapE f' l' = mapE f l := by
  induction hl with
  | nil => rfl
  | cons hp _ ih => unfold mapE; rw [h _ _ hp, ih]

theorem bandLength_eq {b b' : Band} (h : b.NearTo δ η b') (ts : Nat) : b'.timeLength ts = b.timeLength ts := by
  unfold Band.timeLength
  have hl := near_getLast? h.effects
  revert hl
  cases b.effects.getLast? with
  | none => cases b'.effects.getLast? with
    | none => intro _; rfl
    | some _ => intro h; cases h
  | some e => cases b'.effects.getLast? with
    | none => intro h; cases h
    | some e' =>
      intro he
      have he := Option.rel_some_some.mp he
      simp only
      rw [h.bandType, timeLength_eq he, he.position]

theorem blocks_length {e : Effect} (d : ℚ) : e.timeLength BandType.WaveletWave d = .ok 0 := by
  unfold Effect.timeLength
  split
  · rfl
  · rw [if_neg (by decide)]

theorem blocksLength_eq {b b' : Band} (h : b.SameBlocks b') (ts : Nat) : b'.timeLength ts = b.timeLength ts := by
  unfold Band.timeLength
  have hl := near_getLast? h.blocks
  revert hl
  cases b.effects.getLast? with
  | none => cases b'.effects.getLast? with
    | none => intro _; rfl
    | some _ => intro h; cases h
  | some e => cases b'.effects.getLast? with
    | none => intro h; cases h
    | some e' =>
      intro he
      have he := Option.rel_some_some.mp he
      simp only
      rw [h.wavelet.1, h.wavelet.2, blocks_length, blocks_length, he.1]

theorem matchingLength_eq {b b' : Band} (h : b.Matches δ η b') (ts : Nat) : b'.timeLength ts = b.timeLength ts := by
  rcases h with h | h
  · exact bandLength_eq h ts
  · exact blocksLength_eq h ts

theorem lengths_eq {c c' : Channel} (h : c.NearTo δ η γ c') (ts : Nat) : c'.lengths ts = c.lengths ts := by
  unfold Channel.lengths
  have hm : mapE (fun b : Band => b.timeLength ts) c'.bands = mapE (fun b => b.timeLength ts) c.bands :=
    mapE_congr₂ h.bands fun b b' hb => matchingLength_eq hb ts
  rw [h.sampling]
  cases hf : c.frequencySampling with
  | none => simp only; exact hm
  | some f =>
    rw [h.count (by rw [hf]; rfl)]
    cases c.sampleCount with
    | none => simp only; exact hm
    | some n => rfl

theorem experienceLength_eq {h h' : Experience} (ht : h'.timescale = h.timescale)
    (hp : List.Forall₂ (Perception.NearTo δ η γ) h.perceptions h'.perceptions) : h'.timeLength = h.timeLength := by
  unfold Experience.timeLength
  rw [ht]
  cases h.timescale with
  | none => rfl
  | some ts =>
    simp only
    have hc : List.Forall₂ (Channel.NearTo δ η γ) (h.perceptions.flatMap Perception.channels) (h'.perceptions.flatMap Perception.channels) := by
      revert hp
      generalize h.perceptions = ps
      generalize h'.perceptions = ps'
      intro hp
      induction hp with
      | nil => exact .nil
      | cons hq _ ih => rw [List.flatMap_cons, List.flatMap_cons]; exact List.rel_append hq.channels ih
    rw [mapE_congr₂ hc fun c c' hcc => lengths_eq hcc ts]

theorem mapE_id {α : Type} {f : α → Except Err α} {l : List α} (h : ∀ a ∈ l, f a = .ok a) : mapE f l = .ok l := by
  induction l with
  | nil => rfl
  | cons a l ih =>
    unfold mapE
    rw [h a List.mem_cons_self, ih fun b hb => h b (List.mem_cons_of_mem _ hb)]

/-- Without wavelets there is nothing to decode. -/
theorem decode_id (parts : Parts) (ts : Nat) (ps : List Perception)
    (h : ∀ p ∈ ps, ∀ c ∈ p.channels, ∀ b ∈ c.bands, b.bandType ≠ BandType.WaveletWave) :
    mapE (decodePerception parts ts) ps = .ok ps := by
  refine mapE_id fun p hp => ?_
  unfold decodePerception
  rw [mapE_id (l := p.channels) fun c hc => ?_]
  · rfl
  · unfold decodeChannel
    rw [mapE_id (l := c.bands) fun b hb => ?_]
    · rfl
    · unfold decodeBand
      rw [if_neg (h p hp c hc b hb)]

/-! ### Three lists side by side -/

/-- Three lists of the same length whose elements are related. -/
inductive Three {α β β' : Type} (R : α → β → β' → Prop) : List α → List β → List β' → Prop
  | nil : Three R [] [] []
  | cons {a b b' l m m'} : R a b b' → Three R l m m' → Three R (a :: l) (b :: m) (b' :: m')

theorem Three.append {α β β' : Type} {R : α → β → β' → Prop} {l k : List α} {m n : List β} {m' n' : List β'} (h : Three R l m m')
    (h' : Three R k n n') : Three R (l ++ k) (m ++ n) (m' ++ n') := by
  induction h with
  | nil => exact h'
  | cons hr _ ih => exact .cons hr ih

theorem Three.map {α β β' γ δ δ' : Type} {R : α → β → β' → Prop} {S : γ → δ → δ' → Prop} {f : α → γ} {g : β → δ} {g' : β' → δ'}
    {l : List α} {m : List β} {m' : List β'} (h : Three R l m m') (hf : ∀ a b b', R a b b' → S (f a) (g b) (g' b')) :
    Three S (l.map f) (m.map g) (m'.map g') := by
  induction h with
  | nil => exact .nil
  | cons hr _ ih => exact .cons (hf _ _ _ hr) ih

theorem Three.get {α β β' : Type} {R : α → β → β' → Prop} {l : List α} {m : List β} {m' : List β'} (h : Three R l m m') :
    m.length = l.length ∧ m'.length = m.length ∧ ∀ (i : ℕ) (a : α) (b : β) (b' : β'), l[i]? = some a → m[i]? = some b →
      m'[i]? = some b' → R a b b' := by
  induction h with
  | nil => exact ⟨rfl, rfl, fun i a b b' ha => by simp at ha⟩
  | cons hr _ ih =>
    obtain ⟨h1, h2, h3⟩ := ih
    refine ⟨by simp [h1], by simp [h2], fun i x y y' hx hy hy' => ?_⟩
    cases i with
    | zero =>
      obtain rfl := Option.some.inj hx
      obtain rfl := Option.some.inj hy
      obtain rfl := Option.some.inj hy'
      exact hr
    | succ i => exact h3 i x y y' (by simpa using hx) (by simpa using hy) (by simpa using hy')

theorem alike_step {α α' β β' : Type} {S : β → β' → Prop} {T : List β → List β' → Prop} {U : List β → List β' → Prop}
    {f : α → Except Err β} {f' : α' → Except Err β'} {a : α} {a' : α'} {l : List α} {l' : List α'} (hx : Alike S (f a) (f' a'))
    (hr : Alike T (mapE f l) (mapE f' l')) (hU : ∀ b b' m m', S b b' → T m m' → U (b :: m) (b' :: m')) :
    Alike U (mapE f (a :: l)) (mapE f' (a' :: l')) := by
  unfold mapE
  revert hx hr
  generalize f a = x
  generalize f' a' = x'
  generalize mapE f l = r
  generalize mapE f' l' = r'
  intro hx hr
  cases x <;> cases x'
  · exact hx
  · exact absurd hx id
  · exact absurd hx id
  · cases r <;> cases r'
    · exact hr
    · exact absurd hr id
    · exact absurd hr id
    · exact hU _ _ _ _ hx hr

theorem alike_mapE_three {α α' β β' : Type} {P : α → α' → Prop} {R : α → β → β' → Prop} {f : α → Except Err β} {f' : α' → Except Err β'}
    {l : List α} {l' : List α'} (hl : List.Forall₂ P l l') (h : ∀ a ∈ l, ∀ a', P a a' → Alike (R a) (f a) (f' a')) :
    Alike (Three R l) (mapE f l) (mapE f' l') := by
  induction hl with
  | nil => exact .nil
  | cons hp _ ih =>
    exact alike_step (h _ List.mem_cons_self _ hp) (ih fun a ha => h a (List.mem_cons_of_mem _ ha)) fun b b' m m' hb hm => .cons hb hm

theorem three_mapE {α β β' γ γ' : Type} {Q : α → β → β' → Prop} {R : α → γ → γ' → Prop} {f : β → Except Err γ} {f' : β' → Except Err γ'}
    {l : List α} {m : List β} {m' : List β'} (hl : Three Q l m m') (h : ∀ a b b', Q a b b' → Alike (R a) (f b) (f' b')) :
    Alike (Three R l) (mapE f m) (mapE f' m') := by
  induction hl with
  | nil => exact .nil
  | cons hp _ ih =>
    exact alike_step (h _ _ _ hp) ih fun b b' m m' hb hm => .cons hb hm

/-! ### Decoding -/

/-- The bands `d` and `d'` that the band `b` and its match are decoded to sound alike. -/
def BandPair (parts parts' : Parts) (ε : ℝ) (fs : Int) (ts : Nat) (b d d' : Band) : Prop :=
  ∀ (n : ℕ) (pad : Int), Alike (Signals (fun j => ε * b.voices fs pad ts j)) (d.evaluationBand parts.samples parts.other n fs pad ts)
    (d'.evaluationBand parts'.samples parts'.other n fs pad ts)

theorem sumEffects_same {samples samples' : Effect → List ℝ} {b b' : Band} (h : b.SameSamples samples samples' b') (x : ℝ) (ts : Nat)
    {l l' : List Effect} (hl : List.Forall₂ (fun e e' : Effect => e'.position = e.position ∧ samples' e' = samples e) l l') :
    ∀ acc, sumEffects samples' b' x ts acc l' = sumEffects samples b x ts acc l := by
  induction hl with
  | nil => intro acc; rfl
  | cons he _ ih =>
    rename_i e e' l l' _
    intro acc
    have hs : b'.evaluationSwitch samples' x e' b'.lowerFrequencyLimit b'.upperFrequencyLimit ts =
        b.evaluationSwitch samples x e b.lowerFrequencyLimit b.upperFrequencyLimit ts := by
      unfold Band.evaluationSwitch
      rw [h.wavelet.1, h.wavelet.2]
      simp only [show ¬ BandType.WaveletWave = BandType.Curve by decide, show ¬ BandType.WaveletWave = BandType.VectorialWave by decide,
        if_false, if_true]
      rw [he.1, he.2, h.rate]
    unfold sumEffects
    rw [he.1, hs]
    simp only [ih]

theorem evaluationBand_same {samples samples' : Effect → List ℝ} {b b' : Band} (h : b.SameSamples samples samples' b')
    (other other' : Nat → List (Int × ℝ) → Except Err (List (Option ℝ))) (n : ℕ) (fs pad : Int) (ts : Nat) :
    b'.evaluationBand samples' other' n fs pad ts = b.evaluationBand samples other n fs pad ts := by
  unfold Band.evaluationBand
  rw [if_neg (by rw [h.wavelet.2]; decide), if_neg (by rw [h.wavelet.1]; decide)]
  congr 1
  funext j
  unfold Band.evaluationSample
  have hl := near_getLast? h.samples
  revert hl
  cases b.effects.getLast? with
  | none => cases b'.effects.getLast? with
    | none => intro _; rfl
    | some _ => intro h; cases h
  | some e => cases b'.effects.getLast? with
    | none => intro h; cases h
    | some e' =>
      intro _
      simp only
      rw [h.wavelet.1, h.wavelet.2, blocks_length, blocks_length]
      exact sumEffects_same h _ ts (List.rel_reverse h.samples) _

theorem alike_refl {ε : ℕ → ℝ} (h : ∀ j, 0 ≤ ε j) (r : Except Err (List (Option ℝ))) : Alike (Signals ε) r r := by
  cases r with
  | error x => exact rfl
  | ok s => exact Signals.refl h s

theorem decodeBand_near {parts parts' : Parts} (hδ : 0 ≤ δ) (hη : 0 ≤ η) (fs : Int) (ts ts' : Nat)
    {b b' : Band} (hdec : b.bandType = BandType.WaveletWave → parts.DecodeAlike parts') (h : b.Matches δ η b') (ht : b.Tame parts.other parts'.other fs ts) :
    Alike (BandPair parts parts' ((δ + η : ℚ) : ℝ) fs ts b) (decodeBand parts ts' b) (decodeBand parts' ts' b') := by
  unfold decodeBand
  rcases h with h | h
  · have key : ∀ t : Nat, t = BandType.Transient ∨ t = BandType.Curve ∨ t = BandType.VectorialWave → t ≠ BandType.WaveletWave := by
      rintro t (rfl | rfl | rfl) <;> decide
    rw [h.bandType, if_neg (key _ h.keyframeBand), if_neg (key _ h.keyframeBand)]
    exact fun n pad => evaluationBand_near parts.samples parts'.samples parts.other parts'.other h hδ hη n fs pad ts ht
  · rw [if_pos h.wavelet.1, if_pos h.wavelet.2]
    refine (hdec h.wavelet.1 ts' b b' h).imp fun d d' hd n pad => ?_
    rw [evaluationBand_same hd parts.other parts'.other]
    have hE : (0 : ℝ) ≤ ((δ + η : ℚ) : ℝ) := by exact_mod_cast add_nonneg hδ hη
    exact alike_refl (fun j => by positivity) _

/-- The channels that a channel and its match are decoded to. -/
structure ChannelPair (parts parts' : Parts) (ε : ℝ) (γ : ℚ) (fs : Int) (ts : Nat) (c d d' : Channel) : Prop where
  bands : Three (BandPair parts parts' ε fs ts) c.bands d.bands d'.bands
  gain : d.gain = c.gain
  near : |c.gain - d'.gain| ≤ γ

theorem alike_bind {α α' β β' : Type} {R : α → α' → Prop} {S : β → β' → Prop} {r : Except Err α} {r' : Except Err α'} {f : α → Except Err β}
    {f' : α' → Except Err β'} (h : Alike R r r') (hf : ∀ a a', R a a' → Alike S (f a) (f' a')) : Alike S (r.bind f) (r'.bind f') := by
  cases r <;> cases r'
  · exact h
  · exact absurd h id
  · exact absurd h id
  · exact hf _ _ h

theorem decodeChannel_near {parts parts' : Parts} (hδ : 0 ≤ δ) (hη : 0 ≤ η) (fs : Int) (ts ts' : Nat)
    {c c' : Channel} (hdec : ∀ b ∈ c.bands, b.bandType = BandType.WaveletWave → parts.DecodeAlike parts')
    (h : c.NearTo δ η γ c') (ht : ∀ b ∈ c.bands, b.Tame parts.other parts'.other fs ts) :
    Alike (ChannelPair parts parts' ((δ + η : ℚ) : ℝ) γ fs ts c) (decodeChannel parts ts' c) (decodeChannel parts' ts' c') := by
  have hb := alike_mapE_three h.bands (f := decodeBand parts ts') (f' := decodeBand parts' ts')
    fun b hb b' hbb => decodeBand_near hδ hη fs ts ts' (hdec b hb) hbb (ht b hb)
  exact alike_bind hb fun bs bs' hbs => ⟨hbs, rfl, h.gain⟩

/-- The perceptions that a perception and its match are decoded to. -/
structure PerceptionPair (parts parts' : Parts) (ε : ℝ) (γ : ℚ) (fs : Int) (ts : Nat) (p q q' : Perception) : Prop where
  channels : Three (ChannelPair parts parts' ε γ fs ts) p.channels q.channels q'.channels
  exponent : q.perceptionUnitExponent.getD 0 = p.perceptionUnitExponent.getD 0
  exponent' : q'.perceptionUnitExponent.getD 0 = p.perceptionUnitExponent.getD 0

theorem decodePerception_near {parts parts' : Parts} (hδ : 0 ≤ δ) (hη : 0 ≤ η) (fs : Int) (ts ts' : Nat)
    {p p' : Perception} (hdec : ∀ c ∈ p.channels, ∀ b ∈ c.bands, b.bandType = BandType.WaveletWave → parts.DecodeAlike parts')
    (h : p.NearTo δ η γ p') (ht : ∀ c ∈ p.channels, ∀ b ∈ c.bands, b.Tame parts.other parts'.other fs ts) :
    Alike (PerceptionPair parts parts' ((δ + η : ℚ) : ℝ) γ fs ts p) (decodePerception parts ts' p) (decodePerception parts' ts' p') := by
  have hc := alike_mapE_three h.channels (f := decodeChannel parts ts') (f' := decodeChannel parts' ts')
    fun c hc c' hcc => decodeChannel_near hδ hη fs ts ts' (hdec c hc) hcc (ht c hc)
  exact alike_bind hc fun cs cs' hcs => ⟨hcs, rfl, h.exponent⟩

/-- A channel with its perception. -/
def PlacedPair (parts parts' : Parts) (ε : ℝ) (γ : ℚ) (fs : Int) (ts : Nat) (x y y' : Perception × Channel) : Prop :=
  ChannelPair parts parts' ε γ fs ts x.2 y.2 y'.2 ∧ y.1.perceptionUnitExponent.getD 0 = x.1.perceptionUnitExponent.getD 0 ∧
    y'.1.perceptionUnitExponent.getD 0 = x.1.perceptionUnitExponent.getD 0

theorem placed_pairs {parts parts' : Parts} {ε : ℝ} {fs : Int} {ts : Nat} {ps qs qs' : List Perception}
    (h : Three (PerceptionPair parts parts' ε γ fs ts) ps qs qs') :
    Three (PlacedPair parts parts' ε γ fs ts) (channelsOf ps) (channelsOf qs) (channelsOf qs') := by
  unfold channelsOf
  induction h with
  | nil => exact .nil
  | cons hp _ ih =>
    rw [List.flatMap_cons, List.flatMap_cons, List.flatMap_cons]
    exact (hp.channels.map fun c d d' hc => ⟨hc, hp.exponent, hp.exponent'⟩).append ih

theorem mixBands_pairs {parts parts' : Parts} {ε : ℝ} {fs : Int} {ts : Nat} {l m m' : List Band}
    (h : Three (BandPair parts parts' ε fs ts) l m m') (n : ℕ) (pad : Int) :
    ∀ (ζ : ℕ → ℝ) (amp amp' : List (Option ℝ)), Signals ζ amp amp' →
      Alike (Signals (fun j => ζ j + ε * ((l.map (fun b => b.voices fs pad ts j)).sum : ℕ)))
        (mixBands parts.samples parts.other n fs pad ts amp m) (mixBands parts'.samples parts'.other n fs pad ts amp' m') := by
  induction h with
  | nil => intro ζ amp amp' ha; exact ha.mono fun j => by simp
  | cons hb _ ih =>
    rename_i b d d' l m m' _
    intro ζ amp amp' ha
    unfold mixBands
    have hi := hb n pad
    cases hs : d.evaluationBand parts.samples parts.other n fs pad ts with
    | error x =>
      rw [hs] at hi
      cases hs' : d'.evaluationBand parts'.samples parts'.other n fs pad ts with
      | error y => rw [hs'] at hi; exact hi
      | ok y => rw [hs'] at hi; exact absurd hi id
    | ok r =>
      rw [hs] at hi
      obtain ⟨r', hs', hrr⟩ := hi.ok_left
      rw [hs']
      refine (ih _ _ _ (mixBand_near ha hrr)).imp fun u v huv => huv.mono fun j => le_of_eq ?_
      rw [List.map_cons, List.sum_cons]
      push_cast
      ring

theorem scaled_near {e u u' v v' E d : ℝ} (hE : 0 ≤ E) (hu : |u - u'| ≤ e) (hu' : |u'| ≤ 1) (hv : |v - v'| ≤ d) :
    |u * (v * E) - u' * (v' * E)| ≤ E * (|v| * e + d) := by
  rw [show u * (v * E) - u' * (v' * E) = E * ((u - u') * v + u' * (v - v')) by ring, abs_mul, abs_of_nonneg hE]
  refine mul_le_mul_of_nonneg_left ?_ hE
  refine (abs_add_le _ _).trans (add_le_add ?_ ?_)
  · rw [abs_mul, mul_comm]
    exact mul_le_mul_of_nonneg_left hu (abs_nonneg v)
  · rw [abs_mul]
    calc |u'| * |v - v'| ≤ 1 * |v - v'| := by gcongr
      _ ≤ d := by rw [one_mul]; exact hv

theorem playChannel_near (parts parts' : Parts) (length : ℚ) (fs pad : Int) (ts : Nat) {ε : ℝ} {p q q' : Perception} {c d d' : Channel}
    (h : PlacedPair parts parts' ε γ fs ts (p, c) (q, d) (q', d')) :
    Alike (Signals (fun j => (10 : ℝ) ^ (p.perceptionUnitExponent.getD 0) * (|(c.gain : ℝ)| * (ε * c.voices fs pad ts j) + γ)))
      (playChannel parts length fs pad ts (q, d)) (playChannel parts' length fs pad ts (q', d')) := by
  obtain ⟨hc, he, he'⟩ := h
  unfold playChannel
  cases sampleCount length fs pad ts with
  | error x => exact rfl
  | ok n =>
    have hn : Alike (Signals (fun j => ε * c.voices fs pad ts j)) (d.evaluateChannel parts.samples parts.other n fs pad ts)
        (d'.evaluateChannel parts'.samples parts'.other n fs pad ts) := by
      unfold Channel.evaluateChannel
      refine (mixBands_pairs hc.bands n pad (fun _ => 0) _ _ (Signals.refl (fun _ => le_rfl) _)).imp
        fun u v huv => huv.mono fun j => le_of_eq ?_
      rw [zero_add]
      rfl
    show Alike _ ((d.evaluateChannel parts.samples parts.other n fs pad ts).bind _)
      ((d'.evaluateChannel parts'.samples parts'.other n fs pad ts).bind _)
    cases hr : d.evaluateChannel parts.samples parts.other n fs pad ts with
    | error x =>
      rw [hr] at hn
      cases hr' : d'.evaluateChannel parts'.samples parts'.other n fs pad ts with
      | error y => rw [hr'] at hn; exact hn
      | ok y => rw [hr'] at hn; exact absurd hn id
    | ok r =>
      rw [hr] at hn
      obtain ⟨r', hr', hrr⟩ := hn.ok_left
      rw [hr']
      refine ⟨by rw [List.length_map, List.length_map, hrr.1], fun j hj => ?_⟩
      have hj : j < r.length := by simpa using hj
      have hj' : j < r'.length := by rw [hrr.1]; exact hj
      have hN := hrr.2 j hj
      obtain ⟨_, hs⟩ := c32_evaluateChannel_partial _ _ d' n fs pad ts r' hr'
      have hs := hs (r'[j]'hj') (List.getElem_mem hj')
      simp only [List.getD_eq_getElem?_getD, List.getElem?_map, List.getElem?_eq_getElem hj, List.getElem?_eq_getElem hj',
        Option.map_some, Option.getD_some] at hN ⊢
      revert hN hs
      generalize r[j] = u
      generalize r'[j] = u'
      intro hs hN
      cases u with
      | none => cases u' with
        | none => trivial
        | some u' => exact absurd hN id
      | some u => cases u' with
        | none => exact absurd hN id
        | some u' =>
          have hu' : |u'| ≤ 1 := by
            rcases hs with hs | ⟨r, h1, h2, h3⟩
            · cases hs
            · obtain rfl := Option.some.inj h1
              exact abs_le.mpr ⟨h2, h3⟩
          show |u * factor q d - u' * factor q' d'| ≤ _
          unfold factor
          rw [he, he', hc.gain]
          exact scaled_near (by positivity) hN hu' (by exact_mod_cast hc.near)

/-- Two experiences that are nearly the same give nearly the same signals, or fail in the same way. -/
theorem synthesize_near (parts parts' : Parts) (h h' : Experience) (hδ : 0 ≤ δ) (hη : 0 ≤ η) (hE : δ + η ≤ 1 / 125) (hγ : γ ≤ 3 / 50)
    (hts : h'.timescale = h.timescale)
    (hp : List.Forall₂ (Perception.NearTo δ η γ) h.linearize.perceptions h'.linearize.perceptions) (fs pad : Int)
    (hdec : ∀ p ∈ h.linearize.perceptions, ∀ c ∈ p.channels, ∀ b ∈ c.bands, b.bandType = BandType.WaveletWave → parts.DecodeAlike parts')
    (ht : ∀ ts, h.timescale = some ts → ∀ p ∈ h.linearize.perceptions, ∀ c ∈ p.channels, ∀ b ∈ c.bands,
      b.Tame parts.other parts'.other fs ts) (hsome : h.timescale.isSome) :
    Alike (SoundsLike h fs pad) (synthesize parts h fs pad) (synthesize parts' h' fs pad) := by
  unfold synthesize
  have hts' : h'.linearize.timescale = h.linearize.timescale := hts
  rw [experienceLength_eq hts' hp]
  cases h.linearize.timeLength with
  | error x => exact rfl
  | ok length =>
    show Alike _ (playFile parts h.linearize length fs pad) (playFile parts' h'.linearize length fs pad)
    unfold playFile
    obtain ⟨ts, hT⟩ := Option.isSome_iff_exists.mp hsome
    have ht2 : h.linearize.timescale = some ts := hT
    rw [hts', ht2]
    refine alike_bind (alike_mapE_three (R := PerceptionPair parts parts' ((δ + η : ℚ) : ℝ) γ fs ts) hp
      fun p hpm p' hpp => decodePerception_near hδ hη fs ts _ (hdec p hpm) hpp (ht ts hT p hpm)) fun qs qs' hqs => ?_
    have hm := three_mapE (R := fun a x x' => Signals (fun j => loss a.1 a.2 (a.2.voices fs pad ts j)) x x') (placed_pairs hqs)
      (f := playChannel parts length fs pad ts) (f' := playChannel parts' length fs pad ts) (by
        rintro ⟨p, c⟩ ⟨q, d⟩ ⟨q', d'⟩ hpair
        refine (playChannel_near parts parts' length fs pad ts hpair).imp fun s s' hs => hs.mono fun j => ?_
        unfold loss
        have hE' : ((δ + η : ℚ) : ℝ) ≤ 1 / 125 := by
          have := (Rat.cast_le (K := ℝ)).mpr hE
          push_cast at this ⊢
          exact this
        have hγ' : (γ : ℝ) ≤ 3 / 50 := by
          have := (Rat.cast_le (K := ℝ)).mpr hγ
          push_cast at this ⊢
          exact this
        refine mul_le_mul_of_nonneg_left (add_le_add (mul_le_mul_of_nonneg_left ?_ (abs_nonneg _)) hγ') (by positivity)
        rw [div_eq_inv_mul, ← one_div]
        exact mul_le_mul_of_nonneg_right hE' (Nat.cast_nonneg _))
    refine alike_bind hm fun r r' hr => ?_
    obtain ⟨h1, h2, h3⟩ := hr.get
    show Alike _ (if r.isEmpty then _ else _) (if r'.isEmpty then _ else _)
    have hemp : r'.isEmpty = r.isEmpty := by
      cases r <;> cases r' <;> first | rfl | simp at h2
    rw [hemp]
    split_ifs
    · exact rfl
    · refine ⟨h1, h2, fun i p c x x' hi hx hx' => ?_⟩
      rw [hT]
      exact h3 i (p, c) x x' hi hx hx'

end Haptics.SynthMain
