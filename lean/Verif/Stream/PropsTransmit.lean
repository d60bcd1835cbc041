import Verif.Stream.PropsSend

/-
C19, both sides together: what is sent for a band is what the receiver reconstructs.
-/
namespace Haptics

/-! ### Reception commutes with taking windows -/

@[simp] theorem receivedIn_id (bt : Nat) (e : Effect) : (e.receivedIn bt).id = e.id := by
  unfold Effect.receivedIn; split <;> rfl
@[simp] theorem receivedIn_position (bt : Nat) (e : Effect) : (e.receivedIn bt).position = e.position := by
  unfold Effect.receivedIn; split <;> rfl
@[simp] theorem receivedIn_type (bt : Nat) (e : Effect) :
    (e.receivedIn bt).effectType = e.effectType := by
  unfold Effect.receivedIn; split <;> rfl

theorem receivedIn_keyframes (bt : Nat) (e : Effect) (hb : e.effectType = EffectType.Basis) :
    (e.receivedIn bt).keyframes = e.keyframes.map (Keyframe.receivedIn bt) := by
  unfold Effect.receivedIn; rw [if_pos hb]

theorem receivedIn_timeOf (bt : Nat) (e : Effect) (k : Keyframe) :
    (e.receivedIn bt).timeOf (k.receivedIn bt) = e.timeOf k := by
  simp [Effect.timeOf, Keyframe.receivedIn]

theorem receivedIn_eventTimes (bt : Nat) (e : Effect) : (e.receivedIn bt).eventTimes = e.eventTimes := by
  unfold Effect.eventTimes
  rw [receivedIn_type]
  split
  · rename_i hb
    rw [receivedIn_keyframes bt e hb, List.map_map]
    apply List.map_congr_left
    intro k _
    exact receivedIn_timeOf bt e k
  · rw [receivedIn_position]

theorem receivedIn_slice (bt : Nat) (lo hi : Int) (e : Effect) :
    (e.slice lo hi).receivedIn bt = (e.receivedIn bt).slice lo hi := by
  by_cases hb : e.effectType = EffectType.Basis
  · have h1 : (e.receivedIn bt).effectType = EffectType.Basis := by rw [receivedIn_type]; exact hb
    rw [Effect.slice, if_pos hb, Effect.slice, if_pos h1]
    unfold Effect.receivedIn
    simp only [if_pos hb]
    rw [List.filter_map]
    congr 1
  · have h1 : ¬ (e.receivedIn bt).effectType = EffectType.Basis := by rw [receivedIn_type]; exact hb
    rw [Effect.slice, if_neg hb, Effect.slice, if_neg h1]

theorem receivedIn_windowOf (bt : Nat) (lo hi : Int) (F : List Effect) :
    windowOf lo hi (F.map (Effect.receivedIn bt)) = (windowOf lo hi F).map (Effect.receivedIn bt) := by
  induction F with
  | nil => rfl
  | cons e F ih =>
    have ho : (e.receivedIn bt).occursIn lo hi = e.occursIn lo hi := by
      unfold Effect.occursIn; rw [receivedIn_eventTimes]
    rw [List.map_cons, windowOf_cons, windowOf_cons, ho, ih, List.map_append, ← receivedIn_slice]
    split <;> rfl

theorem receivedIn_packetsOf (bt : Nat) (d : Int) (F : List Effect) (n : Nat) (time : Int) :
    packetsOf d (F.map (Effect.receivedIn bt)) n time
      = (packetsOf d F n time).map (fun w => (w.1, w.2.map (Effect.receivedIn bt))) := by
  unfold packetsOf
  induction n generalizing time with
  | zero => rfl
  | succ n ih =>
    rw [windows, windows, List.filter_cons, List.filter_cons, ih, receivedIn_windowOf]
    cases windowOf time (time + d) F <;> rfl

theorem receivedIn_sequential {bt : Nat} {F : List Effect} (h : Sequential F) :
    Sequential (F.map (Effect.receivedIn bt)) := by
  refine ⟨?_, ?_, ?_, ?_, ?_⟩
  · rw [List.flatMap_map]
    have : (fun e => (Effect.receivedIn bt e).eventTimes) = Effect.eventTimes :=
      funext (receivedIn_eventTimes bt)
    rw [this]
    exact h.times
  · unfold TimeOrdered
    rw [List.pairwise_map]
    simp only [receivedIn_position]
    exact h.ordered
  · simp only [List.mem_map, forall_exists_index, and_imp, forall_apply_eq_imp_iff₂, receivedIn_type]
    exact h.types
  · simp only [List.mem_map, forall_exists_index, and_imp, forall_apply_eq_imp_iff₂, receivedIn_type]
    intro e he hb
    rw [receivedIn_keyframes bt e hb]
    simpa using h.keyframes e he hb
  · simp only [List.mem_map, forall_exists_index, and_imp, forall_apply_eq_imp_iff₂]
    intro e he k hk
    by_cases hb : e.effectType = EffectType.Basis
    · rw [receivedIn_keyframes bt e hb] at hk
      obtain ⟨k', hk', rfl⟩ := List.mem_map.mp hk
      exact h.positioned e he k' hk'
    · unfold Effect.receivedIn at hk
      rw [if_neg hb] at hk
      simp at hk

theorem receivedIn_distinct {bt : Nat} {F : List Effect} (h : DistinctIds F) :
    DistinctIds (F.map (Effect.receivedIn bt)) := by
  unfold DistinctIds
  rw [List.pairwise_map]
  simp only [receivedIn_type, receivedIn_id]
  exact h

/-! ### The receiver's band -/

theorem modifyBand_modifyBand (h : Experience) (p c b : Nat) (f g : Band → Band) :
    (h.modifyBand p c b f).modifyBand p c b g = h.modifyBand p c b (g ∘ f) := by
  unfold Experience.modifyBand
  simp only [List.modify_modify_eq]
  congr 2
  funext x
  simp only [Function.comp, List.modify_modify_eq]
  congr 2
  funext y
  simp only [Function.comp, List.modify_modify_eq]

theorem findIdx?_modify {α : Type} (q : α → Bool) (f : α → α) (hf : ∀ x, q (f x) = q x) (l : List α)
    (i : Nat) : (l.modify i f).findIdx? q = l.findIdx? q := by
  induction l generalizing i with
  | nil => cases i <;> rfl
  | cons a l ih =>
    cases i with
    | zero => simp only [List.modify_zero_cons, List.findIdx?_cons, hf]
    | succ i => simp only [List.modify_succ_cons, List.findIdx?_cons, ih]

theorem findSome?_modify {α β : Type} (q : α → Option β) (f : α → α) (hf : ∀ x, q (f x) = q x)
    (l : List α) (i : Nat) : (l.modify i f).findSome? q = l.findSome? q := by
  induction l generalizing i with
  | nil => cases i <;> rfl
  | cons a l ih =>
    cases i with
    | zero => simp only [List.modify_zero_cons, List.findSome?_cons, hf]
    | succ i => simp only [List.modify_succ_cons, List.findSome?_cons, ih]

theorem searchPerception_modifyBand (h : Experience) (p c b : Nat) (f : Band → Band) (id : Int) :
    (h.modifyBand p c b f).perceptions.findIdx? (fun x => x.id == id)
      = h.perceptions.findIdx? (fun x => x.id == id) := by
  unfold Experience.modifyBand
  apply findIdx?_modify
  exact fun _ => rfl

theorem searchChannel_modifyBand (h : Experience) (p c b : Nat) (f : Band → Band) (id : Int) :
    searchChannelInHaptic (h.modifyBand p c b f) id = searchChannelInHaptic h id := by
  unfold searchChannelInHaptic Experience.modifyBand
  refine findSome?_modify _ _ (fun x => ?_) _ _
  apply findIdx?_modify
  exact fun _ => rfl

/-- Changing the band addressed leaves it addressed. -/
theorem HasBand.modify {r : Reader} {addr : Address} {p c b : Nat} {band : Band}
    (h : HasBand r addr p c b band) (f : Band → Band) (r' : Reader)
    (h1 : r'.haptic = r.haptic.modifyBand p c b f) (h2 : r'.bandStreams = r.bandStreams) :
    HasBand r' addr p c b (f band) := by
  obtain ⟨hp, hc, hs, ch, hch, hb⟩ := h
  refine ⟨by rw [h1, searchPerception_modifyBand]; exact hp,
    by rw [h1, searchChannel_modifyBand]; exact hc, by rw [h2]; exact hs, ?_⟩
  refine ⟨{ ch with bands := ch.bands.modify b f }, ?_, ?_⟩
  · rw [h1]
    unfold Experience.modifyBand
    rw [List.getElem?_modify_eq]
    cases hpp : r.haptic.perceptions[p]? with
    | none => rw [hpp] at hch; simp at hch
    | some x =>
      rw [hpp] at hch
      simp only [Option.bind_some] at hch
      simp [hch]
  · rw [List.getElem?_modify_eq, hb]; rfl

theorem modify_congr {α : Type} (f g : α → α) (l : List α) (i : Nat) (h : ∀ x ∈ l[i]?, f x = g x) :
    l.modify i f = l.modify i g := by
  induction l generalizing i with
  | nil => cases i <;> rfl
  | cons a l ih =>
    cases i with
    | zero =>
      simp only [List.modify_zero_cons]
      rw [h a (by simp)]
    | succ i =>
      simp only [List.modify_succ_cons]
      rw [ih i (by simpa using h)]

theorem modifyBand_congr (h : Experience) (p c b : Nat) (f g : Band → Band) (ch : Channel) (band : Band)
    (h1 : h.perceptions[p]?.bind (fun x => x.channels[c]?) = some ch) (h2 : ch.bands[b]? = some band)
    (hfg : f band = g band) : h.modifyBand p c b f = h.modifyBand p c b g := by
  unfold Experience.modifyBand
  congr 1
  apply modify_congr
  intro x hx
  rw [Option.mem_def] at hx
  rw [hx, Option.bind_some] at h1
  congr 1
  apply modify_congr
  intro y hy
  rw [Option.mem_def, h1, Option.some.injEq] at hy
  subst hy
  congr 1
  apply modify_congr
  intro z hz
  rw [Option.mem_def, h2, Option.some.injEq] at hz
  subst hz
  exact hfg

/-- Reception of timestamped packets: each is read when the clock shows its time. -/
def receiveAll : List (Int × Bits) → Reader → Except Err Reader
  | [], r => .ok r
  | (t, payload) :: l, r =>
    match readData payload { r with time := t.toNat } with
    | .ok (true, r') => receiveAll l r'
    | .ok (false, _) => .error .fail
    | .error e => .error e

theorem packetsOf_mem {d : Int} {F : List Effect} : ∀ {n : Nat} {time : Int} {w : Int × List Effect},
    w ∈ packetsOf d F n time → w.2 ≠ [] ∧ w.2 = windowOf w.1 (w.1 + d) F ∧ ∃ k : Nat, w.1 = time + k * d := by
  intro n
  induction n with
  | zero => intro time w h; simp [packetsOf, windows] at h
  | succ n ih =>
    intro time w h
    unfold packetsOf at h
    rw [windows, List.filter_cons] at h
    have tl : w ∈ packetsOf d F n (time + d) → w.2 ≠ [] ∧ w.2 = windowOf w.1 (w.1 + d) F ∧
        ∃ k : Nat, w.1 = time + k * d := by
      intro h
      obtain ⟨h1, h2, k, h3⟩ := ih h
      exact ⟨h1, h2, k + 1, by rw [h3]; push_cast; ring⟩
    split at h
    · rename_i hne
      rcases List.mem_cons.mp h with rfl | h
      · exact ⟨by simpa using hne, rfl, 0, by simp⟩
      · exact tl h
    · exact tl h

/-- The start of a window with events is not after its events. -/
theorem packetsOf_time {d : Int} (hd : 0 ≤ d) {F : List Effect} {M : Int}
    (hM : ∀ e ∈ F, ∀ t ∈ e.eventTimes, t < M) {n : Nat} {w : Int × List Effect}
    (h : w ∈ packetsOf d F n 0) : 0 ≤ w.1 ∧ w.1 < M := by
  obtain ⟨h1, h2, k, h3⟩ := packetsOf_mem h
  constructor
  · rw [h3]; positivity
  · obtain ⟨x, hx⟩ := List.exists_mem_of_ne_nil _ h1
    rw [h2] at hx
    obtain ⟨e, he, ho, -⟩ := mem_windowOf hx
    obtain ⟨t, ht, h5, -⟩ := occursIn_true.mp ho
    have := hM e he t ht
    omega

theorem SentAs.timestamp {bandType : Nat} {addr : Address} {b : Bits} {w : Int × List Effect}
    (h : SentAs bandType addr b w) (h1 : 0 ≤ w.1) (h2 : w.1 < 2 ^ 32) :
    32 ≤ b.length ∧ timestampOf b = w.1 := by
  obtain ⟨a, -, -, hw⟩ := h
  unfold writePayloadPacket at hw
  split at hw
  · simp at hw
  · simp only [Except.ok.injEq, writeEffectHeader, DB_DURATION, List.append_assoc] at hw
    rw [← hw]
    constructor
    · simp
    · unfold timestampOf
      rw [List.take_append_of_le_length (by simp), List.take_of_length_le (by simp), bitsVal_writeNBits]
      omega

/-- Reading one packet that was sent for the effects of a window. -/
theorem SentAs.read {bandType : Nat} (hbt : KeyframeBand bandType) {addr : Address}
    (hap : U 8 addr.perceId) (hac : U 16 addr.channelId) (hab : U 8 addr.bandId) {d : Int}
    (hd2 : d ≤ 2 ^ 24) {F : List Effect} (hsend : ∀ e ∈ F, e.Sendable bandType) (hn : F.length < 65536)
    {b : Bits} {w : Int × List Effect} (h : SentAs bandType addr b w) (hw : w.2 = windowOf w.1 (w.1 + d) F)
    (hne : w.2 ≠ []) (h0 : 0 ≤ w.1) (h31 : w.1 < 2 ^ 31) (rest : Bits) (r : Reader) (p c k : Nat)
    (band : Band) (hb : HasBand r addr p c k band) (hbb : band.bandType = bandType)
    (hws : r.waitSync = false) (htime : (r.time : Int) = w.1) :
    readData (b.drop 32 ++ rest) r = .ok (true, { r with
      haptic := r.haptic.modifyBand p c k (fun band =>
        (w.2.map (Effect.receivedIn bandType)).foldl mergeEffect band) }) := by
  obtain ⟨a, h1, h2, h3⟩ := h
  obtain ⟨body, hb1, hb2⟩ := c56_packet bandType hbt addr hap hac hab w.1 a w.2 h1
    (by rw [hw]; exact window_fits hd2 hsend)
    (by rw [hw]; exact lt_of_le_of_lt (windowOf_length_le _ _ _) hn) hne h2
  rw [h3] at hb1
  injection hb1 with hb1
  have hdrop : b.drop 32 = body := by
    rw [hb1, List.drop_append_of_le_length (by simp), List.drop_of_length_le (by simp)]; rfl
  have hts : toSigned 32 r.time = w.1 := by
    rw [← htime]
    unfold toSigned
    rw [if_pos (by omega)]
  rw [hdrop, hb2 rest r p c k band hb hbb (by simp [hws]), hts]
  have hmap : w.2.map (fun e => { e.receivedIn bandType with position := e.position - w.1 + w.1 })
      = w.2.map (Effect.receivedIn bandType) := by
    apply List.map_congr_left
    intro e _
    have : e.position - w.1 + w.1 = (e.receivedIn bandType).position := by
      rw [receivedIn_position]; omega
    rw [this]
    generalize e.receivedIn bandType = x
    cases x; rfl
  rw [hmap]
  unfold addEffectToHaptic
  rw [← hws]

theorem mergeEffect_bandType (b : Band) (e : Effect) : (mergeEffect b e).bandType = b.bandType := by
  unfold mergeEffect
  split
  · split <;> rfl
  · rfl

theorem foldl_mergeEffect_bandType (l : List Effect) (b : Band) :
    (l.foldl mergeEffect b).bandType = b.bandType := by
  induction l generalizing b with
  | nil => rfl
  | cons e l ih => rw [List.foldl_cons, ih, mergeEffect_bandType]

/-- **C19** Everything together, for one band: the packets the sender makes of a band whose effects do
not overlap, read by a receiver that knows the band and has no effects for it yet, give the receiver
exactly the effects of the band – all effects, each with all its keyframes in order, with the
identifiers assigned –, up to quantisation, and change nothing else.  Any bits may follow each packet
(padding). -/
theorem c19_transmit_partial (b : Band) (hbt : KeyframeBand b.bandType) (addr : Address)
    (hap : U 8 addr.perceId) (hac : U 16 addr.channelId) (hab : U 8 addr.bandId) (d : Int)
    (hd : 0 < d) (hd2 : d ≤ 2 ^ 24) (ids : List Int) (hids : ∀ i ∈ ids, 0 ≤ i)
    (hs : Sequential (assignAll ids b.effects).1) (hdist : DistinctIds (assignAll ids b.effects).1)
    (hsend : ∀ e ∈ (assignAll ids b.effects).1, e.Sendable b.bandType)
    (hev : ∀ e ∈ (assignAll ids b.effects).1, ∀ t ∈ e.eventTimes, 0 ≤ t ∧ t < 2 ^ 31)
    (hn : b.effects.length < 65536)
    (hlast : ∀ e ∈ b.effects.getLast?, e.effectType = EffectType.Reference →
      ∀ m : Int, 0 < m → e.position ≠ m * d) :
    ∃ (bs : List Bits), packetizeBand d addr b ids = .ok (bs, (assignAll ids b.effects).2) ∧
      ∀ (ps : List (Int × Bits)),
        List.Forall₂ (fun x y => x.1 = timestampOf y ∧ ∃ rest, x.2 = y.drop 32 ++ rest) ps bs →
        ∀ (r : Reader) (p c k : Nat) (band : Band), HasBand r addr p c k band →
          band.bandType = b.bandType → band.effects = [] → r.waitSync = false →
          ∃ t, receiveAll ps r = .ok { r with
            time := t
            haptic := r.haptic.modifyBand p c k (fun band =>
              { band with effects := (assignAll ids b.effects).1.map (Effect.receivedIn b.bandType) }) } := by
  obtain ⟨bs, n, h1, h2, h3⟩ := c19_packets_partial b hbt addr hap hac hab d hd hd2 ids hids hs hsend hn hlast
  refine ⟨bs, h1, ?_⟩
  rw [← assignAll_length b.effects ids] at hn
  generalize (assignAll ids b.effects).1 = F at *
  intro ps hps r p c k band hband hbb hbe hws
  -- all packets in sequence
  have seq : ∀ (ws : List (Int × List Effect)) (bs : List Bits) (ps : List (Int × Bits)),
      List.Forall₂ (SentAs b.bandType addr) bs ws →
      List.Forall₂ (fun (x : Int × Bits) y => x.1 = timestampOf y ∧ ∃ rest, x.2 = y.drop 32 ++ rest) ps bs →
      (∀ w ∈ ws, w ∈ packetsOf d F n 0) →
      ∀ (r : Reader) (band : Band), HasBand r addr p c k band → band.bandType = b.bandType →
        r.waitSync = false →
        ∃ t, receiveAll ps r = .ok { r with
          time := t
          haptic := r.haptic.modifyBand p c k (fun band =>
            ws.foldl (fun b' w => (w.2.map (Effect.receivedIn b.bandType)).foldl mergeEffect b') band) } := by
    intro ws
    induction ws with
    | nil =>
      intro bs ps hbs hps _ r band _ _ _
      cases hbs
      cases hps
      refine ⟨r.time, ?_⟩
      have : r.haptic.modifyBand p c k (fun band => band) = r.haptic := by
        unfold Experience.modifyBand
        have e1 : ∀ (l : List Band), l.modify k (fun b => b) = l := fun l => List.modify_id k l
        simp only [e1]
        have e2 : ∀ (l : List Channel), l.modify c (fun y => { y with bands := y.bands }) = l :=
          fun l => List.modify_id c l
        simp only [e2]
        have e3 : ∀ (l : List Perception), l.modify p (fun y => { y with channels := y.channels }) = l :=
          fun l => List.modify_id p l
        simp only [e3]
      simp only [List.foldl_nil, this, receiveAll]
    | cons w ws ih =>
      intro bs ps hbs hps hmem r band hband hbb hws
      cases hbs with
      | @cons b0 _ bs' _ hb0 hbs =>
      cases hps with
      | @cons x _ ps' _ hx hps =>
      obtain ⟨hx1, rest, hx2⟩ := hx
      obtain ⟨k1, k2, k3⟩ := packetsOf_mem (hmem w (by simp))
      obtain ⟨t1, t2⟩ := packetsOf_time (le_of_lt hd) (fun e he t ht => (hev e he t ht).2)
        (hmem w (by simp))
      obtain ⟨-, hts⟩ := hb0.timestamp t1 (by omega)
      obtain ⟨tx, px⟩ := x
      simp only at hx1 hx2
      rw [hts] at hx1
      have hrd := hb0.read hbt hap hac hab hd2 hsend hn k2 k1 t1 t2 rest { r with time := tx.toNat } p c k
        band (by
          obtain ⟨a1, a2, a3, a4⟩ := hband
          exact ⟨a1, a2, a3, a4⟩) hbb hws (by simp only; omega)
      simp only [receiveAll, hx2, hrd]
      obtain ⟨t, ht⟩ := ih bs' ps' hbs hps (fun w' hw' => hmem w' (by simp [hw']))
        { r with
          time := tx.toNat
          haptic := r.haptic.modifyBand p c k (fun band =>
            (w.2.map (Effect.receivedIn b.bandType)).foldl mergeEffect band) } _
        (hband.modify _ _ rfl rfl) (by rw [foldl_mergeEffect_bandType]; exact hbb) hws
      refine ⟨t, ?_⟩
      rw [ht]
      simp only [modifyBand_modifyBand]
      rfl
  obtain ⟨t, ht⟩ := seq _ bs ps h3 hps (fun w hw => hw) r band hband hbb hws
  refine ⟨t, ?_⟩
  rw [ht]
  congr 2
  -- only the band addressed matters
  obtain ⟨-, -, -, ch, hch, hbd⟩ := hband
  have hre := c19_reassemble d (le_of_lt hd) (F.map (Effect.receivedIn b.bandType))
    (receivedIn_sequential hs) (receivedIn_distinct hdist) band hbe n (by
      intro e he t ht
      obtain ⟨e', he', rfl⟩ := List.mem_map.mp he
      rw [receivedIn_eventTimes] at ht
      exact ⟨(hev e' he' t ht).1, h2 e' he' t ht⟩)
  rw [receivedIn_packetsOf, List.foldl_map] at hre
  exact modifyBand_congr r.haptic p c k _ _ ch band hch hbd hre

/-- The hypotheses are met, e.g. by a vectorial band with an effect over three windows of 128, one
without identifier after it, and a reference. -/
example :
    let b : Band := { effects :=
      [{ id := 3, keyframes := [{ relativePosition := some 0 }, { relativePosition := some 130 },
          { relativePosition := some 300, frequencyModulation := some 60 }] },
       { position := 300, keyframes := [{ relativePosition := some 5 }] },
       { id := 8, position := 400, effectType := EffectType.Reference }] }
    KeyframeBand b.bandType ∧ Sequential (assignAll [3, 8] b.effects).1 ∧
      DistinctIds (assignAll [3, 8] b.effects).1 ∧
      (∀ e ∈ (assignAll [3, 8] b.effects).1, e.Sendable b.bandType) ∧
      (∀ e ∈ (assignAll [3, 8] b.effects).1, ∀ t ∈ e.eventTimes, 0 ≤ t ∧ t < 2 ^ 31) ∧
      (∀ e ∈ b.effects.getLast?, e.effectType = EffectType.Reference →
        ∀ m : Int, 0 < m → e.position ≠ m * 128) := by
  have hass : (assignAll [3, 8]
      [({ id := 3, keyframes := [{ relativePosition := some 0 }, { relativePosition := some 130 },
          { relativePosition := some 300, frequencyModulation := some 60 }] } : Effect),
       { position := 300, keyframes := [{ relativePosition := some 5 }] },
       { id := 8, position := 400, effectType := EffectType.Reference }]).1
      = [({ id := 3, keyframes := [{ relativePosition := some 0 }, { relativePosition := some 130 },
          { relativePosition := some 300, frequencyModulation := some 60 }] } : Effect),
       { id := 9, position := 300, keyframes := [{ relativePosition := some 5 }] },
       { id := 8, position := 400, effectType := EffectType.Reference }] := rfl
  simp only [hass]
  refine ⟨.inr (.inr rfl), ⟨by decide, ?_, ?_, ?_, ?_⟩, ?_, ?_, ?_, ?_⟩
  · simp [TimeOrdered]
  · simp [EffectType.Basis, EffectType.Reference]
  · simp
  · simp
  · simp [DistinctIds]
  · have hk : ∀ (p : Int) (f : Option Int), U 16 p → (∀ v ∈ f, U 16 v) →
        Keyframe.DataFits BandType.VectorialWave { relativePosition := some p, frequencyModulation := f } :=
      fun p f hp hf => ⟨⟨p, rfl, hp⟩, hf, fun h => absurd h (by decide), fun h => absurd h (by decide)⟩
    intro e he
    simp only [List.mem_cons, List.not_mem_nil, or_false] at he
    rcases he with rfl | rfl | rfl
    · refine ⟨by simp [U], .inl rfl, by simp, by simp, by simp, ?_⟩
      intro k hk'
      simp only [List.mem_cons, List.not_mem_nil, or_false] at hk'
      rcases hk' with rfl | rfl | rfl
      · exact hk _ _ (by simp [U]) (by simp)
      · exact hk _ _ (by simp [U]) (by simp)
      · exact hk _ _ (by simp [U]) (by simp [U])
    · refine ⟨by simp [U], .inl rfl, by simp, by simp, by simp, ?_⟩
      intro k hk'
      simp only [List.mem_cons, List.not_mem_nil, or_false] at hk'
      subst hk'
      exact hk _ _ (by simp [U]) (by simp)
    · exact ⟨by simp [U], .inr rfl, by simp, by simp, by simp, by simp⟩
  · simp [Effect.eventTimes, Effect.timeOf, EffectType.Basis, EffectType.Reference]
  · simp
    omega

end Haptics
