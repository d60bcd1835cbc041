import Verif.Stream.SpecSizes
import Verif.Stream.PropsStream

/-
How long the packets of a stream are.
-/
namespace Haptics

theorem writeFloatNBits_length (n : Nat) (v mn mx : ℚ) : (writeFloatNBits n v mn mx).length = n :=
  writeNBits_length _ _

theorem strBits_length (s : List UInt8) : (strBits s).length = 8 * s.length := by
  induction s with
  | nil => rfl
  | cons b s ih =>
    show (byteBits b ++ strBits s).length = _
    rw [List.length_append, ih, byteBits_length, List.length_cons]; omega

theorem wOptF_length (n : Nat) (mn mx : ℚ) (x : Option ℚ) : (wOptF n mn mx x).length ≤ n := by
  cases x with
  | none => exact Nat.zero_le _
  | some v => exact (writeFloatNBits_length n v mn mx).le

theorem wOptI_length (n : Nat) (x : Option Int) : (wOptI n x).length ≤ n := by
  cases x with
  | none => exact Nat.zero_le _
  | some v => exact (writeNBits_length n v).le

theorem wOptN_length (n : Nat) (x : Option Nat) : (wOptN n x).length ≤ n := by
  cases x with
  | none => exact Nat.zero_le _
  | some v => exact (writeNBits_length n v).le

theorem wStr8_length (s : Str) : (wStr8 s).length = 8 + 8 * s.length := by
  rw [wStr8, List.length_append, writeNBits_length, strBits_length]

theorem wList_length {α : Type} {w : α → Except Err Bits} {cost : α → Nat} {l : List α}
    (h : ∀ a ∈ l, ∀ b, w a = .ok b → b.length ≤ cost a) {b : Bits} (hb : wList w l = .ok b) :
    b.length ≤ (l.map cost).sum := by
  induction l generalizing b with
  | nil => cases hb; exact Nat.zero_le _
  | cons a l ih =>
    rw [wList] at hb
    split at hb
    · cases hb
    · rename_i x hx
      split at hb
      · cases hb
      · rename_i y hy
        cases hb
        have h1 := h a List.mem_cons_self x hx
        have h2 := ih (fun a ha => h a (List.mem_cons_of_mem _ ha)) hy
        rw [List.length_append, List.map_cons, List.sum_cons]
        omega

theorem writeSemantic_length {s : Option String} {b : Bits} (h : writeSemantic s = .ok b) : b.length ≤ 17 := by
  unfold writeSemantic at h
  split at h
  · cases h; simp
  · split at h
    · cases h
    · cases h
      simp only [List.length_append, writeNBits_length]; decide

/-! ### Data -/

theorem writeKeyframe_length {bandType : Nat} {k : Keyframe} {b : Bits} (h : writeKeyframe bandType k = .ok b) :
    b.length ≤ 42 := by
  unfold writeKeyframe at h
  split at h
  · unfold writeTransient at h
    split at h
    · cases h
      simp only [List.length_append, writeNBits_length, writeFloatNBits_length]; decide
    · cases h
  · split at h
    · unfold writeCurve at h
      split at h
      · cases h
        simp only [List.length_append, writeNBits_length, writeFloatNBits_length]; decide
      · cases h
    · split at h
      · unfold writeVectorial at h
        split at h
        · cases h
        · cases h
          have h1 := wOptF_length KEYFRAME_AMPLITUDE (-MAX_AMPLITUDE) MAX_AMPLITUDE k.amplitudeModulation
          have h2 := wOptI_length KEYFRAME_FREQUENCY k.frequencyModulation
          simp only [List.length_append, writeNBits_length, KEYFRAME_VECTORIAL_MASK, KEYFRAME_POSITION,
            KEYFRAME_AMPLITUDE, KEYFRAME_FREQUENCY] at h1 h2 ⊢
          omega
      · cases h; exact Nat.zero_le _

theorem sum_const {α : Type} (l : List α) (n : Nat) : (l.map (fun _ => n)).sum = n * l.length := by
  induction l with
  | nil => rfl
  | cons a l ih => rw [List.map_cons, List.sum_cons, ih, List.length_cons]; ring

theorem dataKeyframes_length {bandType : Nat} {e : Effect} {b : Bits} (h : dataKeyframes bandType e = .ok b) :
    b.length ≤ if e.effectType = EffectType.Basis then 42 * e.keyframes.length else 0 := by
  unfold dataKeyframes at h
  split
  · rename_i ht
    rw [if_pos ht] at h
    have := wList_length (cost := fun _ => 42) (fun k _ b hb => writeKeyframe_length hb) h
    rwa [sum_const] at this
  · rename_i ht
    rw [if_neg ht] at h
    cases h; exact Nat.zero_le _

theorem writeWave_length (bandType : Nat) (e : Effect) : (writeWave bandType e).length ≤ 20 := by
  unfold writeWave
  split
  · simp only [List.length_append, writeNBits_length, writeFloatNBits_length]; decide
  · exact Nat.zero_le _

theorem writeEffect_length {bandType : Nat} {time : Int} {e : Effect} {n : Nat} {kb b : Bits}
    (h : writeEffect bandType time e n kb = .ok b) : b.length ≤ 96 + kb.length := by
  unfold writeEffect at h
  have h1 := writeWave_length bandType e
  dsimp only at h
  split at h
  · split at h
    · cases h
    · rename_i sem hsem
      cases h
      have h2 := writeSemantic_length hsem
      simp only [List.length_append, writeNBits_length, EFFECT_ID, EFFECT_TYPE, EFFECT_POSITION,
        EFFECT_KEYFRAME_COUNT]
      omega
  · cases h
    simp only [List.length_append, writeNBits_length, EFFECT_ID, EFFECT_TYPE, EFFECT_POSITION]
    omega

/-- The size of a packet, from the number of its events. -/
theorem SentAs.length_le {bandType : Nat} {addr : Address} {b : Bits} {w : Int × List Effect}
    (h : SentAs bandType addr b w) (hne : ∀ e ∈ w.2, e.eventTimes ≠ []) :
    b.length ≤ 81 + 138 * (w.2.flatMap Effect.eventTimes).length := by
  obtain ⟨a, h1, -, hw⟩ := h
  unfold writePayloadPacket at hw
  split at hw
  · cases hw
  rename_i x hx
  cases hw
  have key : ∀ (xs : List Entry) (es : List Effect), List.Forall₂ (Entry.Of bandType) xs es →
      (∀ e ∈ es, e.eventTimes ≠ []) → ∀ x, writeEntries bandType w.1 xs = .ok x →
      x.length ≤ 138 * (es.flatMap Effect.eventTimes).length := by
    intro xs es hf
    induction hf with
    | nil => intro _ x hx; cases hx; exact Nat.zero_le _
    | @cons y e xs es hy hrest ih =>
      intro hne x hx
      unfold writeEntries at hx ih
      rw [wList] at hx
      split at hx
      · cases hx
      rename_i x1 hx1
      split at hx
      · cases hx
      rename_i x2 hx2
      cases hx
      have i1 := ih (fun e he => hne e (List.mem_cons_of_mem _ he)) x2 hx2
      have i2 := writeEffect_length hx1
      have i3 := dataKeyframes_length hy.bits
      have i4 : 0 < e.eventTimes.length := List.length_pos_iff.mpr (hne e List.mem_cons_self)
      have i5 : y.bits.length ≤ 42 * e.eventTimes.length := by
        unfold Effect.eventTimes
        split at i3
        · rename_i ht
          rw [if_pos ht, List.length_map]; exact i3
        · omega
      rw [List.flatMap_cons, List.length_append, List.length_append]
      omega
  have := key a.entries w.2 h1 hne x hx
  simp only [List.length_append, writeNBits_length, writeEffectHeader]
  simp only [DB_DURATION, DB_AU_TYPE, MDPERCE_ID, MDCHANNEL_ID, MDBAND_ID, DB_EFFECT_COUNT]
  omega

/-- The events of a window. -/
theorem windowOf_times (lo hi : Int) (F : List Effect) : (windowOf lo hi F).flatMap Effect.eventTimes
    = (F.flatMap Effect.eventTimes).filter (fun t => decide (lo ≤ t ∧ t < hi)) := by
  induction F with
  | nil => rfl
  | cons e F ih =>
    have hs : e.occursIn lo hi = true → (e.slice lo hi).eventTimes
        = e.eventTimes.filter (fun t => decide (lo ≤ t ∧ t < hi)) := by
      intro ho
      unfold Effect.slice
      split
      · rename_i ht
        have ht2 : ({ e with keyframes := e.keyframes.filter (fun k => decide (lo ≤ e.timeOf k ∧ e.timeOf k < hi)) }
          : Effect).effectType = EffectType.Basis := ht
        unfold Effect.eventTimes
        rw [if_pos ht, if_pos ht2, List.filter_map]
        rfl
      · rename_i ht
        unfold Effect.occursIn at ho
        unfold Effect.eventTimes at ho ⊢
        rw [if_neg ht] at ho ⊢
        rw [List.any_cons, List.any_nil, Bool.or_false] at ho
        rw [List.filter_cons, if_pos ho, List.filter_nil]
    unfold windowOf at ih ⊢
    rw [List.flatMap_cons, List.filter_append]
    by_cases ho : e.occursIn lo hi = true
    · rw [List.filter_cons_of_pos ho, List.map_cons, List.flatMap_cons, ih, hs ho]
    · rw [List.filter_cons_of_neg ho, ih]
      have : e.eventTimes.filter (fun t => decide (lo ≤ t ∧ t < hi)) = [] := by
        rw [List.filter_eq_nil_iff]
        intro t ht h
        exact ho (List.any_eq_true.mpr ⟨t, ht, h⟩)
      rw [this, List.nil_append]

theorem windowOf_filled (lo hi : Int) (F : List Effect) : ∀ e ∈ windowOf lo hi F, e.eventTimes ≠ [] := by
  intro e he h
  unfold windowOf at he
  obtain ⟨x, hx, rfl⟩ := List.mem_map.mp he
  obtain ⟨hx1, hx2⟩ := List.mem_filter.mp hx
  have h1 := windowOf_times lo hi [x]
  unfold windowOf at h1
  rw [List.filter_cons_of_pos hx2, List.filter_nil, List.map_cons, List.map_nil] at h1
  simp only [List.flatMap_cons, List.flatMap_nil, List.append_nil] at h1
  rw [h] at h1
  obtain ⟨t, ht, hb⟩ := List.any_eq_true.mp hx2
  have : t ∈ x.eventTimes.filter (fun t => decide (lo ≤ t ∧ t < hi)) := List.mem_filter.mpr ⟨ht, hb⟩
  rw [← h1] at this
  cases this

theorem eventsIn_add (F : List Effect) {a b c : Int} (h : a ≤ b) (h' : b ≤ c) :
    eventsIn a b F + eventsIn b c F = eventsIn a c F := by
  unfold eventsIn
  generalize F.flatMap Effect.eventTimes = l
  induction l with
  | nil => rfl
  | cons t l ih =>
    simp only [List.filter_cons, decide_eq_true_eq]
    split_ifs <;> (try simp only [List.length_cons]) <;> omega

theorem packetsOf_events (d : Nat) (F : List Effect) (n : Nat) (time : Int) :
    ((packetsOf d F n time).map (fun w => (w.2.flatMap Effect.eventTimes).length)).sum
      = eventsIn time (time + n * d) F := by
  induction n generalizing time with
  | zero =>
    unfold eventsIn
    rw [List.filter_eq_nil_iff.mpr]
    · rfl
    · intro t _; simp only [decide_eq_true_eq]; omega
  | succ n ih =>
    have h0 := ih (time + d)
    have h1 : eventsIn time (time + d) F = ((windowOf time (time + d) F).flatMap Effect.eventTimes).length := by
      rw [windowOf_times]; rfl
    have h2 := eventsIn_add F (a := time) (b := time + d) (c := time + d + n * d) (by omega)
      (by have : (0 : Int) ≤ n * d := by positivity
          omega)
    have h3 : time + ((n + 1 : Nat) : Int) * d = time + d + n * d := by push_cast; ring
    rw [h3, ← h2]
    unfold packetsOf at h0 ⊢
    rw [windows, List.filter_cons]
    split
    · rw [List.map_cons, List.sum_cons, h0, h1]
    · rename_i hw
      rw [h0]
      have : windowOf time (time + d) F = [] := by simpa using hw
      rw [h1, this]; simp

theorem eventsIn_le (F : List Effect) (a b : Int) : eventsIn a b F ≤ (F.flatMap Effect.eventTimes).length :=
  List.length_filter_le _ _

theorem writeData_length (b : Bits) : (writePacket PacketType.Data b).length ≤ b.length + 31 := by
  rw [writePacket, padToByteBoundary_eq, fillBitset_length, List.length_append, writePacketHeader_length]
  omega

theorem filled_length {es : List Effect} (hne : es ≠ []) (h : ∀ e ∈ es, e.eventTimes ≠ []) :
    0 < (es.flatMap Effect.eventTimes).length := by
  cases es with
  | nil => exact absurd rfl hne
  | cons e es =>
    rw [List.flatMap_cons, List.length_append]
    have := List.length_pos_iff.mpr (h e List.mem_cons_self)
    omega

theorem SentBlock.length_le {addr : Address} {b : Bits} {w : Int × List Effect} (h : SentBlock addr b w) :
    (writePacket PacketType.Data b).length ≤ 8 * (w.2.map (fun e => e.waveletBitstream.length + 24)).sum := by
  obtain ⟨e, rfl, hw⟩ := h
  unfold writeWaveletPayloadPacket at hw
  split at hw
  · cases hw
  · rename_i sem hsem
    have h1 := writeSemantic_length hsem
    have h2 := writeData_length b
    rw [← Except.ok.inj hw] at h2 ⊢
    simp only [List.length_append, writeNBits_length, writeEffectHeader, writeWaveletBytes, strBits_length] at h2
    simp only [DB_DURATION, DB_AU_TYPE, MDPERCE_ID, MDCHANNEL_ID, MDBAND_ID, DB_EFFECT_COUNT, EFFECT_ID, EFFECT_TYPE,
      EFFECT_WAVELET_SIZE] at h2
    simp only [List.map_cons, List.map_nil, List.sum_cons, List.sum_nil]
    refine h2.trans ?_
    omega

/-- Events of a packet that does not carry a block. -/
def eventCost (o : AddressedBand × (Int × List Effect)) : Nat :=
  if o.1.band.bandType = BandType.WaveletWave then 0 else (o.2.2.flatMap Effect.eventTimes).length

/-- Bytes of a packet that carries a block. -/
def blockCost (o : AddressedBand × (Int × List Effect)) : Nat :=
  if o.1.band.bandType = BandType.WaveletWave then (o.2.2.map (fun e => e.waveletBitstream.length + 24)).sum else 0

/-- Data packets are small. -/
theorem data_small {d : Nat} {xs : List AddressedBand} {out : List Bits}
    {ops : List (AddressedBand × (Int × List Effect))} (hso : List.Forall₂ SentFor out ops)
    (hm : ops.Perm (allSendings d xs)) (hd : ∀ x ∈ xs, ∀ t, eventsIn t (t + d) x.band.effects ≤ 7000)
    (he : ((xs.map (fun x => (x.band.effects.flatMap Effect.eventTimes).length)).sum) ≤ 4000000)
    (hb : ∀ x ∈ xs, x.band.bandType = BandType.WaveletWave → ∀ e ∈ x.band.effects, e.waveletBitstream.length < 65536)
    (ht : (((xs.map (·.band)).filter (fun b => b.bandType = BandType.WaveletWave)).flatMap (·.effects) |>.map
      (fun e => e.waveletBitstream.length + 24)).sum ≤ 9000000) :
    SmallPackets (out.map (writePacket PacketType.Data)) := by
  have hop : ∀ o ∈ ops, ∃ x ∈ xs, o.2 ∈ bandSendings d x.band ∧ o.1 = x := by
    intro o ho
    have h1 := hm.mem_iff.mp ho
    unfold allSendings at h1
    obtain ⟨x, hx, h2⟩ := List.mem_flatMap.mp h1
    obtain ⟨w, hw, rfl⟩ := List.mem_map.mp h2
    exact ⟨x, hx, hw, rfl⟩
  have hlen : ∀ b o, SentFor b o → o ∈ ops → (writePacket PacketType.Data b).length
      ≤ 250 * eventCost o + 8 * blockCost o ∧ (writePacket PacketType.Data b).length < 2 ^ 20 := by
    intro b o hbo ho
    obtain ⟨x, hx, hw, hxo⟩ := hop o ho
    unfold eventCost blockCost
    by_cases hbt : o.1.band.bandType = BandType.WaveletWave
    · rw [if_pos hbt, if_pos hbt]
      have h1 := ((sentFor_blocks hbt).mp hbo).length_le
      refine ⟨by omega, ?_⟩
      rw [hxo] at hbt
      rw [bandSendings, if_pos hbt] at hw
      obtain ⟨e, he, hwe⟩ := List.mem_map.mp hw
      have h2 := hb x hx hbt e he
      rw [← hwe] at h1
      simp only [List.map_cons, List.map_nil, List.sum_cons, List.sum_nil] at h1
      omega
    · rw [if_neg hbt, if_neg hbt]
      have hbo := (sentFor_keyframes hbt).mp hbo
      rw [bandSendings, if_neg (by rw [← hxo]; exact hbt)] at hw
      obtain ⟨w2, w1, -⟩ := packetsOf_mem hw
      have hfill : ∀ e ∈ o.2.2, e.eventTimes ≠ [] := by rw [w1]; exact windowOf_filled _ _ _
      have h1 := SentAs.length_le hbo hfill
      have h2 := writeData_length b
      have h3 := hd x hx o.2.1
      have h4 : (o.2.2.flatMap Effect.eventTimes).length = eventsIn o.2.1 (o.2.1 + d) x.band.effects := by
        rw [w1, windowOf_times]; rfl
      have h5 := filled_length w2 hfill
      omega
  constructor
  · intro p hp
    obtain ⟨b, hb, rfl⟩ := List.mem_map.mp hp
    obtain ⟨o, ho, hbo⟩ := forall₂_mem hso hb
    exact (hlen b o hbo ho).2
  · have h1 : (out.map (writePacket PacketType.Data)).flatten.length
        ≤ 250 * (ops.map eventCost).sum + 8 * (ops.map blockCost).sum := by
      clear hm hop
      induction hso with
      | nil => exact Nat.zero_le _
      | @cons b o out ops hbo hrest ih =>
        have i1 := ih (fun b o hbo ho => hlen b o hbo (List.mem_cons_of_mem _ ho))
        obtain ⟨i2, -⟩ := hlen b o hbo List.mem_cons_self
        rw [List.map_cons, List.flatten_cons, List.length_append, List.map_cons, List.sum_cons, List.map_cons,
          List.sum_cons]
        omega
    have h2 : (ops.map eventCost).sum = ((allSendings d xs).map eventCost).sum := (hm.map _).sum_eq
    have h2' : (ops.map blockCost).sum = ((allSendings d xs).map blockCost).sum := (hm.map _).sum_eq
    have h3 : ((allSendings d xs).map eventCost).sum
        ≤ (xs.map (fun x => (x.band.effects.flatMap Effect.eventTimes).length)).sum := by
      clear hm hop hlen h1 h2 hso hd he h2' ht hb
      induction xs with
      | nil => exact Nat.zero_le _
      | cons x xs ih =>
        unfold allSendings at ih ⊢
        rw [List.flatMap_cons, List.map_append, List.sum_append, List.map_cons, List.sum_cons, List.map_map]
        refine Nat.add_le_add ?_ ih
        by_cases hbt : x.band.bandType = BandType.WaveletWave
        · have e : eventCost ∘ (fun w => (x, w)) = fun _ => 0 := by
            funext w; simp only [Function.comp, eventCost, if_pos hbt]
          rw [e]
          simp
        · have e : eventCost ∘ (fun w => (x, w)) = fun w => (w.2.flatMap Effect.eventTimes).length := by
            funext w; simp only [Function.comp, eventCost, if_neg hbt]
          rw [e, bandSendings, if_neg hbt]
          have h4 := packetsOf_events d x.band.effects (2 ^ 24) 0
          have h5 := eventsIn_le x.band.effects 0 (0 + ((2 ^ 24 : Nat) : Int) * d)
          unfold sendings
          rw [h4]
          exact h5
    have h3' : ((allSendings d xs).map blockCost).sum
        = (((xs.map (·.band)).filter (fun b => b.bandType = BandType.WaveletWave)).flatMap (·.effects) |>.map
            (fun e => e.waveletBitstream.length + 24)).sum := by
      clear hm hop hlen h1 h2 hso hd he h2' ht hb h3
      induction xs with
      | nil => rfl
      | cons x xs ih =>
        unfold allSendings at ih ⊢
        rw [List.flatMap_cons, List.map_append, List.sum_append, List.map_map, ih, List.map_cons, List.filter_cons]
        by_cases hbt : x.band.bandType = BandType.WaveletWave
        · have e : blockCost ∘ (fun w => (x, w)) = fun w => (w.2.map (fun e => e.waveletBitstream.length + 24)).sum := by
            funext w; simp only [Function.comp, blockCost, if_pos hbt]
          rw [e, if_pos (by simpa using hbt), List.flatMap_cons, List.map_append, List.sum_append, bandSendings,
            if_pos hbt, List.map_map]
          congr 2
        · have e : blockCost ∘ (fun w => (x, w)) = fun _ => 0 := by
            funext w; simp only [Function.comp, blockCost, if_neg hbt]
          rw [e, if_neg (by simpa using hbt)]
          simp
    omega

/-! ### Metadata -/

theorem flatMap_length_le {α β : Type} {f : α → List β} {l : List α} {n : Nat} (h : ∀ a ∈ l, (f a).length ≤ n) :
    (l.flatMap f).length ≤ n * l.length := by
  induction l with
  | nil => exact Nat.zero_le _
  | cons a l ih =>
    rw [List.flatMap_cons, List.length_append, List.length_cons, Nat.mul_add]
    have h1 := h a List.mem_cons_self
    have h2 := ih (fun a ha => h a (List.mem_cons_of_mem _ ha))
    omega

theorem le_flatMap_length {α β : Type} {f : α → List β} {l : List α} (h : ∀ a ∈ l, f a ≠ []) :
    l.length ≤ (l.flatMap f).length := by
  induction l with
  | nil => exact Nat.zero_le _
  | cons a l ih =>
    rw [List.flatMap_cons, List.length_append, List.length_cons]
    have h1 := List.length_pos_iff.mpr (h a List.mem_cons_self)
    have h2 := ih (fun a ha => h a (List.mem_cons_of_mem _ ha))
    omega

theorem packetOf_length (t : Nat) (b : Bits) : (packetOf t b).encode.length ≤ b.length + 31 := by
  have h : (packetOf t b).payload.length = 8 * ((b.length + 7) / 8) := fillBitset_length b
  rw [Packet.encode_length, h]; omega

theorem writeAvatar_length {a : Avatar} (h : a.Fits) {b : Bits} (hb : writeAvatar a = .ok b) : b.length ≤ 2100 := by
  unfold writeAvatar at hb
  dsimp only at hb
  split at hb
  · rename_i ht
    obtain ⟨m, hm, hl⟩ := h.mesh ht
    rw [hm] at hb
    cases hb
    simp only [List.length_append, writeNBits_length, strBits_length, AVATAR_ID, AVATAR_LOD, AVATAR_TYPE,
      AVATAR_MESH_COUNT]
    omega
  · cases hb
    simp only [List.length_append, writeNBits_length]; decide

theorem writeMetadataHaptics_length_le {h : Experience} (hf : h.HeaderFits) {b : Bits}
    (hb : writeMetadataHaptics h = .ok b) : b.length ≤ 1000000 := by
  unfold writeMetadataHaptics at hb
  split at hb
  · cases hb
  rename_i av hav
  cases hb
  have h1 := wList_length (cost := fun _ => 2100) (fun a ha b hb => writeAvatar_length (hf.avatars a ha) hb) hav
  rw [sum_const] at h1
  obtain ⟨q1, q2, -, q4, q5, q6, -⟩ := hf
  simp only [List.length_append, writeNBits_length, wStr8_length, MDEXP_LEVEL, MDEXP_PERC_COUNT, MDEXP_AVATAR_COUNT]
  omega

theorem append_length_le {a b : Bits} {m n : Nat} (ha : a.length ≤ m) (hb : b.length ≤ n) : (a ++ b).length ≤ m + n := by
  rw [List.length_append]; exact Nat.add_le_add ha hb

theorem writeReferenceDevice_length {d : ReferenceDevice} (h : d.Fits) : (writeReferenceDevice d).length ≤ 2500 := by
  have hn : (strBits d.name).length ≤ 2040 := by
    have := h.name
    rw [strBits_length]; omega
  refine (append_length_le (writeNBits_length _ _).le (append_length_le (writeNBits_length _ _).le (append_length_le hn
    (append_length_le (writeNBits_length _ _).le (append_length_le (n := 356) (le_refl 12) ?_))))).trans (by decide)
  have o := wOptF_length
  exact (append_length_le (o _ _ _ _) (append_length_le (o _ _ _ _) (append_length_le (o _ _ _ _) (append_length_le (o _ _ _ _)
    (append_length_le (o _ _ _ _) (append_length_le (o _ _ _ _) (append_length_le (o _ _ _ _) (append_length_le (o _ _ _ _)
    (append_length_le (o _ _ _ _) (append_length_le (o _ _ _ _) (append_length_le (o _ _ _ _) (wOptN_length _ _)))))))))))).trans (by decide)

theorem writeScheme_length {s : Option Str} (h : ∀ x ∈ s, x.length < 256) : (writeScheme s).length ≤ 2100 := by
  cases s with
  | none => simp [writeScheme]
  | some x =>
    have := h x rfl
    simp only [writeScheme, List.length_append, writeNBits_length, strBits_length, MDPERCE_FLAG_SEMANTIC,
      MDPERCE_SCHEME_LENGTH]
    omega

theorem writeMetadataPerception_length {p : Perception} (h : p.HeaderFits) :
    (writeMetadataPerception p).length ≤ 1000000 := by
  have h1 := flatMap_length_le (f := writeReferenceDevice) (n := 2500)
    (fun d hd => writeReferenceDevice_length (h.devices d hd))
  have h2 := writeScheme_length h.scheme
  have h3 := h.description
  have h4 := h.deviceCount
  unfold writeMetadataPerception
  simp only [List.length_append, writeNBits_length, strBits_length]
  simp only [MDPERCE_ID, MDPERCE_PRIORITY, MDPERCE_DESC_SIZE, MDPERCE_MODALITY, AVATAR_ID, MDPERCE_LIBRARY_COUNT,
    MDPERCE_UNIT_EXP, MDPERCE_PERCE_UNIT_EXP, MDPERCE_REFDEVICE_COUNT, MDPERCE_CHANNEL_COUNT]
  omega

theorem writeVector_length (v : Vector3) : (writeVector v).length = 24 := by
  simp [writeVector]

theorem writeBodyParts_length (c : Channel) : (writeBodyParts c).length ≤ 8300 := by
  unfold writeBodyParts
  split
  · rw [writeNBits_length]; decide
  · dsimp only
    generalize c.bodyPartTarget.getD [] = bpt
    generalize c.actuatorTarget.getD [] = act
    have h1 := flatMap_length_le (f := fun t : Nat => writeNBits MDCHANNEL_BODY_PART_TARGET (t : Nat)) (n := 8)
      (l := bpt.take (bpt.length % 256)) (fun t _ => by rw [writeNBits_length])
    have h2 := flatMap_length_le (f := writeVector) (n := 24) (l := act.take (act.length % 256))
      (fun t _ => by rw [writeVector_length])
    rw [List.length_take] at h1 h2
    simp only [List.length_append, writeNBits_length, writeVector_length]
    simp only [MDCHANNEL_BODY_PART_TARGET_COUNT, MDCHANNEL_ACTUATOR_TARGET_COUNT] at *
    omega

theorem writeSampling_length (c : Channel) : (writeSampling c).length ≤ 64 := by
  unfold writeSampling
  split <;> simp [MDCHANNEL_FREQ_SAMPLING, MDCHANNEL_SAMPLE_COUNT]

theorem writeDirection_length (c : Channel) : (writeDirection c).length ≤ 24 := by
  unfold writeDirection
  split <;> simp [MDCHANNEL_DIRECTION_AXIS]

theorem writeMetadataChannel_length {c : Channel} (h : c.HeaderFits) (hv : c.vertices.length ≤ 30000) (i : Int) :
    (writeMetadataChannel i c).length ≤ 1000000 := by
  have h1 := flatMap_length_le (f := fun v => writeNBits MDCHANNEL_VERT v) (n := 32) (l := c.vertices)
    (fun v _ => by rw [writeNBits_length])
  have h2 := writeBodyParts_length c
  have h3 := writeSampling_length c
  have h4 := writeDirection_length c
  have h5 := h.description
  unfold writeMetadataChannel
  simp only [List.length_append, writeNBits_length, writeFloatNBits_length, strBits_length]
  simp only [MDCHANNEL_ID, MDPERCE_ID, MDCHANNEL_PRIORITY, MDPERCE_DESC_SIZE, REFDEV_ID, MDCHANNEL_GAIN,
    MDCHANNEL_MIXING_WEIGHT, MDCHANNEL_OPT_FIELDS, MDCHANNEL_VERT_COUNT, MDCHANNEL_BANDS_COUNT]
  omega

theorem writeMetadataBand_length_le (x y z : Int) (b : Band) : (writeMetadataBand x y z b).length ≤ 1000 := by
  have h : (writeBandParam b).length ≤ 100 := by
    unfold writeBandParam
    split
    · rw [writeNBits_length]; decide
    · split
      · rw [writeNBits_length]; decide
      · exact Nat.zero_le _
  unfold writeMetadataBand
  simp only [List.length_append, writeNBits_length]
  simp only [MDBAND_ID, MDPERCE_ID, MDCHANNEL_ID, MDBAND_PRIORITY, MDBAND_BAND_TYPE, MDBAND_LOW_FREQ, MDBAND_UP_FREQ,
    MDBAND_EFFECT_COUNT]
  omega

/-! ### Library -/

theorem writeLibKeyframe_length (k : Keyframe) : (writeLibKeyframe k).length ≤ 50 := by
  have h1 := wOptI_length KEYFRAME_POSITION k.relativePosition
  have h2 := wOptF_length KEYFRAME_AMPLITUDE (-MAX_AMPLITUDE) MAX_AMPLITUDE k.amplitudeModulation
  have h3 := wOptI_length KEYFRAME_POSITION k.frequencyModulation
  unfold writeLibKeyframe
  simp only [List.length_append, writeNBits_length]
  simp only [KEYFRAME_MASK, KEYFRAME_POSITION, KEYFRAME_AMPLITUDE] at *
  omega

theorem writeLibHead_length (e : Effect) {sem : Bits} (h : sem.length ≤ 17) :
    (writeLibHead e sem).length ≤ 115 + 50 * e.keyframes.length := by
  have h1 := flatMap_length_le (f := writeLibKeyframe) (n := 50) (l := e.keyframes)
    (fun k _ => writeLibKeyframe_length k)
  have h2 : (writeLibBasis e).length ≤ 20 := by
    unfold writeLibBasis
    split
    · simp only [List.length_append, writeNBits_length, writeFloatNBits_length]; decide
    · exact Nat.zero_le _
  unfold writeLibHead
  simp only [List.length_append, writeNBits_length]
  simp only [EFFECT_ID, EFFECT_TYPE, EFFECT_POSITION_STREAMING, EFFECT_KEYFRAME_COUNT, EFFECT_TIMELINE_COUNT]
  omega

mutual
theorem writeLibraryEffect_length : ∀ (e : Effect) (b : Bits), writeLibraryEffect e = .ok b →
    b.length ≤ 115 * e.weight
  | ⟨id, position, phase, semantic, keyframes, baseSignal, effectType, timeline, wav⟩, b, hb => by
    rw [writeLibraryEffect] at hb
    split at hb
    · cases hb
    rename_i sem hsem
    split at hb
    · cases hb
    rename_i tl htl
    cases hb
    have h1 := writeLibraryEffects_length timeline _ tl htl
    have h2 := writeLibHead_length
      ⟨id, position, phase, semantic, keyframes, baseSignal, effectType, timeline, wav⟩ (writeSemantic_length hsem)
    rw [List.length_append, Effect.weight]
    dsimp only at h2
    omega

theorem writeLibraryEffects_length : ∀ (l : List Effect) (n : Nat) (b : Bits), writeLibraryEffects n l = .ok b →
    b.length ≤ 115 * weightAll l
  | [], 0, b, hb => by rw [writeLibraryEffects] at hb; cases hb; exact Nat.zero_le _
  | [], _ + 1, b, hb => by rw [writeLibraryEffects] at hb; cases hb; exact Nat.zero_le _
  | _ :: _, 0, b, hb => by rw [writeLibraryEffects] at hb; cases hb; exact Nat.zero_le _
  | e :: l, n + 1, b, hb => by
    rw [writeLibraryEffects] at hb
    split at hb
    · cases hb
    rename_i x hx
    split at hb
    · cases hb
    rename_i r hr
    cases hb
    have h1 := writeLibraryEffect_length e x hx
    have h2 := writeLibraryEffects_length l n r hr
    rw [List.length_append, weightAll]
    omega
end

theorem weightAll_sum (l : List Effect) : weightAll l = (l.map Effect.weight).sum := by
  induction l with
  | nil => rfl
  | cons e l ih => rw [weightAll, ih, List.map_cons, List.sum_cons]

theorem writeLibrary_length {p : Perception} {b : Bits} (hb : writeLibrary p = .ok b)
    (h : weightAll p.effectLibrary ≤ 9000) : b.length ≤ 1040000 := by
  unfold writeLibrary at hb
  split at hb
  · cases hb
  rename_i x hx
  cases hb
  have h1 := wList_length (cost := fun e => 115 * e.weight) (fun e _ b hb => writeLibraryEffect_length e b hb) hx
  have h2 : (p.effectLibrary.map (fun e => 115 * e.weight)).sum = 115 * weightAll p.effectLibrary := by
    rw [weightAll_sum]
    generalize p.effectLibrary = l
    induction l with
    | nil => rfl
    | cons e l ih => rw [List.map_cons, List.sum_cons, ih, List.map_cons, List.sum_cons, Nat.mul_add]
  rw [h2] at h1
  simp only [List.length_append, writeNBits_length, MDPERCE_ID, MDPERCE_LIBRARY_COUNT]
  omega

theorem libPackets_small : ∀ ps : List Perception, (∀ p ∈ ps, weightAll p.effectLibrary ≤ 9000) →
    (libPackets ps).length ≤ ps.length ∧ ∀ q ∈ libPackets ps, q.encode.length < 2 ^ 20
  | [], _ => ⟨Nat.zero_le _, fun q hq => by cases hq⟩
  | p :: ps, h => by
    obtain ⟨i1, i2⟩ := libPackets_small ps (fun p hp => h p (List.mem_cons_of_mem _ hp))
    rw [libPackets, List.length_cons]
    split
    · exact ⟨by omega, i2⟩
    · cases hw : writeLibrary p with
      | error e => exact ⟨by simpa using Nat.le_succ_of_le i1, by simpa using i2⟩
      | ok b =>
        refine ⟨by simpa using i1, fun q hq => ?_⟩
        rcases List.mem_append.mp hq with hq | hq
        · rw [List.mem_singleton.mp hq]
          have h1 := writeLibrary_length hw (h p List.mem_cons_self)
          have h2 := packetOf_length PacketType.EffectLibrary b
          omega
        · exact i2 q hq

theorem flatten_small {ps : List Bits} {n : Nat} (h : ∀ p ∈ ps, p.length ≤ n) : ps.flatten.length ≤ n * ps.length := by
  have := flatMap_length_le (f := fun p : Bits => p) h
  rwa [List.flatMap_id'] at this

theorem triples_length (g : Experience) : (triples g.perceptions).length = g.allBands.length := by
  unfold triples Experience.allBands
  simp only [List.length_flatMap, List.length_map]

theorem numbered_length (l : List (Perception × Channel × Band)) : ∀ n, (numbered n l).length = l.length := by
  induction l with
  | nil => intro n; rfl
  | cons x l ih => intro n; rw [numbered, List.length_cons, ih, List.length_cons]

/-- Metadata packets are small. -/
theorem init_small {g : Experience} (hh : g.HeaderFits) (hp : ∀ p ∈ g.perceptions, p.HeaderFits)
    (hc : ∀ p ∈ g.perceptions, ∀ c ∈ p.channels, c.HeaderFits) (hb : g.allBands.length ≤ 256)
    (hne : ∀ p ∈ g.perceptions, p.channels ≠ [] ∧ ∀ c ∈ p.channels, c.bands ≠ [])
    (hv : ∀ p ∈ g.perceptions, ∀ c ∈ p.channels, c.vertices.length ≤ 30000)
    (hl : ∀ p ∈ g.perceptions, weightAll p.effectLibrary ≤ 9000) {b : Bits} (hw : writeMetadataHaptics g = .ok b) :
    SmallPackets ((metadataPackets b g).map Packet.encode) := by
  have c1 : (g.perceptions.flatMap (·.channels)).length ≤ 256 := by
    have h1 := le_flatMap_length (f := fun c : Channel => c.bands) (l := g.perceptions.flatMap (·.channels))
      (fun c hc => by
        obtain ⟨p, hp, hc⟩ := List.mem_flatMap.mp hc
        exact (hne p hp).2 c hc)
    rw [List.flatMap_assoc] at h1
    exact h1.trans hb
  have c2 : g.perceptions.length ≤ 256 :=
    (le_flatMap_length (fun p hp => (hne p hp).1)).trans c1
  have s1 := writeMetadataHaptics_length_le hh hw
  have s1' := packetOf_length PacketType.MetadataHaptics b
  obtain ⟨s3, s4⟩ := libPackets_small g.perceptions hl
  have s2 : ∀ q ∈ g.perceptions.map (fun p => packetOf PacketType.MetadataPerception (writeMetadataPerception p)),
      q.encode.length < 2 ^ 20 := by
    intro q hq
    obtain ⟨p, hpp, rfl⟩ := List.mem_map.mp hq
    have h1 := writeMetadataPerception_length (hp p hpp)
    have h2 := packetOf_length PacketType.MetadataPerception (writeMetadataPerception p)
    omega
  have s5 : ∀ q ∈ g.perceptions.flatMap (fun p => p.channels.map (fun c =>
      packetOf PacketType.MetadataChannel (writeMetadataChannel p.id c))), q.encode.length < 2 ^ 20 := by
    intro q hq
    obtain ⟨p, hpp, hq⟩ := List.mem_flatMap.mp hq
    obtain ⟨c, hcc, rfl⟩ := List.mem_map.mp hq
    have h1 := writeMetadataChannel_length (hc p hpp c hcc) (hv p hpp c hcc) p.id
    have h2 := packetOf_length PacketType.MetadataChannel (writeMetadataChannel p.id c)
    omega
  have s6 : ∀ q ∈ (numbered 0 (triples g.perceptions)).map bandPacketOf, q.encode.length ≤ 1031 := by
    intro q hq
    obtain ⟨x, -, rfl⟩ := List.mem_map.mp hq
    have h1 := writeMetadataBand_length_le x.addr.bandId x.addr.perceId x.addr.channelId x.band
    have h2 := packetOf_length PacketType.MetadataBand
      (writeMetadataBand x.addr.bandId x.addr.perceId x.addr.channelId x.band)
    unfold bandPacketOf
    omega
  have n5 : (g.perceptions.flatMap (fun p => p.channels.map (fun c =>
      packetOf PacketType.MetadataChannel (writeMetadataChannel p.id c)))).length ≤ 256 := by
    simp only [List.length_flatMap, List.length_map] at c1 ⊢
    exact c1
  have n6 : ((numbered 0 (triples g.perceptions)).map bandPacketOf).length ≤ 256 := by
    rw [List.length_map, numbered_length, triples_length]; exact hb
  have n2 : (g.perceptions.map (fun p => packetOf PacketType.MetadataPerception (writeMetadataPerception p))).length
      ≤ 256 := by
    rw [List.length_map]; exact c2
  unfold metadataPackets
  generalize g.perceptions.map (fun p => packetOf PacketType.MetadataPerception (writeMetadataPerception p)) = P2
    at s2 n2 ⊢
  generalize libPackets g.perceptions = P3 at s3 s4 ⊢
  generalize g.perceptions.flatMap (fun p => p.channels.map (fun c =>
      packetOf PacketType.MetadataChannel (writeMetadataChannel p.id c))) = P5 at s5 n5 ⊢
  generalize (numbered 0 (triples g.perceptions)).map bandPacketOf = P6 at s6 n6 ⊢
  have total : ∀ P : List Packet, ∀ m, (∀ q ∈ P, q.encode.length ≤ m) →
      (P.map Packet.encode).flatten.length ≤ m * P.length := by
    intro P m h
    have := flatten_small (ps := P.map Packet.encode) (n := m) (fun x hx => by
      obtain ⟨q, hq, rfl⟩ := List.mem_map.mp hx
      exact h q hq)
    rwa [List.length_map] at this
  constructor
  · intro x hx
    obtain ⟨q, hq, rfl⟩ := List.mem_map.mp hx
    simp only [List.mem_append, List.mem_singleton] at hq
    rcases hq with rfl | hq | hq | hq | hq
    · omega
    · exact s2 q hq
    · exact s4 q hq
    · exact s5 q hq
    · have := s6 q hq; omega
  · simp only [List.map_append, List.flatten_append, List.length_append, List.map_cons, List.map_nil,
      List.flatten_cons, List.flatten_nil, List.append_nil]
    have t2 := total P2 (2 ^ 20) (fun q hq => (s2 q hq).le)
    have t3 := total P3 (2 ^ 20) (fun q hq => (s4 q hq).le)
    have t5 := total P5 (2 ^ 20) (fun q hq => (s5 q hq).le)
    have t6 := total P6 1031 s6
    omega

end Haptics
