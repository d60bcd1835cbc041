import Verif.Stream.PropsPacketize

/-
C19, sending side: every event goes into the packet of its time window.
-/
namespace Haptics

/-- Writing the keyframes of an effect that lie in the window [time, time + d). -/
theorem basisLoop_spec (bandType : Nat) (e : Effect) (time d : Int) (ks : List Keyframe) :
    ∀ (j : Nat) (a : BasisAcc), (∀ k ∈ ks, k.relativePosition.isSome) →
      (∀ k ∈ ks, ∃ b, writeKeyframe bandType k = .ok b) → (ks.map e.timeOf).Pairwise (· ≤ ·) →
      ∃ a' b, basisLoop bandType e.position time d j ks a
          = .ok (ks.all (fun k => decide (e.timeOf k < time + d)), a') ∧
        a'.kfCount = a.kfCount
          + (ks.filter (fun k => decide (time ≤ e.timeOf k ∧ e.timeOf k < time + d))).length ∧
        wList (writeKeyframe bandType)
          (ks.filter (fun k => decide (time ≤ e.timeOf k ∧ e.timeOf k < time + d))) = .ok b ∧
        a'.bits = a.bits ++ b := by
  induction ks with
  | nil => intro j a _ _ _; exact ⟨a, [], rfl, rfl, rfl, by simp⟩
  | cons k ks ih =>
    intro j a hp hw hs
    obtain ⟨p, hkp⟩ := Option.isSome_iff_exists.mp (hp k (by simp))
    obtain ⟨kb, hkb⟩ := hw k (by simp)
    rw [List.map_cons, List.pairwise_cons] at hs
    have ih := fun j a => ih j a (fun x hx => hp x (by simp [hx])) (fun x hx => hw x (by simp [hx])) hs.2
    have ht : e.timeOf k = e.position + p := by simp [Effect.timeOf, hkp]
    simp only [basisLoop, hkp]
    by_cases h1 : p + e.position < time + d ∧ p + e.position ≥ time
    · rw [if_pos h1]
      simp only [hkb]
      obtain ⟨a', b, g1, g2, g3, g4⟩ := ih (j + 1)
        { firstKf := false, kfCount := a.kfCount + 1,
          rau := if a.firstKf = true ∧ j ≠ 0 then false else a.rau, bits := a.bits ++ kb }
      have hin : decide (time ≤ e.timeOf k ∧ e.timeOf k < time + d) = true := by
        rw [decide_eq_true_eq]; omega
      have hlt : decide (e.timeOf k < time + d) = true := by
        rw [decide_eq_true_eq]; omega
      refine ⟨a', kb ++ b, ?_, ?_, ?_, ?_⟩
      · rw [g1, List.all_cons, hlt, Bool.true_and]
      · rw [g2, List.filter_cons, if_pos hin, List.length_cons]; simp only; omega
      · rw [List.filter_cons, if_pos hin]
        simp only [wList, hkb, g3]
      · rw [g4]; simp
    · rw [if_neg h1]
      by_cases h2 : p + e.position ≥ time + d
      · rw [if_pos h2]
        have hnil : (k :: ks).filter (fun k => decide (time ≤ e.timeOf k ∧ e.timeOf k < time + d)) = [] := by
          rw [List.filter_eq_nil_iff]
          intro x hx
          rw [decide_eq_true_eq]
          rcases List.mem_cons.mp hx with rfl | hx
          · omega
          · have := hs.1 _ (List.mem_map_of_mem hx); omega
        have hlt : decide (e.timeOf k < time + d) = false := by
          rw [decide_eq_false_iff_not]; omega
        refine ⟨a, [], ?_, ?_, ?_, by simp⟩
        · rw [List.all_cons, hlt, Bool.false_and]
        · rw [hnil]; rfl
        · rw [hnil]; rfl
      · rw [if_neg h2]
        obtain ⟨a', b, g1, g2, g3, g4⟩ := ih (j + 1) a
        have hin : ¬ decide (time ≤ e.timeOf k ∧ e.timeOf k < time + d) = true := by
          rw [decide_eq_true_eq]; omega
        have hlt : decide (e.timeOf k < time + d) = true := by
          rw [decide_eq_true_eq]; omega
        refine ⟨a', b, ?_, ?_, ?_, g4⟩
        · rw [g1, List.all_cons, hlt, Bool.true_and]
        · rw [g2, List.filter_cons, if_neg hin]
        · rw [List.filter_cons, if_neg hin, g3]

/-- What is needed of the effects for the packets to be made: sorted events, and keyframes that can be
written. -/
structure Packable (bandType : Nat) (F : List Effect) : Prop where
  times : (F.flatMap Effect.eventTimes).Pairwise (· ≤ ·)
  types : ∀ e ∈ F, e.effectType = EffectType.Basis ∨ e.effectType = EffectType.Reference
  keyframes : ∀ e ∈ F, e.effectType = EffectType.Basis → e.keyframes ≠ []
  positioned : ∀ e ∈ F, ∀ k ∈ e.keyframes, k.relativePosition.isSome
  writable : ∀ e ∈ F, ∀ k ∈ e.keyframes, ∃ b, writeKeyframe bandType k = .ok b

theorem Packable.tail {bandType : Nat} {e : Effect} {F : List Effect} (h : Packable bandType (e :: F)) :
    Packable bandType F := by
  refine ⟨?_, fun x hx => h.types x (by simp [hx]), fun x hx => h.keyframes x (by simp [hx]),
    fun x hx => h.positioned x (by simp [hx]), fun x hx => h.writable x (by simp [hx])⟩
  have := h.times
  rw [List.flatMap_cons, List.pairwise_append] at this
  exact this.2.1

theorem Packable.event {bandType : Nat} {F : List Effect} (h : Packable bandType F) {e : Effect}
    (he : e ∈ F) : ∃ t, t ∈ e.eventTimes := by
  unfold Effect.eventTimes
  by_cases hb : e.effectType = EffectType.Basis
  · rw [if_pos hb]
    obtain ⟨k, hk⟩ := List.exists_mem_of_ne_nil _ (h.keyframes e he hb)
    exact ⟨_, List.mem_map_of_mem hk⟩
  · rw [if_neg hb]; exact ⟨_, List.mem_singleton.mpr rfl⟩

theorem Packable.le {bandType : Nat} {e : Effect} {F : List Effect} (h : Packable bandType (e :: F))
    {t : Int} (ht : t ∈ e.eventTimes) {x : Effect} (hx : x ∈ F) {s : Int} (hs : s ∈ x.eventTimes) :
    t ≤ s := by
  have := h.times
  rw [List.flatMap_cons, List.pairwise_append] at this
  exact this.2.2 t ht s (List.mem_flatMap.mpr ⟨x, hx, hs⟩)

/-- If an event of the first effect is not before `t`, no later effect has an event in a window ending
at `t`. -/
theorem Packable.window_nil {bandType : Nat} {e : Effect} {F : List Effect}
    (h : Packable bandType (e :: F)) {t lo hi : Int} (ht : t ∈ e.eventTimes) (hh : hi ≤ t) :
    windowOf lo hi F = [] :=
  windowOf_eq_nil (fun x hx s hs hc => by have := h.le ht hx hs; omega)

/-- One packet. -/
theorem payloadLoop_spec (bandType : Nat) (time d : Int) (es : List Effect) :
    ∀ (ids : List Int) (E : List Entry) (au : Nat), (∀ i ∈ ids, 0 ≤ i) → au < 2 →
      Packable bandType (assignAll ids es).1 →
      ∃ done es' a' X, payloadLoop bandType time d es ⟨ids, E, au⟩ = .ok (done, es', a') ∧
        assignAll a'.effectsId es' = assignAll ids es ∧ (∀ i ∈ a'.effectsId, 0 ≤ i) ∧
        a'.entries = E ++ X ∧
        List.Forall₂ (Entry.Of bandType) X (windowOf time (time + d) (assignAll ids es).1) ∧
        a'.auType < 2 ∧
        (done = true → a'.effectsId = (assignAll ids es).2 ∧
          ((∀ e ∈ (assignAll ids es).1, ∀ t ∈ e.eventTimes, t < time + d) ∨
            ∃ e, (assignAll ids es).1.getLast? = some e ∧ e.effectType = EffectType.Reference ∧
              e.position = time + d)) ∧
        (done = false → ∃ e ∈ (assignAll ids es).1, ∃ t ∈ e.eventTimes, time + d ≤ t) := by
  induction es with
  | nil =>
    intro ids E au hids hau _
    exact ⟨true, [], _, [], rfl, rfl, hids, by simp, List.Forall₂.nil, hau,
      fun _ => ⟨rfl, .inl (by simp [assignAll])⟩, fun h => by simp at h⟩
  | cons e0 es ih =>
    intro ids E au hids hau hp
    have hids' := assignId_ids_nonneg (e := e0) hids
    have hidem := assignId_idem (e := e0) hids
    have hne := assignId_id_ne (e := e0) hids
    have hkeep : ∀ l : List Int, assignId l (assignId ids e0).1 = ((assignId ids e0).1, l) := by
      intro l
      generalize (assignId ids e0).1 = e at hne
      unfold assignId; rw [if_neg hne]
    simp only [assignAll] at hp ⊢
    simp only [payloadLoop]
    generalize hr : assignId ids e0 = r at *
    obtain ⟨e, ids1⟩ := r
    simp only at *
    generalize hF : (assignAll ids1 es).1 = F at *
    have ih := fun E au hau => ih ids1 E au hids' hau (by rw [hF]; exact hp.tail)
    simp only [hF] at ih
    -- the loop goes on with `E` and `au`
    have hnext : ∀ (E' : List Entry) (X0 : List Entry) (au' : Nat), au' < 2 → E' = E ++ X0 →
        List.Forall₂ (Entry.Of bandType) X0 (if e.occursIn time (time + d) then [e.slice time (time + d)]
          else []) →
        ((∀ t ∈ e.eventTimes, t < time + d) ∨
          e.effectType = EffectType.Reference ∧ e.position = time + d) →
        ∃ (done : Bool) (es' : List Effect) (a' : PacketAcc) (X : List Entry),
          (match payloadLoop bandType time d es ⟨ids1, E', au'⟩ with
            | .error x => Except.error x
            | .ok (done, es', a') => (.ok (done, e :: es', a') : Except Err (Bool × List Effect × PacketAcc)))
            = .ok (done, es', a') ∧
          assignAll a'.effectsId es' = (e :: F, (assignAll ids1 es).2) ∧ (∀ i ∈ a'.effectsId, 0 ≤ i) ∧
          a'.entries = E ++ X ∧
          List.Forall₂ (Entry.Of bandType) X (windowOf time (time + d) (e :: F)) ∧
          a'.auType < 2 ∧
          (done = true → a'.effectsId = (assignAll ids1 es).2 ∧
            ((∀ x ∈ e :: F, ∀ t ∈ x.eventTimes, t < time + d) ∨
              ∃ x, (e :: F).getLast? = some x ∧ x.effectType = EffectType.Reference ∧
                x.position = time + d)) ∧
          (done = false → ∃ x ∈ e :: F, ∃ t ∈ x.eventTimes, time + d ≤ t) := by
      intro E' X0 au' hau' hE' hX0 hev
      obtain ⟨done, es', a', X, g1, g2, g3, g4, g5, g6, g7, g8⟩ := ih E' au' hau'
      refine ⟨done, e :: es', a', X0 ++ X, by rw [g1], ?_, g3, ?_, ?_, g6, ?_, ?_⟩
      · simp only [assignAll, hkeep, g2, hF]
      · rw [g4, hE', List.append_assoc]
      · rw [windowOf_cons]; exact List.rel_append hX0 g5
      · intro hd
        obtain ⟨k1, k2⟩ := g7 hd
        refine ⟨k1, ?_⟩
        rcases hev with hev | hev
        · rcases k2 with k2 | ⟨x, k2, k3, k4⟩
          · refine .inl (fun x hx => ?_)
            rcases List.mem_cons.mp hx with rfl | hx
            · exact hev
            · exact k2 x hx
          · refine .inr ⟨x, ?_, k3, k4⟩
            rw [List.getLast?_cons, k2]
            rfl
        · cases F with
          | nil => exact .inr ⟨e, rfl, hev⟩
          | cons y F' =>
            rcases k2 with k2 | ⟨x, k2, k3, k4⟩
            · exfalso
              obtain ⟨t, ht⟩ := hp.tail.event (e := y) (by simp)
              have := k2 y (by simp) t ht
              have hpe : e.position ∈ e.eventTimes := by
                rw [Effect.eventTimes, if_neg (by rw [hev.1]; decide)]; simp
              have := hp.le hpe (x := y) (by simp) ht
              omega
            · refine .inr ⟨x, ?_, k3, k4⟩
              rw [List.getLast?_cons, k2]
              rfl
      · intro hd
        obtain ⟨x, hx, t, ht, hle⟩ := g8 hd
        exact ⟨x, by simp [hx], t, ht, hle⟩
    -- the loop stops
    have hstop : ∀ (E' : List Entry) (X0 : List Entry) (au' : Nat), au' < 2 → E' = E ++ X0 →
        List.Forall₂ (Entry.Of bandType) X0 (if e.occursIn time (time + d) then [e.slice time (time + d)]
          else []) → (∃ t ∈ e.eventTimes, time + d ≤ t) →
        ∃ (done : Bool) (es' : List Effect) (a' : PacketAcc) (X : List Entry), (Except.ok (false, e :: es, (⟨ids1, E', au'⟩ : PacketAcc)) :
            Except Err (Bool × List Effect × PacketAcc)) = .ok (done, es', a') ∧
          assignAll a'.effectsId es' = (e :: F, (assignAll ids1 es).2) ∧ (∀ i ∈ a'.effectsId, 0 ≤ i) ∧
          a'.entries = E ++ X ∧
          List.Forall₂ (Entry.Of bandType) X (windowOf time (time + d) (e :: F)) ∧
          a'.auType < 2 ∧
          (done = true → a'.effectsId = (assignAll ids1 es).2 ∧
            ((∀ x ∈ e :: F, ∀ t ∈ x.eventTimes, t < time + d) ∨
              ∃ x, (e :: F).getLast? = some x ∧ x.effectType = EffectType.Reference ∧
                x.position = time + d)) ∧
          (done = false → ∃ x ∈ e :: F, ∃ t ∈ x.eventTimes, time + d ≤ t) := by
      intro E' X0 au' hau' hE' hX0 ⟨t, ht, hle⟩
      refine ⟨false, e :: es, ⟨ids1, E', au'⟩, X0, rfl, ?_, hids', hE', ?_, hau', by simp, ?_⟩
      · simp only [assignAll, hkeep, hF]
      · rw [windowOf_cons, hp.window_nil ht hle, List.append_nil]; exact hX0
      · exact fun _ => ⟨e, by simp, t, ht, hle⟩
    rcases hp.types e (by simp) with hb | hb
    · -- a basis effect
      rw [if_pos hb]
      have hevs : e.eventTimes = e.keyframes.map e.timeOf := by rw [Effect.eventTimes, if_pos hb]
      have hsort : (e.keyframes.map e.timeOf).Pairwise (· ≤ ·) := by
        have := hp.times
        rw [List.flatMap_cons, List.pairwise_append, hevs] at this
        exact this.1
      obtain ⟨ba, bb, k1, k2, k3, k4⟩ := basisLoop_spec bandType e time d e.keyframes 0 {}
        (hp.positioned e (by simp)) (hp.writable e (by simp)) hsort
      simp only [writeEffectBasis, k1]
      simp only [Nat.zero_add] at k2
      simp only [List.nil_append] at k4
      have hslice : (e.slice time (time + d)).keyframes
          = e.keyframes.filter (fun k => decide (time ≤ e.timeOf k ∧ e.timeOf k < time + d)) := by
        rw [Effect.slice, if_pos hb]
      have hocc : e.occursIn time (time + d) = true ↔ ba.kfCount > 0 := by
        rw [k2, occursIn_true, hevs]
        constructor
        · rintro ⟨t, ht, h1⟩
          obtain ⟨k, hk, rfl⟩ := List.mem_map.mp ht
          exact List.length_pos_of_mem (List.mem_filter.mpr ⟨hk, by simpa using h1⟩)
        · intro hpos
          obtain ⟨k, hk⟩ := List.exists_mem_of_length_pos hpos
          obtain ⟨hk1, hk2⟩ := List.mem_filter.mp hk
          exact ⟨_, List.mem_map_of_mem hk1, by simpa using hk2⟩
      have hentry : Entry.Of bandType ⟨e, ba.kfCount, ba.bits⟩ (e.slice time (time + d)) := by
        refine ⟨?_, ?_, ?_⟩
        · rw [dataKeyframes, if_pos (by rw [slice_type]; exact hb), hslice, k3, k4]
        · intro _; rw [hslice]; exact k2
        · simp only [Effect.slice, if_pos hb]
      by_cases hc : ba.kfCount > 0
      · have hX0 : List.Forall₂ (Entry.Of bandType) [⟨e, ba.kfCount, ba.bits⟩]
            (if e.occursIn time (time + d) then [e.slice time (time + d)] else []) := by
          rw [if_pos (hocc.mpr hc)]
          exact List.Forall₂.cons hentry List.Forall₂.nil
        simp only [if_pos hc]
        have hau' : (if ba.rau = true then 0 else 1) < 2 := by split <;> omega
        by_cases hend : e.keyframes.all (fun k => decide (e.timeOf k < time + d)) = true
        · rw [hend]
          simp only [if_true]
          refine hnext _ _ _ hau' rfl hX0 (.inl ?_)
          rw [hevs]
          intro t ht
          obtain ⟨k, hk, rfl⟩ := List.mem_map.mp ht
          simpa using List.all_eq_true.mp hend k hk
        · rw [Bool.not_eq_true] at hend
          rw [hend]
          simp only [Bool.false_eq_true, if_false]
          refine hstop _ _ _ hau' rfl hX0 ?_
          obtain ⟨k, hk, hk2⟩ := List.all_eq_false.mp hend
          exact ⟨_, by rw [hevs]; exact List.mem_map_of_mem hk, by simpa using hk2⟩
      · have hX0 : List.Forall₂ (Entry.Of bandType) []
            (if e.occursIn time (time + d) then [e.slice time (time + d)] else []) := by
          rw [if_neg (fun h => hc (hocc.mp h))]
          exact List.Forall₂.nil
        simp only [if_neg hc]
        by_cases hend : e.keyframes.all (fun k => decide (e.timeOf k < time + d)) = true
        · rw [hend]
          simp only [if_true]
          refine hnext _ _ _ hau (by simp) hX0 (.inl ?_)
          rw [hevs]
          intro t ht
          obtain ⟨k, hk, rfl⟩ := List.mem_map.mp ht
          simpa using List.all_eq_true.mp hend k hk
        · rw [Bool.not_eq_true] at hend
          rw [hend]
          simp only [Bool.false_eq_true, if_false]
          refine hstop _ _ _ hau (by simp) hX0 ?_
          obtain ⟨k, hk, hk2⟩ := List.all_eq_false.mp hend
          exact ⟨_, by rw [hevs]; exact List.mem_map_of_mem hk, by simpa using hk2⟩
    · -- a reference
      have hnb : ¬ e.effectType = EffectType.Basis := by rw [hb]; decide
      rw [if_neg hnb, if_pos hb]
      have hevs : e.eventTimes = [e.position] := by rw [Effect.eventTimes, if_neg hnb]
      have hsl : e.slice time (time + d) = e := by rw [Effect.slice, if_neg hnb]
      have hocc : e.occursIn time (time + d) = true ↔ (e.position ≥ time ∧ e.position < time + d) := by
        rw [occursIn_true, hevs]; simp
      by_cases h1 : e.position ≥ time ∧ e.position < time + d
      · rw [if_pos h1]
        refine hnext _ [⟨e, 0, []⟩] 0 (by omega) rfl ?_ (.inl (by rw [hevs]; simpa using h1.2))
        rw [if_pos (hocc.mpr h1), hsl]
        refine List.Forall₂.cons ⟨?_, fun h => absurd h hnb, ?_⟩ List.Forall₂.nil
        · rw [dataKeyframes, if_neg hnb]
        · cases e; rfl
      · rw [if_neg h1]
        have hX0 : List.Forall₂ (Entry.Of bandType) []
            (if e.occursIn time (time + d) then [e.slice time (time + d)] else []) := by
          rw [if_neg (fun h => h1 (hocc.mp h))]
          exact List.Forall₂.nil
        by_cases h2 : e.position > time + d
        · rw [if_pos h2]
          exact hstop _ _ _ hau (by simp) hX0 ⟨e.position, by rw [hevs]; simp, by omega⟩
        · rw [if_neg h2]
          refine hnext _ _ _ hau (by simp) hX0 ?_
          rw [hevs]
          by_cases h3 : e.position = time + d
          · exact .inr ⟨hb, h3⟩
          · left; intro t ht; rw [List.mem_singleton] at ht; omega

/-- A sendable effect with an event in a window fits a packet sent at the start of the window. -/
theorem slice_fits {bandType : Nat} {time d : Int} (hd2 : d ≤ 2 ^ 24) {e : Effect}
    (h : e.Sendable bandType) (ho : e.occursIn time (time + d) = true) :
    (e.slice time (time + d)).DataFits bandType time := by
  obtain ⟨t, ht, h1, h2⟩ := occursIn_true.mp ho
  obtain ⟨hid, hty, hsem, hbase, hkc, hkf⟩ := h
  have hpos : -2 ^ 24 ≤ e.position - time ∧ e.position - time < 2 ^ 24 := by
    unfold Effect.eventTimes at ht
    split at ht
    · obtain ⟨k, hk, rfl⟩ := List.mem_map.mp ht
      obtain ⟨p, hp, hp1, hp2⟩ := (hkf k hk).position
      simp only [Effect.timeOf, hp, Option.getD_some] at h1 h2
      constructor <;> omega
    · rw [List.mem_singleton] at ht
      constructor <;> omega
  unfold Effect.slice
  split
  · rename_i hb
    refine ⟨⟨hid, hty, hsem, hbase, ?_, ?_⟩, hpos⟩
    · exact lt_of_le_of_lt (List.length_filter_le _ _) hkc
    · intro k hk
      exact hkf k (List.mem_of_mem_filter hk)
  · exact ⟨⟨hid, hty, hsem, hbase, hkc, hkf⟩, hpos⟩

theorem window_fits {bandType : Nat} {time d : Int} (hd2 : d ≤ 2 ^ 24) {F : List Effect}
    (h : ∀ e ∈ F, e.Sendable bandType) :
    ∀ e ∈ windowOf time (time + d) F, e.DataFits bandType time := by
  intro x hx
  obtain ⟨e, he, ho, rfl⟩ := mem_windowOf hx
  exact slice_fits hd2 (h e he) ho

theorem windowOf_length_le (lo hi : Int) (F : List Effect) : (windowOf lo hi F).length ≤ F.length := by
  rw [windowOf, List.length_map]; exact List.length_filter_le _ _

/-- The payload `b` was written at time `w.1` for the effects `w.2`. -/
def SentAs (bandType : Nat) (addr : Address) (b : Bits) (w : Int × List Effect) : Prop :=
  ∃ a : PacketAcc, List.Forall₂ (Entry.Of bandType) a.entries w.2 ∧ a.auType < 2 ∧
    writePayloadPacket bandType addr w.1 a = .ok b

/-- All packets of a band, from `time` on. -/
theorem packetLoop_spec (bandType : Nat) (hbt : KeyframeBand bandType) (addr : Address)
    (hap : U 8 addr.perceId) (hac : U 16 addr.channelId) (hab : U 8 addr.bandId) (d : Int)
    (hd2 : d ≤ 2 ^ 24) (F : List Effect) (ids' : List Int) (hp : Packable bandType F)
    (hsend : ∀ e ∈ F, e.Sendable bandType) (hn : F.length < 65536)
    (hlast : ∀ e, F.getLast? = some e → e.effectType = EffectType.Reference →
      ∀ m : Int, 0 < m → e.position ≠ m * d) :
    ∀ (fuel : Nat) (m : Nat) (es : List Effect) (ids : List Int), assignAll ids es = (F, ids') →
      (∀ i ∈ ids, 0 ≤ i) → 0 < fuel →
      (∀ e ∈ F, ∀ t ∈ e.eventTimes, t < m * d + fuel * d) →
      ∃ (bs : List Bits) (n : Nat), packetLoop bandType addr d fuel (m * d) es ids = .ok (bs, ids') ∧
        (∀ e ∈ F, ∀ t ∈ e.eventTimes, t < m * d + n * d) ∧
        List.Forall₂ (SentAs bandType addr) bs (packetsOf d F n (m * d)) := by
  intro fuel
  induction fuel with
  | zero => intro m es ids _ _ h; omega
  | succ fuel ih =>
    intro m es ids hass hids _ hfuel
    have hF : (assignAll ids es).1 = F := by rw [hass]
    obtain ⟨done, es', a, X, g1, g2, g3, g4, g5, g6, g7, g8⟩ :=
      payloadLoop_spec bandType (m * d) d es ids [] 0 hids (by omega) (by rw [hF]; exact hp)
    rw [hF] at g5 g7 g8
    rw [hass] at g2 g7
    rw [List.nil_append] at g4
    rw [← g4] at g5
    simp only [packetLoop, g1]
    -- the packet of this window
    have hout : ∃ out, (if a.entries.isEmpty then .ok []
          else (writePayloadPacket bandType addr (m * d) a).map (fun b => [b])) = .ok out ∧
        List.Forall₂ (SentAs bandType addr) out
          ([((m * d : Int), windowOf (m * d) (m * d + d) F)].filter (fun w => !w.2.isEmpty)) := by
      by_cases he : a.entries.isEmpty
      · rw [if_pos he]
        have hw : windowOf (m * d) (m * d + d) F = [] := by
          have := g5.length_eq
          rw [List.isEmpty_iff.mp he] at this
          exact List.length_eq_zero_iff.mp this.symm
        refine ⟨[], rfl, ?_⟩
        rw [hw]
        exact List.Forall₂.nil
      · rw [if_neg he]
        have hw : windowOf (m * d) (m * d + d) F ≠ [] := by
          intro hw
          rw [hw] at g5
          cases g5' : a.entries with
          | nil => simp [g5'] at he
          | cons x l => rw [g5'] at g5; cases g5
        obtain ⟨body, hb, -⟩ := c56_packet bandType hbt addr hap hac hab (m * d) a _ g5
          (window_fits hd2 hsend) (lt_of_le_of_lt (windowOf_length_le _ _ _) hn) hw g6
        refine ⟨_, by rw [hb]; rfl, ?_⟩
        rw [List.filter_cons, if_pos (by simpa using hw)]
        exact List.Forall₂.cons ⟨a, g5, g6, hb⟩ List.Forall₂.nil
    obtain ⟨out, ho1, ho2⟩ := hout
    rw [ho1]
    simp only
    cases done with
    | true =>
      obtain ⟨k1, k2⟩ := g7 rfl
      refine ⟨out, 1, by simp [k1], ?_, ?_⟩
      · rcases k2 with k2 | ⟨e, k2, k3, k4⟩
        · simpa using k2
        · exfalso
          exact hlast e k2 k3 (m + 1) (by omega) (by rw [k4]; ring)
      · exact ho2
    | false =>
      obtain ⟨e, he, t, ht, hle⟩ := g8 rfl
      have hfp : 0 < fuel := by
        rcases Nat.eq_zero_or_pos fuel with h0 | h0
        · subst h0
          have := hfuel e he t ht
          simp at this
          omega
        · exact h0
      have hcast : ((m + 1 : Nat) : Int) * d = m * d + d := by push_cast; ring
      obtain ⟨bs, n, j1, j2, j3⟩ := ih (m + 1) es' a.effectsId g2 g3 hfp (by
        intro e he t ht
        have := hfuel e he t ht
        push_cast at this ⊢
        linarith)
      rw [hcast] at j1 j2 j3
      simp only [Bool.false_eq_true, if_false, j1]
      refine ⟨out ++ bs, n + 1, rfl, ?_, ?_⟩
      · intro e he t ht
        have := j2 e he t ht
        push_cast at this ⊢
        linarith
      · have : packetsOf d F (n + 1) (m * d)
            = [((m * d : Int), windowOf (m * d) (m * d + d) F)].filter (fun w => !w.2.isEmpty)
              ++ packetsOf d F n (m * d + d) := by
          unfold packetsOf
          rw [windows, ← List.filter_append, List.singleton_append]
        rw [this]
        exact List.rel_append ho2 j3

theorem le_sum_of_mem {l : List Nat} {x : Nat} (h : x ∈ l) : x ≤ l.sum := by
  induction l with
  | nil => simp at h
  | cons a l ih =>
    rcases List.mem_cons.mp h with rfl | h
    · simp
    · have := ih h
      simp
      omega

/-- `packetFuel` is enough for every event. -/
theorem event_lt_packetFuel (effects : List Effect) (e : Effect) (he : e ∈ effects) (t : Int)
    (ht : t ∈ e.eventTimes) : t < packetFuel effects := by
  have h1 : e.position.natAbs + (e.keyframes.map (fun k => (k.relativePosition.getD 0).natAbs)).sum
      ≤ packetFuel effects - 2 :=
    le_sum_of_mem (List.mem_map_of_mem (f := fun e : Effect => e.position.natAbs
      + (e.keyframes.map (fun k => (k.relativePosition.getD 0).natAbs)).sum) he)
  have h2 : 2 ≤ packetFuel effects := by unfold packetFuel; omega
  unfold Effect.eventTimes at ht
  split at ht
  · obtain ⟨k, hk, rfl⟩ := List.mem_map.mp ht
    have := le_sum_of_mem (List.mem_map_of_mem (f := fun k : Keyframe => (k.relativePosition.getD 0).natAbs) hk)
    unfold Effect.timeOf
    omega
  · rw [List.mem_singleton] at ht
    omega

theorem assignId_eventTimes (ids : List Int) (e : Effect) :
    (assignId ids e).1.eventTimes = e.eventTimes := by
  unfold assignId
  split <;> rfl

theorem assignAll_length (es : List Effect) (ids : List Int) :
    (assignAll ids es).1.length = es.length := by
  induction es generalizing ids with
  | nil => rfl
  | cons e es ih => simp [assignAll, ih]

theorem mem_assignAll {es : List Effect} : ∀ {ids : List Int} {x : Effect}, x ∈ (assignAll ids es).1 →
    ∃ e ∈ es, x = { e with id := x.id } := by
  induction es with
  | nil => intro ids x hx; simp [assignAll] at hx
  | cons e es ih =>
    intro ids x hx
    rcases List.mem_cons.mp hx with rfl | hx
    · exact ⟨e, by simp, assignId_same ids e⟩
    · obtain ⟨y, hy, h⟩ := ih hx
      exact ⟨y, by simp [hy], h⟩

/-- **C19** (sender, for bands whose effects do not overlap and fit the packet fields) Packetising ends,
and there is a number of windows covering all events such that the packets are, in order, one for each
window of length `d` that has events, carrying exactly the events of that window: of every effect those
keyframes that lie in the window, with the effect's identifier and position.  The last effect must not
be a reference starting exactly at a positive multiple of `d`, see `c19_reference_negation`. -/
theorem c19_packets_partial (b : Band) (hbt : KeyframeBand b.bandType) (addr : Address)
    (hap : U 8 addr.perceId) (hac : U 16 addr.channelId) (hab : U 8 addr.bandId) (d : Int)
    (hd : 0 < d) (hd2 : d ≤ 2 ^ 24) (ids : List Int) (hids : ∀ i ∈ ids, 0 ≤ i)
    (hs : Sequential (assignAll ids b.effects).1)
    (hsend : ∀ e ∈ (assignAll ids b.effects).1, e.Sendable b.bandType)
    (hn : b.effects.length < 65536)
    (hlast : ∀ e ∈ b.effects.getLast?, e.effectType = EffectType.Reference →
      ∀ m : Int, 0 < m → e.position ≠ m * d) :
    ∃ (bs : List Bits) (n : Nat), packetizeBand d addr b ids = .ok (bs, (assignAll ids b.effects).2) ∧
      (∀ e ∈ (assignAll ids b.effects).1, ∀ t ∈ e.eventTimes, t < n * d) ∧
      List.Forall₂ (SentAs b.bandType addr) bs (packetsOf d (assignAll ids b.effects).1 n 0) := by
  have hnw : ¬ b.bandType = BandType.WaveletWave := by
    rcases hbt with h | h | h <;> rw [h] <;> decide
  have hgl : ∀ (es : List Effect) (ids : List Int) (x : Effect), (assignAll ids es).1.getLast? = some x →
      ∃ e, es.getLast? = some e ∧ x = { e with id := x.id } := by
    intro es
    induction es with
    | nil => intro ids x hx; simp [assignAll] at hx
    | cons e es ih =>
      intro ids x hx
      cases es with
      | nil =>
        simp only [assignAll, List.getLast?_singleton, Option.some.injEq] at hx
        exact ⟨e, rfl, by rw [← hx]; exact assignId_same ids e⟩
      | cons e2 es =>
        rw [assignAll] at hx
        simp only at hx
        rw [assignAll] at hx
        simp only [List.getLast?_cons_cons] at hx
        obtain ⟨y, hy, h⟩ := ih (assignId ids e).2 x hx
        exact ⟨y, by rw [List.getLast?_cons_cons]; exact hy, h⟩
  have hev : ∀ x ∈ (assignAll ids b.effects).1, ∀ t ∈ x.eventTimes, t < packetFuel b.effects := by
    intro x hx t ht
    obtain ⟨e, he, h⟩ := mem_assignAll hx
    refine event_lt_packetFuel _ e he t ?_
    rw [h] at ht
    exact ht
  have hfuel : 0 < packetFuel b.effects := by unfold packetFuel; omega
  obtain ⟨bs, n, h1, h2, h3⟩ := packetLoop_spec b.bandType hbt addr hap hac hab d hd2
    (assignAll ids b.effects).1 (assignAll ids b.effects).2
    ⟨hs.times, hs.types, hs.keyframes, hs.positioned, fun e he k hk => by
      obtain ⟨kb, hkb, -⟩ := readKeyframe_w b.bandType hbt k ((hsend e he).keyframes k hk)
      exact ⟨kb, hkb⟩⟩
    hsend (by rw [assignAll_length]; exact hn)
    (by
      intro x hx hr m hm
      obtain ⟨e, he, h⟩ := hgl _ _ _ hx
      have hp : x.position = e.position := by rw [h]
      have ht : x.effectType = e.effectType := by rw [h]
      rw [hp]
      exact hlast e he (by rw [← ht]; exact hr) m hm)
    (packetFuel b.effects) 0 b.effects ids rfl hids hfuel
    (by
      intro e he t ht
      have := hev e he t ht
      have h5 : (packetFuel b.effects : Int) ≤ packetFuel b.effects * d := by nlinarith
      push_cast
      linarith)
  refine ⟨bs, n, ?_, ?_, ?_⟩
  · rw [packetizeBand, if_neg hnw]
    simpa using h1
  · simpa using h2
  · simpa using h3

/-! ### Where packetising loses or does not end -/

/-- **C19, violated for overlapping effects.**  Two effects of a vectorial band, the first with keyframes
at 0 and 200, the second with one keyframe at 50: with a packet duration of 128 exactly the same packets
are sent as for the first effect alone. -/
theorem c19_overlap_negation :
    let e1 : Effect := { id := 0, keyframes := [{ relativePosition := some 0 }, { relativePosition := some 200 }] }
    let e2 : Effect := { id := 1, position := 50, keyframes := [{ relativePosition := some 0 }] }
    ∃ out, packetizeBand 128 ⟨0, 0, 0⟩ { effects := [e1, e2] } [0, 1] = .ok out ∧
      packetizeBand 128 ⟨0, 0, 0⟩ { effects := [e1] } [0, 1] = .ok out := by
  refine ⟨_, rfl, ?_⟩
  decide +kernel

/-- **C19, violated for references on a packet boundary.**  If the last effect of a band is a reference
that starts exactly one packet duration after the start, it is not sent: for a band with this one effect
there are no packets at all. -/
theorem c19_reference_negation (d : Int) (hd : 0 < d) (id : Int) (hid : id ≠ -1) (addr : Address)
    (ids : List Int) :
    packetizeBand d addr { effects := [{ id := id, position := d, effectType := EffectType.Reference }] } ids
      = .ok ([], ids) := by
  unfold packetizeBand
  rw [if_neg (show ¬ BandType.VectorialWave = BandType.WaveletWave by decide)]
  simp only [packetFuel]
  rw [packetLoop]
  have h1 : assignId ids { id := id, position := d, effectType := EffectType.Reference }
      = ({ id := id, position := d, effectType := EffectType.Reference }, ids) := by
    unfold assignId; rw [if_neg hid]
  simp only [payloadLoop, h1]
  rw [if_neg (by decide), if_pos trivial, if_neg (by omega), if_neg (by omega)]
  rfl

/-- **C19, violated for a packet duration of 0.**  Packetising does not end: for a reference after 0,
whatever number of steps is allowed. -/
theorem c19_zero_negation (bandType : Nat) (addr : Address) (id : Int) (hid : id ≠ -1) (pos : Int)
    (hpos : 0 < pos) (ids : List Int) (fuel : Nat) :
    packetLoop bandType addr 0 fuel 0 [{ id := id, position := pos, effectType := EffectType.Reference }] ids
      = .error .diverge := by
  induction fuel with
  | zero => rfl
  | succ fuel ih =>
    have h1 : assignId ids { id := id, position := pos, effectType := EffectType.Reference }
        = ({ id := id, position := pos, effectType := EffectType.Reference }, ids) := by
      unfold assignId; rw [if_neg hid]
    have h2 : payloadLoop bandType 0 0 [{ id := id, position := pos, effectType := EffectType.Reference }]
        { effectsId := ids } = .ok (false, [{ id := id, position := pos, effectType := EffectType.Reference }],
          { effectsId := ids }) := by
      simp only [payloadLoop, h1]
      rw [if_neg (by decide), if_pos trivial, if_neg (by omega), if_pos (by omega)]
    simp only [packetLoop, h2, List.isEmpty_nil, if_true, Bool.false_eq_true, if_false, Int.add_zero, ih]

end Haptics
