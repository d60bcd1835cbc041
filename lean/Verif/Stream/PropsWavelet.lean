import Verif.Stream.SpecWavelet
import Verif.Stream.PropsResend
import Verif.Types.PropsOps

/-
C58: effects of wavelet bands in a stream.  C59: composite effects in a stream.
-/
namespace Haptics

/-! ### Which blocks are sent -/

/-- **C58** Which effects of a wavelet band are sent, when the packets are at least as long as the blocks:
the first, and then one in every `n`, where `n` is the number of blocks that fit a packet. -/
theorem c58_sent (b : Band) (bl pd : Nat) (hb : b.blockLength = some (bl : Int)) (h0 : 0 < bl)
    (h1 : bl ≤ pd) :
    ∃ sent, createWaveletPayload pd b = .ok sent ∧ ∀ k : Nat, sent[k]? = b.effects[pd / bl * k]? :=
  wavelet_sent b bl pd hb h0 h1

/-- **C58, negation.** Whenever two blocks fit a packet, blocks are lost: of a band with at least two
effects fewer are sent than there are. -/
theorem c58_negation (b : Band) (bl pd : Nat) (hb : b.blockLength = some (bl : Int)) (h0 : 0 < bl)
    (h1 : 2 * bl ≤ pd) (h2 : 2 ≤ b.effects.length) :
    ∃ sent, createWaveletPayload pd b = .ok sent ∧ sent.length < b.effects.length := by
  obtain ⟨sent, hs, hk⟩ := c58_sent b bl pd hb h0 (by omega)
  refine ⟨sent, hs, ?_⟩
  have hn : 2 ≤ pd / bl := (Nat.le_div_iff_mul_le h0).mpr h1
  have : sent[b.effects.length - 1]? = none := by
    rw [hk, List.getElem?_eq_none]
    have : 2 * (b.effects.length - 1) ≤ pd / bl * (b.effects.length - 1) := Nat.mul_le_mul_right _ hn
    omega
  have := List.getElem?_eq_none_iff.mp this
  omega

/-- Non-vacuity: blocks of 32 ticks, five of them, and the default packet duration of 128: the first and
the fifth are sent. -/
example : ∃ b : Band, b.blockLength = some ((32 : Nat) : Int) ∧ 2 * 32 ≤ 128 ∧ 2 ≤ b.effects.length ∧
    (createWaveletPayload 128 b).toOption.map (fun l => l.map (·.position)) = some [0, 128] :=
  ⟨{ bandType := BandType.WaveletWave, blockLength := some 32
     effects := [{ position := 0 }, { position := 32 }, { position := 64 }, { position := 96 },
       { position := 128 }] }, rfl, by norm_num, by decide, by decide +kernel⟩

/-- **C58, negation.** With blocks longer than the packets the sender never ends: the loop does not advance,
however many turns it is given. -/
theorem c58_diverge_negation (b : Band) (bl pd : Nat) (hb : b.blockLength = some (bl : Int))
    (h1 : pd < bl) (h2 : b.effects ≠ []) :
    createWaveletPayload pd b = .error .diverge ∧
      ∀ fuel, waveletLoop b.effects fuel 0 ((pd : Int).tdiv bl) = .error .diverge := by
  have hz : ((pd : Int).tdiv bl) = 0 := by
    rw [Int.tdiv_eq_ediv_of_nonneg (by omega)]
    exact Int.ediv_eq_zero_of_lt (by omega) (by omega)
  have key : ∀ fuel, waveletLoop b.effects fuel 0 0 = .error .diverge := by
    intro fuel
    induction fuel with
    | zero => rfl
    | succ fuel ih =>
      obtain ⟨e, l, he⟩ := List.exists_cons_of_ne_nil h2
      unfold waveletLoop
      rw [if_pos (by rw [he]; simp)]
      have : (if (0 : Int) < 0 then none else b.effects[(0 : Int).toNat]?) = some e := by
        rw [if_neg (by decide), he]; rfl
      rw [this]
      simp only [add_zero, sub_zero]
      rw [if_neg (by omega), zero_add, ih]
  constructor
  · unfold createWaveletPayload
    simp only [hb]
    rw [if_neg (by omega), hz]
    exact key _
  · rw [hz]; exact key

/-- **C58, negation.** A wavelet band without block length – the default – divides by zero. -/
theorem c58_zero_unsafe (pd : Int) (b : Band) (hb : b.blockLength = some 0) :
    createWaveletPayload pd b = .error .ub := by
  unfold createWaveletPayload
  simp [hb]

/-- Non-vacuity: blocks of 256 ticks, packets of 128. -/
example : ∃ b : Band, b.blockLength = some ((256 : Nat) : Int) ∧ 128 < 256 ∧ b.effects ≠ [] :=
  ⟨{ blockLength := some 256, effects := [{}] }, rfl, by norm_num, by simp⟩

/-! ### Reception of the blocks -/

theorem modifyBand_self (h : Experience) (p c k : Nat) : h.modifyBand p c k (fun band => band) = h := by
  unfold Experience.modifyBand
  have e1 : ∀ (l : List Band), l.modify k (fun b => b) = l := fun l => List.modify_id k l
  simp only [e1]
  have e2 : ∀ (l : List Channel), l.modify c (fun y => { y with bands := y.bands }) = l :=
    fun l => List.modify_id c l
  simp only [e2]
  have e3 : ∀ (l : List Perception), l.modify p (fun y => { y with channels := y.channels }) = l :=
    fun l => List.modify_id p l
  simp only [e3]

theorem blockStart_mono {ts bl up : Int} (h1 : 0 ≤ ts) (h2 : 0 ≤ bl) (h3 : 0 < up) {j k : Nat} (h : j ≤ k) :
    blockStart ts bl up j ≤ blockStart ts bl up k := by
  unfold blockStart
  exact Int.ediv_le_ediv h3 (mul_le_mul_of_nonneg_left (by exact_mod_cast h) (mul_nonneg h1 h2))

/-- The packets of some blocks, read by a receiver that has the blocks before them.  The receiver need not have the
block length of the sender. -/
theorem waveletPackets_spec (addr : Address) (hap : U 8 addr.perceId) (hac : U 16 addr.channelId)
    (hab : U 8 addr.bandId) (bl : Int) (semantic : Option String)
    (hsem : ∀ s ∈ semantic, (semanticCode s).isSome) :
    ∀ (es : List Effect) (ids : List Int) (j : Nat),
      (∀ e ∈ es, e.semantic = semantic) → (∀ e ∈ es, e.waveletBitstream.length < 65536) →
      (∀ i ∈ ids, -1 ≤ i) → nextEffectId ids + es.length ≤ 65536 →
      ∃ bs ids', waveletPackets addr semantic bl (j * bl) es ids = .ok (bs, ids') ∧
        bs.length = es.length ∧
        (∀ (i : Nat) (x : Bits), bs[i]? = some x → timestampOf x = (j + i : Nat) * bl % 2 ^ 32) ∧
        ∀ (ps : List (Int × Bits)),
          List.Forall₂ (fun x y => x.1 = timestampOf y ∧ ∃ rest, x.2 = y.drop 32 ++ rest) ps bs →
          ∀ (r : Reader) (p c k : Nat) (band : Band) (bl' : Int), HasBand r addr p c k band →
            band.bandType = BandType.WaveletWave → band.blockLength = some bl' → 0 ≤ bl' →
            0 < band.upperFrequencyLimit → band.effects.length = j →
            (∀ e ∈ band.effects, e.id < nextEffectId ids ∧
              e.position ≤ blockStart r.timescale bl' band.upperFrequencyLimit j) → r.waitSync = false →
            ∃ t, receiveAll ps r = .ok { r with
              time := t
              haptic := r.haptic.modifyBand p c k (fun bd =>
                { bd with effects := bd.effects ++
                    placedFrom r.timescale bl' band.upperFrequencyLimit (nextEffectId ids) j es }) } := by
  intro es
  induction es with
  | nil =>
    intro ids j _ _ _ _
    refine ⟨[], ids, rfl, rfl, fun i x hx => by simp at hx, ?_⟩
    intro ps hps r p c k band bl' _ _ _ _ _ _ _ _
    cases hps
    refine ⟨r.time, ?_⟩
    simp only [receiveAll, placedFrom, List.append_nil, modifyBand_self]
  | cons e es ih =>
    intro ids j hse hsz hids hmax
    simp only [List.length_cons, Nat.cast_add, Nat.cast_one] at hmax
    have hnn := nextEffectId_ge hids
    obtain ⟨body, hw, hr⟩ := waveletPacket_read addr hap hac hab (j * bl) (nextEffectId ids)
      (by unfold U; constructor <;> omega) e (by rw [hse e (by simp)]; exact hsem) (hsz e (by simp))
    rw [hse e (by simp)] at hw
    obtain ⟨bs, ids', hb1, hb0, hb2, hb3⟩ := ih (ids ++ [nextEffectId ids]) (j + 1)
      (fun x hx => hse x (by simp [hx])) (fun x hx => hsz x (by simp [hx]))
      (by
        intro i hi
        rcases List.mem_append.mp hi with hi | hi
        · exact hids i hi
        · rw [List.mem_singleton.mp hi]; omega)
      (by rw [nextEffectId_succ]; omega)
    have htime : ((j + 1 : Nat) : Int) * bl = j * bl + bl := by push_cast; ring
    rw [htime] at hb1
    refine ⟨(writeNBits 32 (j * bl) ++ body) :: bs, ids', by simp only [waveletPackets, hw, hb1],
      by simp [hb0], fun i x hx => ?_, ?_⟩
    · cases i with
      | zero =>
        simp only [List.getElem?_cons_zero, Option.some.injEq] at hx
        subst hx
        unfold timestampOf
        rw [List.take_append_of_le_length (by simp), List.take_of_length_le (by simp), bitsVal_writeNBits]
        simp
      | succ i =>
        rw [hb2 i x (by simpa using hx), show j + 1 + i = j + (i + 1) by omega]
    intro ps hps r p c k band bl' hband hbt hbl hbl0 hup hlen hold hws
    cases hps with
    | @cons x _ ps' _ hx hps =>
    obtain ⟨hx1, rest, hx2⟩ := hx
    obtain ⟨tx, px⟩ := x
    simp only at hx1 hx2
    have hdrop : (writeNBits 32 (j * bl) ++ body).drop 32 = body := by
      rw [List.drop_append_of_le_length (by simp), List.drop_of_length_le (by simp)]; rfl
    rw [hdrop] at hx2
    have hpp : ((r.timescale : Int) * bl' * band.effects.length).tdiv band.upperFrequencyLimit
        = blockStart r.timescale bl' band.upperFrequencyLimit j := by
      rw [hlen, Int.tdiv_eq_ediv_of_nonneg (by positivity)]
      rfl
    have hrd := hr rest { r with time := tx.toNat } p c k band bl' (by
        obtain ⟨a1, a2, a3, a4⟩ := hband
        exact ⟨a1, a2, a3, a4⟩) hbt hbl (by omega)
    simp only [hpp] at hrd
    simp only [receiveAll, hx2, hrd]
    have hmerge : ∀ bd : Band, bd.effects = band.effects →
        [({ e.receivedWavelet (nextEffectId ids) with
          position := blockStart r.timescale bl' band.upperFrequencyLimit j } : Effect)].foldl mergeEffect bd
        = { bd with effects := bd.effects ++ [{ e.receivedWavelet (nextEffectId ids) with
          position := blockStart r.timescale bl' band.upperFrequencyLimit j }] } := by
      intro bd hbd
      simp only [List.foldl_cons, List.foldl_nil]
      unfold mergeEffect
      rw [if_pos (by rfl), List.findIdx?_eq_none_iff.mpr]
      · simp only [Band.addEffect]
        rw [insertEffect_append]
        intro y hy
        rw [hbd] at hy
        exact (hold y hy).2
      · intro y hy
        rw [hbd] at hy
        have := (hold y hy).1
        simp only [beq_eq_false_iff_ne, ne_eq]
        change ¬ y.id = nextEffectId ids
        omega
    have hmod : addEffectToHaptic r.haptic p c k [{ e.receivedWavelet (nextEffectId ids) with
          position := blockStart r.timescale bl' band.upperFrequencyLimit j }]
        = r.haptic.modifyBand p c k (fun bd =>
          { bd with effects := bd.effects ++ [{ e.receivedWavelet (nextEffectId ids) with
            position := blockStart r.timescale bl' band.upperFrequencyLimit j }] }) := by
      obtain ⟨-, -, -, ch, h1, h2⟩ := hband
      exact modifyBand_congr _ _ _ _ _ _ ch band h1 h2 (hmerge band rfl)
    rw [hmod]
    obtain ⟨t, ht⟩ := hb3 ps' hps
      { r with
        time := tx.toNat
        waitSync := false
        haptic := r.haptic.modifyBand p c k (fun bd =>
          { bd with effects := bd.effects ++ [{ e.receivedWavelet (nextEffectId ids) with
            position := blockStart r.timescale bl' band.upperFrequencyLimit j }] }) } p c k _ bl'
      (hband.modify _ _ rfl rfl) hbt hbl hbl0 hup (by simp [hlen])
      (by
        intro y hy
        have hm : blockStart r.timescale bl' band.upperFrequencyLimit j ≤
          blockStart r.timescale bl' band.upperFrequencyLimit (j + 1) :=
          blockStart_mono (by positivity) hbl0 hup (by omega)
        rw [nextEffectId_succ]
        simp only [List.mem_append, List.mem_singleton] at hy
        rcases hy with hy | rfl
        · have := hold y hy
          exact ⟨by omega, le_trans this.2 hm⟩
        · exact ⟨by change nextEffectId ids < _; omega, hm⟩) rfl
    refine ⟨t, ?_⟩
    rw [ht]
    simp only [modifyBand_modifyBand, nextEffectId_succ, placedFrom, hws]
    congr 2
    congr 1
    funext bd
    simp [Function.comp]

/-- **C58** What a receiver has of a wavelet band, for all block lengths and packet durations for which the sender
ends: the blocks that are sent (`c58_sent`), put one after the other where the receiver believes them to be
(`blockStart`).  The receiver knows the band, perhaps with another block length (which has 8 bits in the stream). -/
theorem c58_received (b : Band) (hbt : b.bandType = BandType.WaveletWave) (bl pd : Nat)
    (hbl : b.blockLength = some (bl : Int)) (h0 : 0 < bl) (h1 : bl ≤ pd)
    (addr : Address) (hap : U 8 addr.perceId) (hac : U 16 addr.channelId) (hab : U 8 addr.bandId)
    (semantic : Option String) (hsem : ∀ s ∈ semantic, (semanticCode s).isSome)
    (hw1 : ∀ e ∈ b.effects, e.semantic = semantic) (hw2 : ∀ e ∈ b.effects, e.waveletBitstream.length < 65536)
    (ids : List Int) (hids : ∀ i ∈ ids, -1 ≤ i)
    (hmax : nextEffectId ids + b.effects.length ≤ 65536) :
    ∃ sent, (∀ k : Nat, sent[k]? = b.effects[pd / bl * k]?) ∧
    ∃ bs ids', packetizeBand pd addr b ids = .ok (bs, ids') ∧
      bs.length = sent.length ∧
      (∀ (i : Nat) (x : Bits), bs[i]? = some x → timestampOf x = (i * bl : Nat) % 2 ^ 32) ∧
      ∀ (ps : List (Int × Bits)),
        List.Forall₂ (fun x y => x.1 = timestampOf y ∧ ∃ rest, x.2 = y.drop 32 ++ rest) ps bs →
        ∀ (r : Reader) (p c k : Nat) (band : Band) (bl' : Int), HasBand r addr p c k band →
          band.bandType = BandType.WaveletWave → band.blockLength = some bl' → 0 ≤ bl' →
          0 < band.upperFrequencyLimit → band.effects = [] → r.waitSync = false →
          ∃ t, receiveAll ps r = .ok { r with
            time := t
            haptic := r.haptic.modifyBand p c k (fun bd =>
              { bd with effects :=
                placedFrom r.timescale bl' band.upperFrequencyLimit (nextEffectId ids) 0 sent }) } := by
  obtain ⟨sent, hs, hk⟩ := c58_sent b bl pd hbl h0 h1
  have hn : 0 < pd / bl := Nat.div_pos h1 h0
  have hsub : ∀ e ∈ sent, e ∈ b.effects := fun e he => by
    obtain ⟨i, hi⟩ := List.getElem?_of_mem he
    rw [hk] at hi
    exact List.mem_of_getElem? hi
  have hlen : sent.length ≤ b.effects.length := by
    by_contra hc
    have h2 := hk b.effects.length
    rw [List.getElem?_eq_none (l := b.effects) (Nat.le_mul_of_pos_left _ hn)] at h2
    have := List.getElem?_eq_none_iff.mp h2
    omega
  obtain ⟨bs, ids', hb1, hb0, hb2, hb3⟩ := waveletPackets_spec addr hap hac hab bl
    semantic hsem sent ids 0 (fun e he => hw1 e (hsub e he)) (fun e he => hw2 e (hsub e he)) hids (by omega)
  have hb1' : waveletPackets addr (b.effects.head?.bind (·.semantic)) b.blockLengthOrDefault 0 sent ids
      = .ok (bs, ids') := by
    have hd : b.blockLengthOrDefault = bl := by simp [Band.blockLengthOrDefault, hbl]
    rw [hd]
    rw [Nat.cast_zero, zero_mul] at hb1
    cases sent with
    | nil => exact hb1
    | cons e l =>
      obtain ⟨x, l', hx⟩ := List.exists_cons_of_ne_nil (List.ne_nil_of_mem (hsub e (by simp)))
      have : (b.effects.head?.bind (·.semantic)) = semantic := by
        rw [hx]
        exact hw1 x (by rw [hx]; simp)
      rw [this]
      exact hb1
  refine ⟨sent, hk, bs, ids', ?_, hb0, fun i x hx => ?_, ?_⟩
  · unfold packetizeBand
    rw [if_pos hbt, hs]
    exact hb1'
  · rw [hb2 i x hx]
    push_cast
    simp
  · intro ps hps r p c k band bl' hband k1 k2 k3 k4 k5 k6
    obtain ⟨t, ht⟩ := hb3 ps hps r p c k band bl' hband k1 k2 k3 k4 (by simp [k5]) (by simp [k5]) k6
    refine ⟨t, ?_⟩
    rw [ht]
    congr 2
    obtain ⟨-, -, -, ch, h1, h2⟩ := hband
    exact modifyBand_congr _ _ _ _ _ _ ch band h1 h2 (by simp [k5])

/-- Blocks that follow each other without gaps are put where they were, when the upper limit is the timescale. -/
theorem placedFrom_same {ts : Int} (hts : 0 < ts) {bl : Int} (l : List Effect) (n : Int) (j : Nat)
    (h : ∀ (i : Nat) (e : Effect), l[i]? = some e → e.position = (j + i : Nat) * bl) :
    placedFrom ts bl ts n j l = numberedFrom n l := by
  induction l generalizing n j with
  | nil => rfl
  | cons e l ih =>
    have he : blockStart ts bl ts j = e.position := by
      unfold blockStart
      rw [mul_assoc, Int.mul_ediv_cancel_left _ hts.ne', h 0 e rfl]
      push_cast
      ring
    rw [placedFrom, numberedFrom, he, ih (n + 1) (j + 1) (fun i x hx => by
      rw [h (i + 1) x (by simpa using hx), show j + 1 + i = j + (i + 1) by omega])]
    rfl

/-- **C58** When exactly one block fits a packet, and the band's blocks are counted in ticks of the
receiver's clock (its upper frequency limit is the timescale), every effect of a wavelet band is sent once,
at its time, and a receiver that knows the band ends up with all of them, each where it was. -/
theorem c58_partial (b : Band) (hbt : b.bandType = BandType.WaveletWave) (bl pd : Nat)
    (hbl : b.blockLength = some (bl : Int)) (h0 : 0 < bl) (h1 : bl ≤ pd) (h2 : pd < 2 * bl)
    (addr : Address) (hap : U 8 addr.perceId) (hac : U 16 addr.channelId) (hab : U 8 addr.bandId)
    (semantic : Option String) (hsem : ∀ s ∈ semantic, (semanticCode s).isSome)
    (hw : WaveletBlocks bl semantic b.effects) (hlt : ∀ e ∈ b.effects, e.position < 2 ^ 32)
    (ids : List Int) (hids : ∀ i ∈ ids, -1 ≤ i)
    (hmax : nextEffectId ids + b.effects.length ≤ 65536) :
    ∃ bs ids', packetizeBand pd addr b ids = .ok (bs, ids') ∧
      bs.map timestampOf = b.effects.map (·.position) ∧
      ∀ (ps : List (Int × Bits)),
        List.Forall₂ (fun x y => x.1 = timestampOf y ∧ ∃ rest, x.2 = y.drop 32 ++ rest) ps bs →
        ∀ (r : Reader) (p c k : Nat) (band : Band), HasBand r addr p c k band →
          band.bandType = BandType.WaveletWave → band.blockLength = some (bl : Int) →
          band.upperFrequencyLimit = r.timescale → 0 < r.timescale → band.effects = [] →
          r.waitSync = false →
          ∃ t, receiveAll ps r = .ok { r with
            time := t
            haptic := r.haptic.modifyBand p c k (fun band =>
              { band with effects := numberedFrom (nextEffectId ids) b.effects }) } := by
  obtain ⟨sent, hk, bs, ids', hb1, hb0, hb2, hb3⟩ := c58_received b hbt bl pd hbl h0 h1 addr hap hac hab semantic hsem
    hw.semantic hw.size ids hids hmax
  have hn : pd / bl = 1 := by
    rw [Nat.div_eq_iff h0]; constructor <;> omega
  have hse : sent = b.effects := List.ext_getElem? (fun k => by rw [hk, hn, Nat.one_mul])
  subst hse
  refine ⟨bs, ids', hb1, ?_, ?_⟩
  · refine List.ext_getElem (by simp [hb0]) (fun i h1 h2 => ?_)
    simp only [List.length_map] at h1 h2
    rw [List.getElem_map, List.getElem_map, hb2 i _ (List.getElem?_eq_getElem h1)]
    have hp := hw.position i _ (List.getElem?_eq_getElem h2)
    have hl := hlt _ (List.getElem_mem h2)
    rw [hp] at hl ⊢
    push_cast
    exact Int.emod_eq_of_lt (by positivity) hl
  · intro ps hps r p c k band hband k1 k2 k3 k4 k5 k6
    obtain ⟨t, ht⟩ := hb3 ps hps r p c k band bl hband k1 k2 (by positivity) (by omega) k5 k6
    refine ⟨t, ?_⟩
    rw [ht, k3, placedFrom_same (by exact_mod_cast k4) _ _ _ (by simpa using hw.position)]

/-- Non-vacuity: three blocks of 100 ticks. -/
example : ∃ (b : Band) (r : Reader), b.effects.length = 3 ∧ b.bandType = BandType.WaveletWave ∧
    b.blockLength = some ((100 : Nat) : Int) ∧ 100 ≤ 128 ∧ 128 < 2 * 100 ∧
    WaveletBlocks (100 : Nat) none b.effects ∧ nextEffectId [] + b.effects.length ≤ 65536 ∧
    HasBand r ⟨4, 2, 9⟩ 0 0 0 { b with effects := [] } ∧ b.upperFrequencyLimit = r.timescale ∧
    0 < r.timescale := by
  let b : Band :=
    { bandType := BandType.WaveletWave, blockLength := some 100, upperFrequencyLimit := 1000
      effects := [{ position := 0, waveletBitstream := [1] }, { position := 100, waveletBitstream := [2] },
        { position := 200, waveletBitstream := [3] }] }
  refine ⟨b, { haptic := { perceptions := [{ id := 4, channels :=
      [{ id := 2, bands := [{ b with effects := [] }] }] }] }, bandStreams := [(9, 0)], timescale := 1000 },
    rfl, rfl, rfl, by norm_num, by norm_num, ⟨?_, ?_, ?_⟩, by decide, ⟨rfl, rfl, rfl, _, rfl, rfl⟩, rfl,
    by decide⟩
  · intro j e he
    match j with
    | 0 | 1 | 2 => simp only [b] at he; cases he; norm_num
    | j + 3 => simp [b] at he
  · simp [b]
  · simp [b]

/-- **C58, negation.** A block of 100 ticks (0.1 s at 1000 ticks per second) of a band that reaches up to
500 Hz: the second block is received at 200 instead of 100.  The block length is a number of ticks for the
sender (WaveletEncoder.cpp:55-84, IOStream.cpp:1925) and a number of samples for the receiver. -/
theorem c58_position_negation : ∃ h : Experience,
    h.perceptions.map (fun p => p.channels.map (fun c => c.bands.map (fun b => b.effects.map (·.position))))
      = [[[[0, 100]]]] ∧
    (throughStream h 128).map (fun e => e.perceptions.map (fun p => p.channels.map (fun c =>
        c.bands.map (fun b => b.effects.map (·.position)))))
      = some [[[[0, 200]]]] := by
  refine ⟨oneBand
    { bandType := BandType.WaveletWave, blockLength := some 100, upperFrequencyLimit := 500
      effects := [{ position := 0, waveletBitstream := [1] }, { position := 100, waveletBitstream := [2] }] },
    by decide, by decide +kernel⟩

/-! ### Composite effects -/

mutual
theorem timelineLeaves_placed (t : Int) : ∀ e : Effect, e.effectType = EffectType.Composite →
    (timelineLeaves e).map (fun x => { x with position := 0 })
      = (e.placed t).map (fun x => { x with position := 0 })
  | ⟨_, _, _, _, _, _, _, timeline, _⟩, h => by
    simp only at h
    unfold timelineLeaves Effect.placed
    rw [if_pos h]
    exact leaves_placed _ timeline
theorem leaves_placed (t : Int) : ∀ l : List Effect,
    (leaves l).map (fun x => { x with position := 0 })
      = (placedAll t l).map (fun x => { x with position := 0 })
  | [] => by simp [leaves, placedAll]
  | e :: l => by
    unfold leaves placedAll
    rw [List.map_append, List.map_append, leaves_placed t l]
    congr 1
    split
    · rename_i h
      exact timelineLeaves_placed t e h
    · rename_i h
      cases e
      simp only at h
      unfold Effect.placed
      rw [if_neg h]
      rfl
end

mutual
theorem timelineLeaves_flat : ∀ e : Effect, e.FlatStart → e.effectType = EffectType.Composite →
    timelineLeaves e = e.placed 0
  | ⟨_, _, _, _, _, _, _, timeline, _⟩, hf, h => by
    simp only at h
    unfold Effect.FlatStart at hf
    obtain ⟨h1, h2⟩ := hf h
    unfold timelineLeaves Effect.placed
    rw [if_pos h, h1]
    exact leaves_flat timeline h2
theorem leaves_flat : ∀ l : List Effect, flatStartAll l → leaves l = placedAll 0 l
  | [], _ => by simp [leaves, placedAll]
  | e :: l, hf => by
    unfold flatStartAll at hf
    unfold leaves placedAll
    rw [leaves_flat l hf.2]
    congr 1
    split
    · rename_i h
      exact timelineLeaves_flat e hf.1 h
    · rename_i h
      cases e
      simp only at h
      unfold Effect.placed
      rw [if_neg h, zero_add]
end

/-- **C59** Whatever the nesting, the effects of a band after its composite effects are dissolved are
exactly the parts they are made of, none lost and none repeated, in time order – as far as everything but
their positions is concerned. -/
theorem c59_parts (b : Band) :
    (b.linearizeTimeline.effects.map (fun x => { x with position := 0 })).Perm
      ((placedAll 0 b.effects).map (fun x => { x with position := 0 })) ∧
    TimeOrdered b.linearizeTimeline.effects ∧
    { b.linearizeTimeline with effects := [] } = { b with effects := [] } := by
  obtain ⟨h1, h2, -, h4⟩ := c26_addEffect { b with effects := [] } (leaves b.effects)
    List.Pairwise.nil
  refine ⟨?_, h1, h4⟩
  rw [← leaves_placed 0 b.effects]
  rw [List.nil_append] at h2
  exact h2.map _

/-- **C59** The parts are where the composite effects play them, if every composite effect starts together
with what contains it; parts at the same time stay in order. -/
theorem c59_partial (b : Band) (h : flatStartAll b.effects) :
    b.linearizeTimeline.effects.Perm (placedAll 0 b.effects) ∧
    TimeOrdered b.linearizeTimeline.effects ∧
    ∀ t, b.linearizeTimeline.effects.filter (fun e => e.position == t)
      = (placedAll 0 b.effects).filter (fun e => e.position == t) := by
  obtain ⟨h1, h2, h3, -⟩ := c26_addEffect { b with effects := [] } (leaves b.effects)
    List.Pairwise.nil
  rw [← leaves_flat _ h]
  simp only [List.nil_append] at h2 h3
  exact ⟨h2, h1, h3⟩

/-- **C59, negation.** A composite effect at 1000 with parts 0 and 100 after its start plays them at 1000
and 1100; in the stream they are at 0 and 100. -/
theorem c59_negation : ∃ b : Band,
    (placedAll 0 b.effects).map (·.position) = [1000, 1100] ∧
    b.linearizeTimeline.effects.map (·.position) = [0, 100] ∧
    (throughStream (oneBand b) 128).map (fun e => e.perceptions.map (fun p => p.channels.map (fun c =>
        c.bands.map (fun b => b.effects.map (·.position)))))
      = some [[[[0, 100]]]] := by
  refine ⟨{ effects := [{ position := 1000, effectType := EffectType.Composite
                          timeline := [{ id := 1, keyframes := [{ relativePosition := some 0 }] },
                            { id := 2, position := 100, keyframes := [{ relativePosition := some 0 }] }] }] },
    by decide, by decide, by decide +kernel⟩

/-- Non-vacuity of `c59_partial`: a composite effect in another. -/
example : ∃ b : Band, flatStartAll b.effects ∧
    b.linearizeTimeline.effects.map (fun e => (e.id, e.position)) = [(1, 0), (3, 50), (2, 100)] := by
  refine ⟨{ effects := [{ effectType := EffectType.Composite
                          timeline := [{ id := 1 }, { effectType := EffectType.Composite
                                                      timeline := [{ id := 2, position := 100 }] },
                            { id := 3, position := 50 }] }] }, ?_, by decide⟩
  simp [flatStartAll, Effect.FlatStart]

end Haptics
