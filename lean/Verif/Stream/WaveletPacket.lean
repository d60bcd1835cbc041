import Verif.Stream.SpecWavelet
import Verif.Stream.PropsTransmit
import Verif.Stream.PropsMeta

/-
The packets of a wavelet band: which are sent, and what a receiver makes of one.
-/
namespace Haptics

/-! ### Which blocks are sent -/

theorem waveletLoop_spec (effects : List Effect) (n : Nat) (hn : 0 < n) :
    ∀ (fuel i m : Nat), i ≤ effects.length → effects.length - i < fuel →
      (m = n ∨ i = effects.length) →
      ∃ sent, waveletLoop effects fuel i m = .ok sent ∧ ∀ k : Nat, sent[k]? = effects[i + n * k]? := by
  intro fuel
  induction fuel with
  | zero => intro i m _ h; omega
  | succ fuel ih =>
    intro i m hi hf hm
    unfold waveletLoop
    by_cases hlt : i < effects.length
    · have hmn : m = n := by omega
      subst hmn
      rw [if_pos (by exact_mod_cast hlt)]
      simp only [if_neg (show ¬ (i : Int) < 0 by omega), Int.toNat_natCast,
        List.getElem?_eq_getElem hlt]
      by_cases ho : effects.length < i + m
      · rw [if_pos (by push_cast; omega)]
        obtain ⟨l, h1, h2⟩ := ih effects.length (effects.length - i) le_rfl (by omega) (.inr rfl)
        have e1 : (i : Int) + ((effects.length : Int) - i) = (effects.length : Nat) := by push_cast; ring
        have e2 : (effects.length : Int) - i = ((effects.length - i : Nat) : Int) := by omega
        rw [e1, e2, h1]
        refine ⟨effects[i] :: l, rfl, fun k => ?_⟩
        cases k with
        | zero => simp [List.getElem?_eq_getElem hlt]
        | succ k =>
          have hbig : effects.length ≤ i + m * (k + 1) := by nlinarith [Nat.zero_le k]
          rw [List.getElem?_cons_succ, h2, List.getElem?_eq_none (by nlinarith [Nat.zero_le k]),
            List.getElem?_eq_none hbig]
      · rw [if_neg (by push_cast; omega)]
        obtain ⟨l, h1, h2⟩ := ih (i + m) m (by omega) (by omega) (.inl rfl)
        rw [show ((i : Int) + m) = ((i + m : Nat) : Int) by push_cast; ring, h1]
        refine ⟨effects[i] :: l, rfl, fun k => ?_⟩
        cases k with
        | zero => simp [List.getElem?_eq_getElem hlt]
        | succ k => rw [List.getElem?_cons_succ, h2]; congr 1; ring
    · have : i = effects.length := by omega
      subst this
      rw [if_neg (by simp)]
      refine ⟨[], rfl, fun k => ?_⟩
      rw [List.getElem?_eq_none (by simp), List.getElem?_eq_none (by omega)]

/-- Which blocks are sent. -/
theorem wavelet_sent (b : Band) (bl pd : Nat) (hb : b.blockLength = some (bl : Int)) (h0 : 0 < bl)
    (h1 : bl ≤ pd) :
    ∃ sent, createWaveletPayload pd b = .ok sent ∧ ∀ k : Nat, sent[k]? = b.effects[pd / bl * k]? := by
  unfold createWaveletPayload
  simp only [hb]
  rw [if_neg (by omega)]
  obtain ⟨l, h2, h3⟩ := waveletLoop_spec b.effects (pd / bl) (Nat.div_pos h1 h0) (b.effects.length + 2) 0
    (pd / bl) (Nat.zero_le _) (by omega) (.inl rfl)
  have : ((pd : Int).tdiv bl) = ((pd / bl : Nat) : Int) := by
    rw [Int.tdiv_eq_ediv_of_nonneg (by omega)]; push_cast; rfl
  rw [this]
  exact ⟨l, h2, fun k => by rw [h3, Nat.zero_add]⟩

/-! ### Reception -/

theorem nextEffectId_ge {ids : List Int} (h : ∀ i ∈ ids, -1 ≤ i) : 0 ≤ nextEffectId ids := by
  cases ids with
  | nil => simp [nextEffectId]
  | cons a l =>
    have h1 := c20_next (a :: l) a (by simp)
    have h2 := h a (by simp)
    omega

theorem foldl_max_append (l : List Int) : ∀ a b : Int, l.foldl max a < b → (l ++ [b]).foldl max a = b := by
  intro a b h
  rw [List.foldl_append]
  simp only [List.foldl_cons, List.foldl_nil]
  omega

/-- The identifiers handed out are consecutive. -/
theorem nextEffectId_succ (ids : List Int) :
    nextEffectId (ids ++ [nextEffectId ids]) = nextEffectId ids + 1 := by
  cases ids with
  | nil => rfl
  | cons a l =>
    change (l ++ [l.foldl max a + 1]).foldl max a + 1 = l.foldl max a + 1 + 1
    rw [foldl_max_append _ _ _ (by omega)]

/-- One wavelet packet: accepted by every reader that knows the band and not waiting in vain, it adds the
block after those the reader has. -/
theorem waveletPacket_read (addr : Address) (hap : U 8 addr.perceId) (hac : U 16 addr.channelId)
    (hab : U 8 addr.bandId) (time id : Int) (hid : U 16 id) (e : Effect)
    (hsem : ∀ s ∈ e.semantic, (semanticCode s).isSome) (hsize : e.waveletBitstream.length < 65536) :
    ∃ body, writeWaveletPayloadPacket addr time id e.semantic e = .ok (writeNBits 32 time ++ body) ∧
      ∀ (rest : Bits) (r : Reader) (p c b : Nat) (band : Band) (bl : Int), HasBand r addr p c b band →
        band.bandType = BandType.WaveletWave → band.blockLength = some bl →
        band.upperFrequencyLimit ≠ 0 →
        readData (body ++ rest) r = .ok (true, { r with
          waitSync := false
          haptic := addEffectToHaptic r.haptic p c b [{ e.receivedWavelet id with
            position := ((r.timescale : Int) * bl * band.effects.length).tdiv
              band.upperFrequencyLimit }] }) := by
  obtain ⟨sem, hs1, hs2⟩ := writeSemantic_w e.semantic hsem
  refine ⟨writeNBits DB_AU_TYPE 0 ++ (writeNBits MDPERCE_ID addr.perceId ++
      (writeNBits MDCHANNEL_ID addr.channelId ++ (writeNBits MDBAND_ID addr.bandId ++
        (writeNBits DB_EFFECT_COUNT 1 ++ (writeNBits EFFECT_ID id
      ++ (writeNBits EFFECT_TYPE EffectType.Basis ++ (sem ++ writeWaveletBytes e))))))),
    by simp only [writeWaveletPayloadPacket, hs1, writeEffectHeader, List.append_assoc, DB_DURATION]; rfl, ?_⟩
  intro rest r p c b band bl hband hbt hbl hup
  obtain ⟨hp, hc, hs, ch, hch, hbd⟩ := hband
  have hmod : e.waveletBitstream.length % 65536 = e.waveletBitstream.length := Nat.mod_eq_of_lt hsize
  unfold readData
  simp only [List.append_assoc, readUInt_w (n := DB_AU_TYPE) (v := 0) (by decide)]
  rw [if_neg (by simp)]
  unfold readDataBody
  simp only [Rd.bind_apply, readUInt_w hap, readUInt_w hac, readUInt_w hab, searchPerceptionInHaptic,
    hp, hc, hch, searchBandInHaptic, hs, hbd, readUInt_w (n := DB_EFFECT_COUNT) (v := 1) (by decide)]
  rw [if_pos (by decide)]
  unfold readEffects
  rw [if_neg (by rw [hbt]; simp)]
  unfold readWaveletEffect
  simp only [Rd.bind_apply, readUInt_w (n := EFFECT_ID) hid, hs2, hbl, if_neg hup,
    readUInt_w (n := EFFECT_TYPE) (v := EffectType.Basis) (by decide)]
  unfold readWaveletBytes writeWaveletBytes
  simp only [Rd.bind_apply, List.append_assoc, hmod,
    readUInt_wn (n := EFFECT_WAVELET_SIZE) (show e.waveletBitstream.length < 2 ^ 16 by omega),
    Int.toNat_natCast, rdStr_strBits _ _ _ rfl, Rd.pure_apply]
  rfl

end Haptics
