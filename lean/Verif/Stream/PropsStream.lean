import Verif.Stream.StreamLemmas
import Verif.Stream.StreamPlaces
import Verif.Stream.PropsClock
import Verif.Stream.PropsTidy

/-
C57: a whole experience is received through a stream.
-/
namespace Haptics

/-! ### What the packets do to the bands -/

/-- What one packet does to its band: a block follows the blocks before it, other effects are merged with what is
there. -/
def received (o : AddressedBand × (Int × List Effect)) (band : Band) : Band :=
  if o.1.band.bandType = BandType.WaveletWave then
    { band with effects := band.effects ++ o.2.2.map (Effect.receivedBy o.1.band.bandType) }
  else (o.2.2.map (Effect.receivedIn o.1.band.bandType)).foldl mergeEffect band

/-- What one packet does to all bands. -/
def applyTo (L : List Band) (o : AddressedBand × (Int × List Effect)) : List Band :=
  L.modify o.1.addr.bandId.toNat (received o)

theorem received_bandType (o : AddressedBand × (Int × List Effect)) (b : Band) :
    (received o b).bandType = b.bandType := by
  unfold received
  split
  · rfl
  · exact foldl_mergeEffect_bandType _ _

/-- Blocks one after the other. -/
theorem received_blocks (x : AddressedBand) (hx : x.band.bandType = BandType.WaveletWave) (es : List Effect) :
    ∀ b : Band, (es.map (fun e => (x, (e.position, [e])))).foldl (fun b o => received o b) b
      = { b with effects := b.effects ++ es.map (Effect.receivedBy x.band.bandType) } := by
  induction es with
  | nil => intro b; simp
  | cons e es ih =>
    intro b
    rw [List.map_cons, List.foldl_cons, ih]
    have : received (x, (e.position, [e])) b = { b with effects := b.effects ++ [e.receivedBy x.band.bandType] } := by
      unfold received
      rw [if_pos hx]
      rfl
    rw [this]
    simp

theorem applyTo_bandType (ops : List (AddressedBand × (Int × List Effect))) : ∀ L : List Band,
    (ops.foldl applyTo L).map (·.bandType) = L.map (·.bandType) := by
  have key : ∀ (o : AddressedBand × (Int × List Effect)) (L : List Band),
      (applyTo L o).map (·.bandType) = L.map (·.bandType) := by
    intro o L
    unfold applyTo
    generalize o.1.addr.bandId.toNat = n
    induction L generalizing n with
    | nil => cases n <;> rfl
    | cons b L ih =>
      cases n with
      | zero => simp [received_bandType]
      | succ n => simp [ih]
  induction ops with
  | nil => intro L; rfl
  | cons o ops ih => intro L; rw [List.foldl_cons, ih, key]

theorem applyTo_get (ops : List (AddressedBand × (Int × List Effect))) (n : Nat) : ∀ L : List Band,
    (ops.foldl applyTo L)[n]? = L[n]?.map (fun b =>
      (ops.filter (fun o => o.1.addr.bandId.toNat == n)).foldl (fun b o => received o b) b) := by
  induction ops with
  | nil => intro L; simp
  | cons o ops ih =>
    intro L
    rw [List.foldl_cons, ih, List.filter_cons]
    unfold applyTo
    by_cases h : o.1.addr.bandId.toNat = n
    · subst h
      rw [List.getElem?_modify_eq]
      cases L[o.1.addr.bandId.toNat]? <;> simp
    · rw [List.getElem?_modify_ne _ _ h]
      rw [if_neg (by simpa using h)]

/-! ### Which packets a band has -/

theorem numbered_keys (l : List (Perception × Channel × Band)) : ∀ m : Nat,
    (numbered m l).map (fun x => x.addr.bandId.toNat) = List.range' m l.length := by
  induction l with
  | nil => intro m; rfl
  | cons x l ih => intro m; simp [numbered, ih, List.range'_succ]

theorem filter_sendings {α β : Type} (key : α → Nat) (S : α → List β) (l : List α) (x : α) (hx : x ∈ l)
    (hk : (l.map key).Nodup) :
    (l.flatMap (fun y => (S y).map (fun w => (y, w)))).filter (fun o => key o.1 == key x)
      = (S x).map (fun w => (x, w)) := by
  obtain ⟨l1, l2, rfl⟩ := List.append_of_mem hx
  rw [List.map_append, List.map_cons, List.nodup_append, List.nodup_cons] at hk
  obtain ⟨-, ⟨h1, -⟩, h2⟩ := hk
  have empty : ∀ m : List α, (∀ y ∈ m, key y ≠ key x) →
      (m.flatMap (fun y => (S y).map (fun w => (y, w)))).filter (fun o => key o.1 == key x) = [] := by
    intro m hm
    rw [List.filter_eq_nil_iff]
    intro o ho
    simp only [List.mem_flatMap, List.mem_map] at ho
    obtain ⟨y, hy, w, -, rfl⟩ := ho
    simpa using hm y hy
  rw [List.flatMap_append, List.flatMap_cons, List.filter_append, List.filter_append,
    empty l1 (fun y hy => h2 _ (List.mem_map_of_mem hy) _ (by simp)),
    empty l2 (fun y hy h => h1 (by rw [← h]; exact List.mem_map_of_mem hy)),
    List.nil_append, List.append_nil, List.filter_eq_self]
  intro o ho
  simp only [List.mem_map] at ho
  obtain ⟨w, -, rfl⟩ := ho
  simp

theorem bandSendings_sorted {ts d : Nat} (hd : 0 < d) {b : Band} (hf : b.EffectsFit d ∨ b.BlocksFit ts d) :
    (bandSendings d b).Pairwise (fun a b => a.1 < b.1) := by
  rcases hf with hf | hf
  · rw [bandSendings, if_neg (keyframeBand_ne hf.bandType)]
    exact packetsOf_sorted (by omega) _ _ _
  · rw [bandSendings, if_pos hf.bandType, List.pairwise_map]
    obtain ⟨semantic, -, hw⟩ := hf.blocks
    rw [List.pairwise_iff_getElem]
    intro i k hi hk hik
    rw [hw.position i _ (List.getElem?_eq_getElem hi), hw.position k _ (List.getElem?_eq_getElem hk)]
    have : (i : Int) < k := by omega
    exact mul_lt_mul_of_pos_right this (by omega)

/-- The packets of a band come in order. -/
theorem ops_of_band {ts d : Nat} (hd : 0 < d) {g : Experience} (hf : ∀ x ∈ bandsOf g, x.Fits ts d)
    {ops : List (AddressedBand × (Int × List Effect))} (hp : ops.Perm (allSendings d (bandsOf g)))
    (hs : ops.Pairwise (fun a b => a.2.1 ≤ b.2.1)) (x : AddressedBand) (hx : x ∈ bandsOf g) :
    ops.filter (fun o => o.1.addr.bandId.toNat == x.addr.bandId.toNat)
      = (bandSendings d x.band).map (fun w => (x, w)) := by
  have hk : ((bandsOf g).map (fun x => x.addr.bandId.toNat)).Nodup := by
    rw [bandsOf_eq, numbered_keys]
    exact List.nodup_range'
  have e := filter_sendings (fun x : AddressedBand => x.addr.bandId.toNat)
    (fun x => bandSendings d x.band) (bandsOf g) x hx hk
  have hp2 := hp.filter (fun o => o.1.addr.bandId.toNat == x.addr.bandId.toNat)
  unfold allSendings at hp2
  rw [e] at hp2
  have hsort := bandSendings_sorted hd (hf x hx).effects
  have hs2 : ((bandSendings d x.band).map (fun w => (x, w))).Pairwise (fun a b => a.2.1 ≤ b.2.1) := by
    rw [List.pairwise_map]
    exact hsort.imp (fun h => le_of_lt h)
  refine List.Perm.eq_of_pairwise (le := fun a b => a.2.1 ≤ b.2.1) ?_ (hs.filter _) hs2 hp2
  intro a b ha hb h1 h2
  rw [hp2.mem_iff] at ha
  simp only [List.mem_map] at ha hb
  obtain ⟨w, hw, rfl⟩ := ha
  obtain ⟨v, hv, rfl⟩ := hb
  have e3 : w.1 = v.1 := le_antisymm h1 h2
  have hn : ((bandSendings d x.band).map (·.1)).Nodup := by
    unfold List.Nodup
    rw [List.pairwise_map]
    exact hsort.imp (fun h => ne_of_lt h)
  rw [List.inj_on_of_nodup_map hn hw hv e3]

/-- All packets of a band restore its effects. -/
theorem received_all {ts d : Nat} (hd : 0 < d) (x : AddressedBand) (hx : x.Fits ts d) (b : Band)
    (hb : b.effects = []) :
    ((bandSendings d x.band).map (fun w => (x, w))).foldl (fun b o => received o b) b
      = { b with effects := x.band.effects.map (Effect.receivedBy x.band.bandType) } := by
  rcases hx.effects with hE | hB
  case inr =>
    rw [bandSendings, if_pos hB.bandType, List.map_map]
    have := received_blocks x hB.bandType x.band.effects b
    rw [hb, List.nil_append] at this
    exact this
  have hne := keyframeBand_ne hE.bandType
  have eR : Effect.receivedBy x.band.bandType = Effect.receivedIn x.band.bandType := by
    funext e
    unfold Effect.receivedBy
    rw [if_neg hne]
  rw [bandSendings, if_neg hne, eR]
  have hev : ∀ e ∈ x.band.effects.map (Effect.receivedIn x.band.bandType), ∀ t ∈ e.eventTimes,
      0 ≤ t ∧ t < ((2 ^ 24 : Nat) : Int) * (d : Int) := by
    intro e he t ht
    obtain ⟨e', he', rfl⟩ := List.mem_map.1 he
    rw [receivedIn_eventTimes] at ht
    obtain ⟨h1, h2⟩ := hE.events e' he' t ht
    refine ⟨h1, ?_⟩
    have : (1 : Int) ≤ d := by omega
    push_cast
    nlinarith
  have h := c19_reassemble d (by omega) _ (receivedIn_sequential (bt := x.band.bandType) hE.sequential)
    (receivedIn_distinct hE.distinct) b hb (2 ^ 24) hev
  rw [receivedIn_packetsOf, List.foldl_map] at h
  rw [List.foldl_map]
  refine Eq.trans ?_ h
  congr 1
  funext b w
  unfold received
  rw [if_neg hne]

/-- A block is received after the blocks before it. -/
theorem SentBlock.read {addr : Address} (hap : U 8 addr.perceId) (hac : U 16 addr.channelId)
    (hab : U 8 addr.bandId) {b : Bits} {e : Effect} (h : SentBlock addr b (e.position, [e])) (hid : U 16 e.id)
    (hsem : ∀ s ∈ e.semantic, (semanticCode s).isSome) (hsize : e.waveletBitstream.length < 65536) (rest : Bits)
    (r : Reader) (p c k : Nat) (band : Band) (d j : Nat) (hb : HasBand r addr p c k band)
    (hbt : band.bandType = BandType.WaveletWave) (hbl : band.blockLength = some (d : Int))
    (hup : band.upperFrequencyLimit = r.timescale) (hts : 0 < r.timescale) (hlen : band.effects.length = j)
    (hpos : e.position = j * d) (hold : ∀ x ∈ band.effects, x.id ≠ e.id ∧ x.position ≤ e.position)
    (hws : r.waitSync = false) :
    readData (b.drop 32 ++ rest) r = .ok (true, { r with
      haptic := r.haptic.modifyBand p c k (fun band =>
        { band with effects := band.effects ++ [e.receivedWavelet e.id] }) }) := by
  obtain ⟨e', he', hw⟩ := h
  have : e = e' := by
    have := congrArg Prod.snd he'
    simpa using this
  subst this
  obtain ⟨body, h1, h2⟩ := waveletPacket_read addr hap hac hab e.position e.id hid e hsem hsize
  rw [h1] at hw
  rw [← Except.ok.inj hw, List.drop_append_of_le_length (by simp), List.drop_of_length_le (by simp), List.nil_append,
    h2 rest r p c k band d hb hbt hbl (by rw [hup]; omega)]
  have hpp : ((r.timescale : Int) * d * band.effects.length).tdiv band.upperFrequencyLimit = e.position := by
    rw [hup, hlen, hpos, show (r.timescale : Int) * d * j = r.timescale * (j * d) by ring]
    exact Int.mul_tdiv_cancel_left _ (by omega)
  have hself : ({ e.receivedWavelet e.id with position := e.position } : Effect) = e.receivedWavelet e.id := rfl
  rw [hpp, hself]
  have hmod : addEffectToHaptic r.haptic p c k [e.receivedWavelet e.id]
      = r.haptic.modifyBand p c k (fun bd => { bd with effects := bd.effects ++ [e.receivedWavelet e.id] }) := by
    obtain ⟨-, -, -, ch, k1, k2⟩ := hb
    refine modifyBand_congr _ _ _ _ _ _ ch band k1 k2 ?_
    simp only [List.foldl_cons, List.foldl_nil]
    unfold mergeEffect
    rw [if_pos (by rfl), List.findIdx?_eq_none_iff.mpr]
    · simp only [Band.addEffect]
      rw [insertEffect_append]
      intro y hy
      exact (hold y hy).2
    · intro y hy
      simp only [beq_eq_false_iff_ne, ne_eq]
      exact (hold y hy).1
  rw [hmod]
  cases r
  dsimp only at hws
  subst hws
  rfl

/-! ### The packets on the wire -/

/-- A packet's time and the rest. -/
def splitPacket (b : Bits) : Nat × Bits := ((timestampOf b).toNat, b.drop 32)

theorem timedPacket_split (b : Bits) (h : 32 ≤ b.length) :
    timedPacket (splitPacket b) = writePacket PacketType.Data b := by
  unfold timedPacket splitPacket timestampOf
  dsimp only
  have e : writeNBits DB_DURATION ((((bitsVal (b.take 32) : Nat) : Int).toNat : Nat) : Int) = b.take 32 := by
    rw [Int.toNat_natCast]
    have := writeNBits_bitsVal (b.take 32)
    rw [List.length_take, Nat.min_eq_left h] at this
    exact this
  rw [e, List.take_append_drop]

/-! ### The receiver -/

/-- What the receiver knows after the first packets: the components, and the effects of the packets. -/
structure Knows (g old : Experience) (ts : Nat) (ops : List (AddressedBand × (Int × List Effect)))
    (done : List (Nat × Bits)) (r : Reader) : Prop where
  bare : r.haptic.perceptions.map Perception.bare = (g.withBands old).perceptions.map Perception.bare
  rest : { r.haptic with perceptions := [] } = { g.withBands old with perceptions := [] }
  bands : flatBands r.haptic.perceptions
    = (ops.take done.length).foldl applyTo (flatBands (g.withBands old).perceptions)
  streams : r.bandStreams = g.streams
  waitSync : r.waitSync = false
  crc : r.crc.nbPackets = 0
  timescale : r.timescale = ts

theorem fillBitset_pad (b : Bits) : ∃ pad, fillBitset b = b ++ pad := ⟨_, rfl⟩

theorem flatBands_withBands (ps : List Perception) :
    flatBands (ps.map Perception.withBands) = (flatBands ps).map Band.receivedHeader := by
  simp only [flatBands, List.flatMap_map, Perception.withBands, Channel.withBands, List.map_flatMap]

theorem bandsOf_flat (g : Experience) : (bandsOf g).map (·.band) = flatBands g.perceptions := by
  have key : ∀ (l : List (Perception × Channel × Band)) (m : Nat),
      (numbered m l).map (·.band) = l.map (·.2.2) := by
    intro l
    induction l with
    | nil => intro m; rfl
    | cons x l ih => intro m; simp [numbered, ih]
  rw [bandsOf_eq, key]
  simp only [triples, flatBands, List.map_flatMap, List.map_map, Function.comp_def, List.map_id']

/-- The actual receiver accepts all packets. -/
theorem receives {d : Nat} (hd : 0 < d) (hd2 : d < 2 ^ 24) {g : Experience} (hg : g.Clear) (old : Experience)
    (ts : Nat) (hf : ∀ x ∈ bandsOf g, x.Fits ts d) {out : List Bits} {ops : List (AddressedBand × (Int × List Effect))}
    (hso : List.Forall₂ SentFor out ops) (hperm : ops.Perm (allSendings d (bandsOf g)))
    (hsorted : ops.Pairwise (fun a b => a.2.1 ≤ b.2.1)) :
    Receives dispatch (out.map splitPacket) (Knows g old ts ops) where
  frame := by
    intro done r time layer waitSync duration hw hk
    refine ⟨hk.bare, hk.rest, hk.bands, hk.streams, ?_, hk.crc, hk.timescale⟩
    have := hk.waitSync
    cases waitSync with
    | false => rfl
    | true => rw [hw rfl] at this; exact absurd this (by decide)
  crc := fun done r hk => hk.crc
  packet := by
    intro done x rest r hpre hk htime
    -- the packet and what it was sent for
    have hlen : done.length < out.length := by
      have := hpre.length_le
      rw [List.length_append, List.length_map, List.length_singleton] at this
      omega
    have hlen2 : done.length < ops.length := by rw [← hso.length_eq]; exact hlen
    have hx : x = splitPacket out[done.length] := by
      obtain ⟨t, ht⟩ := hpre
      have h1 : (done ++ [x] ++ t)[done.length]? = some x := by simp
      rw [ht, List.getElem?_map, List.getElem?_eq_getElem hlen] at h1
      simpa using h1.symm
    have hsent : SentFor out[done.length] ops[done.length] := (List.forall₂_iff_get.1 hso).2 _ hlen hlen2
    generalize hb : out[done.length] = b at hx hsent
    have hop := hperm.mem_iff.1 (List.getElem_mem hlen2)
    generalize ho : ops[done.length] = o at hsent hop
    simp only [allSendings, List.mem_flatMap, List.mem_map] at hop
    obtain ⟨y, hy, w, hw, rfl⟩ := hop
    have hyf := hf y hy
    obtain ⟨w1, w2, -⟩ := bandSendings_mem hyf.effects hw
    have hts := (hsent.timestamp w1 w2).2
    -- the band
    obtain ⟨n, hn, hyn⟩ := List.mem_iff_getElem.1 hy
    have hyn' : (bandsOf g)[n]? = some y := by rw [List.getElem?_eq_getElem hn, hyn]
    obtain ⟨P1, p, P2, C1, c, C2, B1, band, B2, hat, hbid, hhas⟩ := hasBand_of g old hg r hk.bare hk.streams n y hyn'
    have hbt : band.bandType = y.band.bandType := by
      have h1 : ((flatBands r.haptic.perceptions).map (·.bandType))[n]? = some band.bandType := by
        rw [hat.flat]
        have : n = (flatBands P1 ++ (C1.flatMap (·.bands) ++ B1)).length := by rw [hat.number]; simp
        rw [this]
        simp
      rw [hk.bands, applyTo_bandType] at h1
      have e : (flatBands (g.withBands old).perceptions).map (·.bandType)
          = (bandsOf g).map (fun x => x.band.bandType) := by
        have : (bandsOf g).map (fun x => x.band.bandType) = ((bandsOf g).map (·.band)).map (·.bandType) := by
          rw [List.map_map]; rfl
        rw [this, bandsOf_flat]
        unfold Experience.withBands
        dsimp only
        rw [flatBands_withBands, List.map_map]
        rfl
      rw [e, List.getElem?_map, hyn'] at h1
      simpa using h1.symm
    obtain ⟨pad, hpad⟩ := fillBitset_pad (b.drop 32)
    have hread : readData (b.drop 32 ++ (pad ++ rest)) r = .ok (true, { r with
        haptic := r.haptic.modifyBand P1.length C1.length B1.length (received (y, w)) }) := by
      rcases hyf.effects with hE | hB
      · have hne := keyframeBand_ne hE.bandType
        rw [bandSendings, if_neg hne] at hw
        obtain ⟨-, -, w3, w4, -⟩ := sendings_mem hE.events hw
        have hsent' := (sentFor_keyframes (o := (y, w)) hne).mp hsent
        have hr := SentAs.read (bandType := y.band.bandType) hE.bandType hyf.perceId hyf.channelId
          hyf.bandId (d := d) (by omega) hE.sendable hE.count hsent' w4 w3 w1
          (lt_trans w2 (by norm_num)) (pad ++ rest) r _ _ _ band hhas hbt hk.waitSync
          (by
            rw [htime, hx]
            unfold splitPacket
            dsimp only
            rw [hts]
            exact Int.toNat_of_nonneg w1)
        have hrc : received (y, w) = fun band => (w.2.map (Effect.receivedIn y.band.bandType)).foldl mergeEffect band := by
          funext band
          unfold received
          rw [if_neg hne]
        rw [hrc]
        exact hr
      · -- the packets of the band so far
        have hkey : y.addr.bandId.toNat = n := by rw [hbid]; rfl
        have hall := ops_of_band hd hf hperm hsorted y hy
        have hsplit : ops = ops.take done.length ++ (y, w) :: ops.drop (done.length + 1) := by
          rw [← ho, List.getElem_cons_drop, List.take_append_drop]
        rw [hsplit, List.filter_append, List.filter_cons, if_pos (by simp), bandSendings, if_pos hB.bandType,
          List.map_map] at hall
        generalize hT : (ops.take done.length).filter (fun o => o.1.addr.bandId.toNat == y.addr.bandId.toNat) = T
          at hall
        have hTlen : T.length < y.band.effects.length := by
          have := congrArg List.length hall
          simp only [List.length_append, List.length_cons, List.length_map] at this
          omega
        have hTe : T = (y.band.effects.take T.length).map (fun e => (y, (e.position, [e]))) := by
          have := congrArg (List.take T.length) hall
          rw [List.take_left', ← List.map_take] at this
          · exact this
          · rfl
        have hwe : w = (y.band.effects[T.length].position, [y.band.effects[T.length]]) := by
          have := congrArg (fun l => l[T.length]?) hall
          simp only [List.getElem?_append_right (Nat.le_refl T.length), Nat.sub_self, List.getElem?_cons_zero,
            List.getElem?_map, List.getElem?_eq_getElem hTlen, Option.map_some, Function.comp, Option.some.injEq,
            Prod.mk.injEq, true_and] at this
          exact this
        generalize hj : T.length = j at hTe hTlen hwe
        have hband : band = { y.band.receivedHeader with
            effects := (y.band.effects.take j).map (Effect.receivedBy y.band.bandType) } := by
          have h1 : (flatBands r.haptic.perceptions)[n]? = some band := by
            rw [hat.flat]
            have : n = (flatBands P1 ++ (C1.flatMap (·.bands) ++ B1)).length := by rw [hat.number]; simp
            rw [this]
            simp
          rw [hk.bands, applyTo_get] at h1
          have e : flatBands (g.withBands old).perceptions = (bandsOf g).map (fun x => x.band.receivedHeader) := by
            have : (bandsOf g).map (fun x => x.band.receivedHeader)
                = ((bandsOf g).map (·.band)).map Band.receivedHeader := by rw [List.map_map]; rfl
            rw [this, bandsOf_flat]
            exact flatBands_withBands _
          rw [e, List.getElem?_map, hyn', Option.map_some, Option.map_some, ← hkey, hT, hTe,
            received_blocks y hB.bandType] at h1
          exact (Option.some.inj h1).symm
        obtain ⟨semantic, hsem, hwb⟩ := hB.blocks
        have hme : y.band.effects[j] ∈ y.band.effects := List.getElem_mem hTlen
        have hpj := hwb.position j _ (List.getElem?_eq_getElem hTlen)
        have hse := hwb.semantic _ hme
        have hsent' := (sentFor_blocks (o := (y, w)) hB.bandType).mp hsent
        rw [hwe] at hsent'
        have hr := SentBlock.read hyf.perceId hyf.channelId hyf.bandId hsent' (hB.ids _ hme)
          (by rw [hse]; exact hsem) (hwb.size _ hme) (pad ++ rest) r _ _ _ band d j hhas (by rw [hbt]; exact hB.bandType)
          (by
            rw [hband]
            show (if y.band.bandType = BandType.WaveletWave then some y.band.blockLengthOrDefault else some 0) = _
            rw [if_pos hB.bandType]
            unfold Band.blockLengthOrDefault
            rw [hB.blockLength]
            rfl)
          (by
            rw [hband, hk.timescale]
            exact hB.rate)
          (by rw [hk.timescale]; exact hB.positive)
          (by
            rw [hband]
            show ((y.band.effects.take j).map _).length = j
            rw [List.length_map, List.length_take, Nat.min_eq_left (by omega)])
          hpj
          (by
            intro x hx
            rw [hband] at hx
            obtain ⟨x', hx', rfl⟩ := List.mem_map.mp hx
            obtain ⟨i, hi, rfl⟩ := List.mem_take_iff_getElem.mp hx'
            have hi2 : i < j := by omega
            have hi3 : i < y.band.effects.length := by omega
            have e1 : Effect.receivedBy y.band.bandType y.band.effects[i]
                = y.band.effects[i].receivedWavelet y.band.effects[i].id := by
              unfold Effect.receivedBy
              rw [if_pos hB.bandType]
            rw [e1]
            constructor
            · show y.band.effects[i].id ≠ y.band.effects[j].id
              have := hB.distinct
              rw [List.Nodup, List.pairwise_map, List.pairwise_iff_getElem] at this
              exact this i j hi3 hTlen hi2
            · show y.band.effects[i].position ≤ y.band.effects[j].position
              rw [hwb.position i _ (List.getElem?_eq_getElem hi3), hpj]
              have : (i : Int) ≤ j := by omega
              exact mul_le_mul_of_nonneg_right this (by omega))
          hk.waitSync
        have hrc : received (y, w) = fun band =>
            { band with effects := band.effects ++ [y.band.effects[j].receivedWavelet y.band.effects[j].id] } := by
          funext band
          unfold received
          rw [if_pos hB.bandType, hwe]
          simp only [List.map_cons, List.map_nil, Effect.receivedBy, if_pos hB.bandType]
        rw [hrc]
        exact hr
    refine ⟨{ r with haptic := r.haptic.modifyBand P1.length C1.length B1.length (received (y, w)) }, ?_, rfl,
      rfl, ?_⟩
    · rw [hx]
      unfold splitPacket
      dsimp only
      rw [hpad, List.append_assoc]
      exact hread
    · refine ⟨?_, hk.rest, ?_, hk.streams, hk.waitSync, hk.crc, hk.timescale⟩
      · exact (modifyBand_bare hat _).trans hk.bare
      · refine (modifyBand_flat hat _).trans ?_
        rw [hk.bands, List.length_append, List.length_singleton, List.take_succ,
          List.getElem?_eq_getElem hlen2, ho, Option.toList_some, List.foldl_append, List.foldl_cons,
          List.foldl_nil]
        unfold applyTo
        dsimp only
        rw [hbid, Int.toNat_natCast]

/-! ### The transmitter's side fits -/

theorem prune_tidy (h : Experience) (hs : h.Spaced) :
    checkHapticComponent h = h.prune ∧ checkHapticComponent h.prune = h.prune ∧
    (∀ p ∈ h.prune.perceptions, p.channels ≠ [] ∧ ∀ c ∈ p.channels, c.bands ≠ []) := by
  obtain ⟨h1, h2⟩ := c37_all_empty_partial h hs
  rw [h1] at h2
  refine ⟨h1, ?_, fun p hp => ⟨(h2 p hp).1, fun c hc => ((h2 p hp).2 c hc).1⟩⟩
  have sweep_id : ∀ {α : Type} (clean : α → α) (empty : α → Bool) (l : List α),
      (∀ x ∈ l, clean x = x ∧ empty x = false) → sweep clean empty l = l := by
    intro α clean empty l
    induction l with
    | nil => intro _; rfl
    | cons x l ih =>
      intro hl
      obtain ⟨q1, q2⟩ := hl x (by simp)
      have := ih (fun y hy => hl y (by simp [hy]))
      cases l with
      | nil => simp [sweep, q1, q2]
      | cons y l => rw [sweep, q1, q2, if_neg (by simp), this]
  unfold checkHapticComponent
  rw [sweep_id]
  intro p hp
  obtain ⟨k1, k2⟩ := h2 p hp
  refine ⟨?_, by simpa using k1⟩
  unfold checkPerception
  rw [sweep_id]
  intro c hc
  obtain ⟨k3, k4⟩ := k2 c hc
  refine ⟨?_, by simpa using k3⟩
  unfold checkChannel
  rw [sweep_id]
  intro b hb
  obtain ⟨k5, k6⟩ := k4 b hb
  refine ⟨?_, by simpa using k5⟩
  unfold checkBand
  rw [sweep_id]
  intro e he
  refine ⟨rfl, ?_⟩
  have := k6 e he
  unfold Effect.Void at this
  unfold emptyEffect
  rw [Bool.eq_false_iff]
  intro h
  apply this
  simpa [Bool.and_eq_true, and_assoc] using h

theorem bandsOf_fits {d : Nat} {g : Experience} (hf : g.StreamFits d) :
    ∀ x ∈ bandsOf g, x.Fits (g.timescale.getD 1000) d := by
  intro x hx
  obtain ⟨n, hn, hxn⟩ := List.mem_iff_getElem.1 hx
  have hlen : (bandsOf g).length ≤ 256 := by
    have := congrArg List.length (bandsOf_flat g)
    rw [List.length_map] at this
    rw [this]
    exact hf.bandCount
  have h1 : (bandsOf g)[n]? = some x := by rw [List.getElem?_eq_getElem hn, hxn]
  rw [bandsOf_eq, numbered_get] at h1
  obtain ⟨⟨p, c, b⟩, ht, rfl⟩ := Option.map_eq_some_iff.1 h1
  have hm := List.mem_of_getElem? ht
  simp only [triples, List.mem_flatMap, List.mem_map, Prod.mk.injEq] at hm
  obtain ⟨p', hp, c', hc, b', hb, rfl, rfl, rfl⟩ := hm
  have hpf := hf.perceptions p' hp
  have hcf := hpf.channels c' hc
  refine ⟨?_, hpf.header.id, hcf.header.id, ⟨by simp, ?_⟩, (hcf.bands b' hb).2⟩
  · obtain ⟨m1, m2, m3⟩ := hpf.modality
    simp [isSpatial, m1, m2, m3]
  · dsimp only
    have : n < 256 := by omega
    norm_num
    omega

theorem getEffectsId_nonneg {d : Nat} {g : Experience} (hf : g.assignIds.StreamFits d) (hi : g.Identified) :
    ∀ i ∈ getEffectsId g, 0 ≤ i := by
  have hid := hi
  intro i hi
  unfold getEffectsId at hi
  simp only [List.mem_filter, List.mem_flatMap, List.mem_map] at hi
  obtain ⟨⟨p, hp, c, hc, b, hb, e, he, rfl⟩, hne⟩ := hi
  have hne : e.id ≠ -1 := by simpa using hne
  by_cases hbt : b.bandType = BandType.WaveletWave
  · have := hid b (List.mem_flatMap.mpr ⟨p, hp, List.mem_flatMap.mpr ⟨c, hc, hb⟩⟩) hbt e he
    omega
  obtain ⟨s1, h1⟩ := mapAccum_mem Perception.assignIds hp (getEffectsId g)
  obtain ⟨s2, h2⟩ := mapAccum_mem Channel.assignIds hc s1
  obtain ⟨s3, h3⟩ := mapAccum_mem Band.assignIds hb s2
  obtain ⟨x, hx, -, hex⟩ := forall₂_mem (identified_forall₂ b.bandType b.effects s3) he
  rw [← hex hbt hne]
  rcases (((hf.perceptions _ h1).channels _ h2).bands _ h3).2 with hfit | hfit
  · exact (hfit.sendable x hx).id.1
  · exact absurd hfit.bandType hbt

/-- The packets fit and are in time. -/
theorem scheduled {ts d : Nat} {xs : List AddressedBand} (hf : ∀ x ∈ xs, x.Fits ts d) {out : List Bits}
    {ops : List (AddressedBand × (Int × List Effect))} (hso : List.Forall₂ SentFor out ops)
    (hm : ∀ o ∈ ops, o ∈ allSendings d xs) (hs : ops.Pairwise (fun a b => a.2.1 ≤ b.2.1))
    (hsmall : SmallPackets (out.map (writePacket PacketType.Data))) :
    Scheduled d (out.map splitPacket) := by
  have key : ∀ b o, SentFor b o → o ∈ ops → timestampOf b = o.2.1 ∧ 0 ≤ o.2.1 ∧ o.2.1 < 2 ^ 24 ∧
      81 ≤ b.length ∧ ∃ k : Nat, o.2.1 = k * d := by
    intro b o hbo ho
    have ho := hm o ho
    simp only [allSendings, List.mem_flatMap, List.mem_map] at ho
    obtain ⟨x, hx, w, hw, rfl⟩ := ho
    obtain ⟨w1, w2, w5⟩ := bandSendings_mem (hf x hx).effects hw
    exact ⟨(hbo.timestamp w1 w2).2, w1, w2, (hbo.timestamp w1 w2).1, w5⟩
  have key2 : ∀ b ∈ out, 0 ≤ timestampOf b ∧ timestampOf b < 2 ^ 24 ∧ 81 ≤ b.length ∧
      ∃ k : Nat, timestampOf b = k * d := by
    intro b hb
    obtain ⟨o, ho, hbo⟩ := forall₂_mem hso hb
    obtain ⟨h1, h2, h3, h4, h5⟩ := key b o hbo ho
    rw [h1]
    exact ⟨h2, h3, h4, h5⟩
  refine ⟨?_, ?_, ?_, ?_⟩
  · intro x hx
    obtain ⟨b, hb, rfl⟩ := List.mem_map.1 hx
    obtain ⟨h1, h2, h3, -⟩ := key2 b hb
    have h4 := hsmall.each _ (List.mem_map_of_mem (f := writePacket PacketType.Data) hb)
    have h5 : (writePacket PacketType.Data b).length = 8 * ((24 + b.length + 7) / 8) := by
      rw [writePacket, padToByteBoundary_eq, fillBitset_length, List.length_append, writePacketHeader_length]
    rw [h5] at h4
    refine ⟨?_, ?_, ?_⟩
    · change (timestampOf b).toNat < 2 ^ 31
      omega
    · change 48 < (b.drop 32).length
      rw [List.length_drop]; omega
    · change ((b.drop 32).length + 7) / 8 < 2 ^ 17
      rw [List.length_drop]; omega
  · intro x hx
    obtain ⟨b, hb, rfl⟩ := List.mem_map.1 hx
    obtain ⟨-, -, -, k, hk⟩ := key2 b hb
    refine ⟨k, ?_⟩
    change (timestampOf b).toNat = d * k
    rw [hk, Nat.mul_comm]
    exact_mod_cast Int.toNat_natCast (k * d)
  · have hsorted : out.Pairwise (fun a b => timestampOf a ≤ timestampOf b) := by
      clear key2 hsmall hm
      induction hso with
      | nil => exact .nil
      | @cons b o out ops hbo hrest ih =>
        rw [List.pairwise_cons] at hs ⊢
        refine ⟨fun b' hb' => ?_, ih hs.2 (fun b o hbo ho => key b o hbo (by simp [ho]))⟩
        obtain ⟨o', ho', hbo'⟩ := forall₂_mem hrest hb'
        rw [(key b o hbo (by simp)).1, (key b' o' hbo' (by simp [ho'])).1]
        exact hs.1 o' ho'
    have h2 : (out.map splitPacket).Pairwise (fun a b => a.1 ≤ b.1 ∧ b.1 < a.1 + d + 2 ^ 24) := by
      rw [List.pairwise_map]
      refine hsorted.imp_of_mem ?_
      intro a b ha hb hab
      obtain ⟨h1, h2, -⟩ := key2 b hb
      change (timestampOf a).toNat ≤ (timestampOf b).toNat ∧
        (timestampOf b).toNat < (timestampOf a).toNat + d + 2 ^ 24
      omega
    exact h2.isChain
  · intro x hx
    have hx := List.mem_of_mem_head? hx
    obtain ⟨b, hb, rfl⟩ := List.mem_map.1 hx
    obtain ⟨h1, h2, -⟩ := key2 b hb
    change (timestampOf b).toNat < 2 ^ 24
    omega

theorem slotsFit {out : List Bits} (hlen : ∀ b ∈ out, 32 ≤ b.length)
    (hsmall : SmallPackets (out.map (writePacket PacketType.Data))) : SlotsFit (out.map splitPacket) := by
  have key : ∀ out : List Bits, (∀ b ∈ out, 32 ≤ b.length) →
      (((out.map splitPacket).map (fun x => dataPacket x.2)).flatMap Packet.encode).length
      ≤ (out.map (writePacket PacketType.Data)).flatten.length := by
    intro out hlen
    induction out with
    | nil => simp
    | cons b out ih =>
      have := ih (fun b hb => hlen b (by simp [hb]))
      have hb := hlen b (by simp)
      have e : (dataPacket (splitPacket b).2).payload.length = 8 * ((b.length - 32 + 7) / 8) := by
        change (fillBitset (b.drop 32)).length = _
        rw [fillBitset_length, List.length_drop]
      have e2 : (writePacket PacketType.Data b).length = 8 * ((24 + b.length + 7) / 8) := by
        rw [writePacket, padToByteBoundary_eq, fillBitset_length, List.length_append,
          writePacketHeader_length]
      simp only [List.map_cons, List.flatMap_cons, List.flatten_cons, List.length_append,
        Packet.encode_length]
      rw [e, e2]
      omega
  intro t
  have h1 := flatMap_encode_sublist ((List.filter_sublist (p := fun x => x.1 == t)
    (l := out.map splitPacket)).map (fun x => dataPacket x.2))
  have h2 := key out hlen
  have h3 := hsmall.total
  omega

theorem metadataPackets_wf {b : Bits} {g : Experience}
    (hsmall : SmallPackets ((metadataPackets b g).map Packet.encode)) :
    ∀ p ∈ metadataPackets b g, p.WF := by
  intro p hp
  have h1 := hsmall.each _ (List.mem_map_of_mem hp)
  obtain ⟨t, bits, ht, rfl⟩ := metadataPackets_form b g p hp
  have h2 : (packetOf t bits).payload.length = 8 * ((bits.length + 7) / 8) := fillBitset_length bits
  rw [Packet.encode_length] at h1
  exact ⟨ht, by omega, by omega⟩

theorem isUnit_of_frame {pd layer : Nat} {init : Nat → Bits} (hi : ∀ t, IsUnit (init t)) {f : Frame} {u : Bits}
    (hsz : ∀ t bodies, f = .data t bodies → ((bodies.map dataPacket).flatMap Packet.encode).length / 8 < 2 ^ 28)
    (h : f.IsEncoded pd layer init u) : IsUnit u := by
  cases f with
  | data t bodies =>
    have h1 := hsz t bodies rfl
    unfold Frame.IsEncoded at h
    rw [h]
    refine isUnit_of_header _ _ _ _ _ ?_ (by omega)
    clear h h1 hsz
    induction bodies with
    | nil => rfl
    | cons b bodies ih =>
      have e : (dataPacket b).payload.length = 8 * ((b.length + 7) / 8) := fillBitset_length b
      rw [List.map_cons, List.flatMap_cons, List.length_append, Packet.encode_length, e]
      omega
  | silence duration =>
    obtain ⟨sync, -, rfl⟩ := h
    exact isUnit_silent _ _ _
  | sync t =>
    unfold Frame.IsEncoded at h
    rw [h]; exact hi t

theorem receivedStream_bare (g old : Experience) : (g.withBands old).perceptions.map Perception.bare
    = (g.perceptions.map Perception.receivedStream).map Perception.bare := by
  unfold Experience.withBands
  simp only [List.map_map]
  apply List.map_congr_left
  intro p _
  simp only [Function.comp, Perception.bare, Perception.withBands, Perception.receivedStream, List.map_map]
  have e : List.map (Channel.bare ∘ Channel.withBands) p.channels
      = List.map (Channel.bare ∘ Channel.receivedStream) p.channels := by
    apply List.map_congr_left
    intro c _
    simp only [Function.comp, Channel.bare, Channel.withBands, Channel.receivedStream, List.map_map]
    rfl
  rw [e]
  rfl

/-- C57 for experiences of which no packet is too long, and of which the bands send what the bands of another
experience `sent` send one by one, that is the same as far as everything but effects is concerned. -/
theorem streamed_of (h : Experience) (d : Nat) (hd : 0 < d) (hd2 : d < 2 ^ 24) (hs : h.Spaced) (sent : Experience)
    (hinit : h.prune.InitFits) (hf : sent.StreamFits d)
    (hwb : ∀ old, sent.withBands old = h.prune.withBands old) (hstr : sent.streams = h.prune.streams)
    (htsc : sent.timescale = h.timescale) (hsyn : sent.syncs = h.syncs)
    (hwd : ∃ out ops, writeData d h.prune = .ok out ∧ List.Forall₂ SentFor out ops ∧
      ops.Perm (allSendings d (bandsOf sent)) ∧ ops.Pairwise (fun a b => a.2.1 ≤ b.2.1))
    (hsmall : ∀ ps, initPacketsOf h = .ok ps ∨ dataPackets d h.prune = .ok ps → SmallPackets ps) :
    ∃ file, writeStream h d = .ok file ∧ readStream file = .ok (true, some sent.receivedStream) := by
  obtain ⟨t1, t2, t3⟩ := prune_tidy h hs
  have hiter : checkHapticComponent^[7] h = h.prune := by
    simp only [Function.iterate_succ_apply, Function.iterate_zero, id_eq, t1, t2]
  generalize hg : h.prune = g at *
  obtain ⟨b, hb, hip⟩ := initPacketsOf_eq h g t1 t2 hinit
  have hsi := hsmall _ (.inl hip)
  obtain ⟨out, ops, hw1, hw2, hw3, hw4⟩ := hwd
  have hdp : dataPackets d g = .ok (out.map (writePacket PacketType.Data)) := by
    unfold dataPackets; rw [hw1]; rfl
  have hsd := hsmall _ (.inr hdp)
  have hm : ∀ o ∈ ops, o ∈ allSendings d (bandsOf sent) := fun o ho => hw3.mem_iff.1 ho
  have hlen : ∀ x ∈ out, 32 ≤ x.length := by
    intro x hx
    obtain ⟨o, ho, hxo⟩ := forall₂_mem hw2 hx
    have ho := hm o ho
    simp only [allSendings, List.mem_flatMap, List.mem_map] at ho
    obtain ⟨y, hy, w, hw, rfl⟩ := ho
    obtain ⟨w1, w2, -⟩ := bandSendings_mem (bandsOf_fits hf y hy).effects hw
    have := (hxo.timestamp w1 w2).1
    omega
  have hx : dataPackets d (checkHapticComponent^[7] h) = .ok ((out.map splitPacket).map timedPacket) := by
    rw [hiter, hdp, List.map_map]
    congr 1
    apply List.map_congr_left
    intro x hx
    exact (timedPacket_split x (hlen x hx)).symm
  have hslots := slotsFit hlen hsd
  obtain ⟨units, frames, hu, henc, -, hcont, hsync, -, -, hrecv⟩ := c49_clock_partial h d hd hd2 _ hip
    (out.map splitPacket) hx (scheduled (bandsOf_fits hf) hw2 hm hw4 hsd) hslots
  have hts : h.timescale.getD 1000 < 2 ^ 32 := by
    have := hf.timescale
    rw [htsc] at this
    exact this
  have htsg : sent.timescale.getD 1000 = h.timescale.getD 1000 := by rw [htsc]
  have hnosync : ∀ t, Frame.sync t ∉ frames := by
    intro t ht
    have h1 : h.syncs.length ≤ 1 := by
      have := hf.syncs
      rw [hsyn] at this
      exact this
    rw [List.drop_of_length_le h1, List.map_nil, List.prefix_nil, List.map_eq_nil_iff] at hsync
    have : t ∈ syncTimes frames := List.mem_filterMap.mpr ⟨_, ht, rfl⟩
    rw [hsync] at this
    cases this
  have hclear : sent.Clear := ⟨hf.perceptionIds, hf.channelIds⟩
  -- reading the initialization unit
  have hri := read_init g hinit t3 b hb hsi
    { time := ((0 : Nat) : Int), timescale := h.timescale.getD 1000, packetDuration := d } rfl hts (show _ < _ by norm_num)
    (show _ < _ by norm_num) (show _ < _ by norm_num)
  have hfirst := hrecv dispatch (Knows sent
      { syncs := [{ timestamp := 0, timescale := some (h.timescale.getD 1000) }] } (h.timescale.getD 1000) ops)
    (receives hd hd2 hclear _ _ (by rw [← htsg]; exact bandsOf_fits hf) hw2 hw3 hw4)
    (fun done t r ht => absurd ht (hnosync t)) {} _ hri rfl
    ⟨by rw [hwb], by rw [hwb], by rw [hwb]; rfl, hstr.symm, rfl, rfl, rfl⟩ frames.length
  obtain ⟨r', hr1, -, -, hr2⟩ := hfirst
  have hul : units.length = frames.length + 1 := by rw [← henc.length_eq]; rfl
  rw [List.take_of_length_le (by omega)] at hr1
  rw [List.take_of_length_le (le_refl _), hcont] at hr2
  -- the file
  refine ⟨writeBitset units.flatten, ?_, ?_⟩
  · unfold writeStream
    rw [hu]
  · have hunits : ∀ u ∈ units, IsUnit u := by
      intro u hu'
      obtain ⟨f, hfm, hfu⟩ := forall₂_mem henc.flip hu'
      refine isUnit_of_frame (fun t => ?_) ?_ hfu
      · refine c14_initialization_is_unit _ _ (metadataPackets_wf hsi) ?_
        have := hsi.total
        rw [← List.flatMap_def] at this
        omega
      · intro t bodies hft
        rw [hft] at hfm
        simp only [List.mem_cons, reduceCtorEq, false_or] at hfm
        exact slot_size hslots hcont hfm
    unfold readStream readFile
    rw [c14_split units hunits]
    dsimp only
    rw [hr1]
    dsimp only
    congr 3
    -- the experience
    have hflat : flatBands r'.haptic.perceptions
        = flatBands (sent.perceptions.map Perception.receivedStream) := by
      have e1 : flatBands (sent.perceptions.map Perception.receivedStream)
          = (bandsOf sent).map (fun x => x.band.receivedStream) := by
        have : (bandsOf sent).map (fun x => x.band.receivedStream)
            = ((bandsOf sent).map (·.band)).map Band.receivedStream := by rw [List.map_map]; rfl
        rw [this, bandsOf_flat]
        simp only [flatBands, List.flatMap_map, Perception.receivedStream, Channel.receivedStream,
          List.map_flatMap]
      have e2 : flatBands (sent.withBands
          { syncs := [{ timestamp := 0, timescale := some (h.timescale.getD 1000) }] }).perceptions
          = (bandsOf sent).map (fun x => x.band.receivedHeader) := by
        have : (bandsOf sent).map (fun x => x.band.receivedHeader)
            = ((bandsOf sent).map (·.band)).map Band.receivedHeader := by rw [List.map_map]; rfl
        rw [this, bandsOf_flat]
        exact flatBands_withBands _
      rw [hr2.bands, e1, e2, List.length_map, List.take_of_length_le (by rw [hw2.length_eq])]
      apply List.ext_getElem?
      intro n
      rw [applyTo_get, List.getElem?_map, List.getElem?_map]
      cases hn : (bandsOf sent)[n]? with
      | none => rfl
      | some x =>
        have hxm := List.mem_of_getElem? hn
        have hxn : x.addr.bandId.toNat = n := by
          rw [bandsOf_eq, numbered_get] at hn
          obtain ⟨t, -, rfl⟩ := Option.map_eq_some_iff.1 hn
          simp
        have h1 := ops_of_band hd (bandsOf_fits hf) hw3 hw4 x hxm
        rw [hxn] at h1
        simp only [Option.map_some, h1]
        rw [received_all hd x (bandsOf_fits hf x hxm) _ rfl]
        rfl
    have hps := eq_of_bare (hr2.bare.trans (receivedStream_bare _ _)) hflat
    have hrest := hr2.rest
    have hts' := hr2.timescale
    generalize r'.haptic = k at hps hrest
    obtain ⟨k1, k2, k3, k4, k5, k6, k7, k8, k9⟩ := k
    unfold Experience.withBands Experience.receivedHeader at hrest
    simp only [Experience.mk.injEq, true_and, List.nil_append] at hrest
    obtain ⟨rfl, rfl, rfl, rfl, rfl, rfl, rfl, rfl⟩ := hrest
    dsimp only at hps
    subst hps
    rw [hts']
    unfold Experience.receivedStream
    rw [htsc]

/-- C57 for experiences of which no packet is too long.  `c57_streamed_partial` says which these are. -/
theorem streamed_small (h : Experience) (d : Nat) (hd : 0 < d) (hd2 : d < 2 ^ 24) (hs : h.Spaced)
    (hf : h.prune.assignIds.StreamFits d) (hi : h.prune.Identified)
    (hsmall : ∀ ps, initPacketsOf h = .ok ps ∨ dataPackets d h.prune = .ok ps → SmallPackets ps) :
    ∃ file, writeStream h d = .ok file ∧
      readStream file = .ok (true, some h.prune.assignIds.receivedStream) :=
  streamed_of h d hd hd2 hs _ (assignIds_initFits hf) hf (assignIds_withBands _) (assignIds_streams _) rfl rfl
    (writeData_spec _ d hd hd2 _ (getEffectsId_nonneg hf hi) (bandsOf_fits hf)) hsmall

/-- A wavelet band with two blocks of 128 samples, 2000 per second. -/
def exampleWavelet (id1 id2 : Int) : Band :=
  { bandType := BandType.WaveletWave, upperFrequencyLimit := 2000, blockLength := some 128
    effects := [{ id := id1, position := 0, waveletBitstream := [1, 2] },
      { id := id2, position := 128, waveletBitstream := [3] }] }

theorem exampleWavelet_fits : (exampleWavelet 11 12).HeaderFits ∧ (exampleWavelet 11 12).BlocksFit 2000 128 := by
  refine ⟨⟨by simp [exampleWavelet, BandType.WaveletWave], by simp [exampleWavelet, BandType.WaveletWave, BandType.Curve],
    fun _ => by decide, by simp [exampleWavelet], by decide, by decide⟩, rfl, rfl, rfl, by decide, ?_,
    ⟨none, by simp, ?_, ?_, ?_⟩, ?_, by decide, ?_⟩
  · intro e he
    simp only [exampleWavelet, List.mem_cons, List.not_mem_nil, or_false] at he
    rcases he with rfl | rfl <;> rfl
  · intro j e he
    match j with
    | 0 | 1 => simp only [exampleWavelet] at he; cases he; norm_num
    | j + 2 => simp [exampleWavelet] at he
  all_goals
    intro e he
    simp only [exampleWavelet, List.mem_cons, List.not_mem_nil, or_false] at he
    rcases he with rfl | rfl <;> first | rfl | decide

/-- Two perceptions, three channels, six bands; one band is empty, and an effect is.  The last is a wavelet band. -/
def exampleStreamed : Experience :=
  { version := [49], timescale := some 2000, avatars := [{ id := 3, lod := 2, type := 1 }]
    perceptions :=
      [{ id := 1, avatarId := 3
         channels :=
           [{ id := 4
              bands := [{ effects := [
                  { id := 3, position := 10
                    keyframes := [{ relativePosition := some 0 }, { relativePosition := some 130 },
                      { relativePosition := some 300, frequencyModulation := some 60 }] },
                  { keyframes := [] },
                  { position := 310, keyframes := [{ relativePosition := some 5 }] },
                  { id := 8, position := 400, effectType := EffectType.Reference }] }, {}] },
            { id := 2, bands := [{ effects := [
                  { position := 100, keyframes := [{ relativePosition := some 5 }] }] }] }] },
       { id := 0, avatarId := 0
         channels := [{ id := 7, bands := [{ upperFrequencyLimit := 300, effects := [
                  { id := 3, keyframes := [{ relativePosition := some 1000 }] }] }, exampleWavelet (-1) 4] }] }] }

/-- What is received of it. -/
def exampleAssigned : Experience :=
  { version := [49], timescale := some 2000, avatars := [{ id := 3, lod := 2, type := 1 }]
    perceptions :=
      [{ id := 1, avatarId := 3
         channels :=
           [{ id := 4
              bands := [{ effects := [
                  { id := 3, position := 10
                    keyframes := [{ relativePosition := some 0 }, { relativePosition := some 130 },
                      { relativePosition := some 300, frequencyModulation := some 60 }] },
                  { id := 9, position := 310, keyframes := [{ relativePosition := some 5 }] },
                  { id := 8, position := 400, effectType := EffectType.Reference }] }] },
            { id := 2, bands := [{ effects := [
                  { id := 10, position := 100, keyframes := [{ relativePosition := some 5 }] }] }] }] },
       { id := 0, avatarId := 0
         channels := [{ id := 7, bands := [{ upperFrequencyLimit := 300, effects := [
                  { id := 3, keyframes := [{ relativePosition := some 1000 }] }] }, exampleWavelet 11 12] }] }] }

/-- It can be streamed. -/
theorem exampleStreamed_fits : exampleStreamed.Spaced ∧ exampleStreamed.prune.assignIds.StreamFits 128 ∧
    exampleStreamed.prune.assignIds = exampleAssigned := by
  have e : exampleStreamed.prune.assignIds = exampleAssigned := rfl
  refine ⟨⟨?_, ?_⟩, ?_, e⟩
  · intro p hp
    simp only [exampleStreamed, List.mem_cons, List.not_mem_nil, or_false] at hp
    rcases hp with rfl | rfl
    · refine ⟨?_, ?_⟩
      · intro c hc
        simp only [List.mem_cons, List.not_mem_nil, or_false] at hc
        rcases hc with rfl | rfl
        · refine ⟨?_, ?_⟩
          · intro b hb
            simp only [List.mem_cons, List.not_mem_nil, or_false] at hb
            rcases hb with rfl | rfl
            · exact ⟨by decide +kernel⟩
            · exact ⟨by decide +kernel⟩
          · simp only [List.isChain_cons_cons]
            exact ⟨fun h => absurd (congrArg List.isEmpty h) (by decide +kernel), by simp⟩
        · refine ⟨?_, by simp⟩
          intro b hb
          simp only [List.mem_cons, List.not_mem_nil, or_false] at hb
          subst hb
          exact ⟨by decide +kernel⟩
      · simp only [List.isChain_cons_cons]
        exact ⟨fun h => absurd (congrArg List.isEmpty h) (by decide +kernel), by simp⟩
    · refine ⟨?_, by simp⟩
      intro c hc
      simp only [List.mem_cons, List.not_mem_nil, or_false] at hc
      subst hc
      refine ⟨?_, ?_⟩
      · intro b hb
        simp only [List.mem_cons, List.not_mem_nil, or_false] at hb
        rcases hb with rfl | rfl <;> exact ⟨by decide +kernel⟩
      · simp only [List.isChain_cons_cons]
        exact ⟨fun h => absurd (congrArg List.isEmpty h) (by decide +kernel), by simp⟩
  · simp only [exampleStreamed, List.isChain_cons_cons]
    exact ⟨fun h => absurd (congrArg List.isEmpty h) (by decide +kernel), by simp⟩
  · rw [e]
    have hk : ∀ (p : Int) (f : Option Int), U 16 p → (∀ v ∈ f, U 16 v) →
        Keyframe.DataFits BandType.VectorialWave { relativePosition := some p, frequencyModulation := f } :=
      fun p f hp hf => ⟨⟨p, rfl, hp⟩, hf, fun h => absurd h (by decide), fun h => absurd h (by decide)⟩
    have he : ∀ (id pos : Int) (ks : List Keyframe), U 16 id → ks.length < 65536 →
        (∀ k ∈ ks, k.DataFits BandType.VectorialWave) →
        Effect.Sendable BandType.VectorialWave { id := id, position := pos, keyframes := ks } :=
      fun id pos ks h1 h2 h3 => ⟨h1, .inl rfl, by simp, by simp, h2, h3⟩
    have hc : ∀ (id : Int) (bs : List Band), U 16 id → ({ id := id, bands := bs } : Channel).HeaderFits :=
      fun id bs h => ⟨h, by simp, by simp, by simp, by simp, by simp, by simp, by simp, by simp, by simp,
        by simp, by simp, by simp, by simp, by simp⟩
    have hp : ∀ (id av : Int) (cs : List Channel), U 8 id → U 8 av →
        ({ id := id, avatarId := av, channels := cs } : Perception).HeaderFits :=
      fun id av cs h h2 => ⟨h, by simp, by simp, by simp, h2, by simp, by simp, by simp, by simp, by simp⟩
    have hb : ∀ (up : Int) (es : List Effect), U 16 up →
        ({ upperFrequencyLimit := up, effects := es } : Band).HeaderFits :=
      fun up es h => ⟨by simp [BandType.VectorialWave], by simp [BandType.VectorialWave, BandType.Curve], by simp [BandType.VectorialWave, BandType.WaveletWave], by simp,
        by simp [U], h⟩
    refine ⟨⟨by simp [exampleAssigned], by simp [exampleAssigned], by simp [exampleAssigned], by simp [exampleAssigned],
      by simp [exampleAssigned], by simp [exampleAssigned], ?_⟩, by simp [exampleAssigned],
      by simp [exampleAssigned], ?_, by decide +kernel, by decide +kernel, by decide +kernel⟩
    · intro a ha
      simp only [exampleAssigned, List.mem_cons, List.not_mem_nil, or_false] at ha
      subst ha
      exact ⟨by simp [U], by simp [U], by simp, by simp⟩
    · intro p hp'
      simp only [exampleAssigned, List.mem_cons, List.not_mem_nil, or_false] at hp'
      rcases hp' with rfl | rfl
      · refine ⟨hp _ _ _ (by simp [U]) (by simp [U]), by simp, by simp, by simp, ?_⟩
        intro c hc'
        simp only [List.mem_cons, List.not_mem_nil, or_false] at hc'
        rcases hc' with rfl | rfl
        · refine ⟨hc _ _ (by simp [U]), ?_⟩
          intro b hb'
          simp only [List.mem_cons, List.not_mem_nil, or_false] at hb'
          subst hb'
          refine ⟨hb _ _ (by simp [U]), .inl ⟨.inr (.inr rfl), ⟨by decide +kernel, by simp [TimeOrdered],
            by simp [EffectType.Basis, EffectType.Reference], by simp, by simp⟩,
            by simp [DistinctIds], ?_, by decide +kernel, by simp, ?_⟩⟩
          · intro x hx
            simp only [List.mem_cons, List.not_mem_nil, or_false] at hx
            rcases hx with rfl | rfl | rfl
            · refine he _ _ _ (by simp [U]) (by simp) ?_
              intro k hk'
              simp only [List.mem_cons, List.not_mem_nil, or_false] at hk'
              rcases hk' with rfl | rfl | rfl
              · exact hk _ _ (by simp [U]) (by simp)
              · exact hk _ _ (by simp [U]) (by simp)
              · exact hk _ _ (by simp [U]) (by simp [U])
            · refine he _ _ _ (by simp [U]) (by simp) ?_
              intro k hk'
              simp only [List.mem_cons, List.not_mem_nil, or_false] at hk'
              subst hk'
              exact hk _ _ (by simp [U]) (by simp)
            · exact ⟨by simp [U], .inr rfl, by simp, by simp, by simp, by simp⟩
          · intro x hx _ m hm
            simp only [List.getLast?_cons_cons, List.getLast?_singleton, Option.mem_def, Option.some.injEq] at hx
            subst hx
            push_cast
            omega
        · refine ⟨hc _ _ (by simp [U]), ?_⟩
          intro b hb'
          simp only [List.mem_cons, List.not_mem_nil, or_false] at hb'
          subst hb'
          refine ⟨hb _ _ (by simp [U]), .inl ⟨.inr (.inr rfl), ⟨by decide +kernel, by simp [TimeOrdered],
            by simp [EffectType.Basis], by simp, by simp⟩, by simp [DistinctIds], ?_,
            by decide +kernel, by simp, by simp [EffectType.Basis, EffectType.Reference]⟩⟩
          intro x hx
          simp only [List.mem_cons, List.not_mem_nil, or_false] at hx
          subst hx
          refine he _ _ _ (by simp [U]) (by simp) ?_
          intro k hk'
          simp only [List.mem_cons, List.not_mem_nil, or_false] at hk'
          subst hk'
          exact hk _ _ (by simp [U]) (by simp)
      · refine ⟨hp _ _ _ (by simp [U]) (by simp [U]), by simp, by simp, by simp, ?_⟩
        intro c hc'
        simp only [List.mem_cons, List.not_mem_nil, or_false] at hc'
        subst hc'
        refine ⟨hc _ _ (by simp [U]), ?_⟩
        intro b hb'
        simp only [List.mem_cons, List.not_mem_nil, or_false] at hb'
        rcases hb' with rfl | rfl
        case inr => exact ⟨exampleWavelet_fits.1, .inr exampleWavelet_fits.2⟩
        refine ⟨hb _ _ (by simp [U]), .inl ⟨.inr (.inr rfl), ⟨by decide +kernel, by simp [TimeOrdered],
          by simp [EffectType.Basis], by simp, by simp⟩, by simp [DistinctIds], ?_,
          by decide +kernel, by simp, by simp [EffectType.Basis, EffectType.Reference]⟩⟩
        intro x hx
        simp only [List.mem_cons, List.not_mem_nil, or_false] at hx
        subst hx
        refine he _ _ _ (by simp [U]) (by simp) ?_
        intro k hk'
        simp only [List.mem_cons, List.not_mem_nil, or_false] at hk'
        subst hk'
        exact hk _ _ (by simp [U]) (by simp)

end Haptics
