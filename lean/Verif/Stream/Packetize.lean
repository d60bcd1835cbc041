import Verif.Stream.Data

/-
Splitting bands into data packets: /repo/source/IOHaptics/src/IOStream.cpp:1854-2145, 2451-2476,
2756-2793.  `int` arithmetic on times is exact (no overflow); the packet duration is below 2^31.
-/
namespace Haptics

/-! ### Effect identifiers -/

/-- IOStream.cpp:2758-2776 `getEffectsId`: the identifiers in use (library and timeline effects are not
looked at). -/
def getEffectsId (h : Experience) : List Int :=
  (h.perceptions.flatMap (fun p => p.channels.flatMap (fun c => c.bands.flatMap (fun b =>
    b.effects.map (·.id))))).filter (· ≠ -1)

/-- `*max_element(...) + 1`, or 0 for no identifiers (IOStream.cpp:1981-1984, 2787-2790). -/
def nextEffectId (ids : List Int) : Int :=
  match ids with
  | [] => 0
  | i :: l => l.foldl max i + 1

/-- IOStream.cpp:1980-1987: an effect without identifier gets the next one. -/
def assignId (ids : List Int) (e : Effect) : Effect × List Int :=
  if e.id = -1 then ({ e with id := nextEffectId ids }, ids ++ [nextEffectId ids]) else (e, ids)

/-! ### Composite effects -/

mutual
/-- IOStream.cpp:1901-1911 `linearizeTimelineEffect`: the leaves of a timeline.  (Positions are left as
they are, although they are relative to the composite effect.) -/
def timelineLeaves : Effect → List Effect
  | ⟨_, _, _, _, _, _, _, timeline, _⟩ => leaves timeline

/-- The loop of IOStream.cpp:1903-1910, and of `linearizeTimeline` l.1886-1893. -/
def leaves : List Effect → List Effect
  | [] => []
  | e :: l =>
    (if e.effectType = EffectType.Composite then timelineLeaves e else [e]) ++ leaves l
end

/-- IOStream.cpp:1884-1900 `linearizeTimeline`. -/
def Band.linearizeTimeline (b : Band) : Band :=
  (leaves b.effects).foldl Band.addEffect { b with effects := [] }

/-! ### Packets of a band that is not a wavelet band -/

/-- Result of writing the keyframes of one effect that lie in a packet. -/
structure BasisAcc where
  firstKf : Bool := true
  kfCount : Nat := 0
  rau : Bool := true
  bits : Bits := []

/-- IOStream.cpp:2455-2475, the loop of `writeEffectBasis` from keyframe `j` on, for an effect at
`tsFX`; `true` if no keyframe is left for a later packet. -/
def basisLoop (bandType : Nat) (tsFX time packetDuration : Int) :
    Nat → List Keyframe → BasisAcc → Except Err (Bool × BasisAcc)
  | _, [], a => .ok (true, a)
  | j, k :: ks, a =>
    match k.relativePosition with
    | none => .error .throw
    | some p =>
      let currentTime := p + tsFX
      if currentTime < time + packetDuration ∧ currentTime ≥ time then
        match writeKeyframe bandType k with
        | .error e => .error e
        | .ok b =>
          basisLoop bandType tsFX time packetDuration (j + 1) ks
            { firstKf := false
              kfCount := a.kfCount + 1
              rau := if a.firstKf ∧ j ≠ 0 then false else a.rau
              bits := a.bits ++ b }
      else if currentTime ≥ time + packetDuration then .ok (false, a)
      else basisLoop bandType tsFX time packetDuration (j + 1) ks a

/-- IOStream.cpp:2451-2476 `writeEffectBasis`. -/
def writeEffectBasis (bandType : Nat) (time packetDuration : Int) (e : Effect) :
    Except Err (Bool × BasisAcc) :=
  basisLoop bandType e.position time packetDuration 0 e.keyframes {}

/-- What goes into a packet: `swriter.effects`, `swriter.keyframesCount` and the keyframe bits, which
grow in parallel. -/
structure Entry where
  effect : Effect
  kfCount : Nat
  bits : Bits

/-- State of `createPayloadPacket`. -/
structure PacketAcc where
  effectsId : List Int
  entries : List Entry := []
  auType : Nat := 0

/-- IOStream.cpp:1977-2027, the loop of `createPayloadPacket` over the remaining effects: whether the
band is finished, the effects with their identifiers, and the packet. -/
def payloadLoop (bandType : Nat) (time packetDuration : Int) :
    List Effect → PacketAcc → Except Err (Bool × List Effect × PacketAcc)
  | [], a => .ok (true, [], a)
  | e :: es, a =>
    let (e, ids) := assignId a.effectsId e
    let a := { a with effectsId := ids }
    let next (a : PacketAcc) :=
      match payloadLoop bandType time packetDuration es a with
      | .error x => .error x
      | .ok (done, es', a') => .ok (done, e :: es', a')
    if e.effectType = EffectType.Basis then
      match writeEffectBasis bandType time packetDuration e with
      | .error x => .error x
      | .ok (endEffect, b) =>
        let a := if b.kfCount > 0 then
          { a with entries := a.entries ++ [⟨e, b.kfCount, b.bits⟩], auType := if b.rau then 0 else 1 }
          else a
        if endEffect then next a else .ok (false, e :: es, a)
    else if e.effectType = EffectType.Reference then
      if e.position ≥ time ∧ e.position < time + packetDuration then
        next { a with entries := a.entries ++ [⟨e, 0, []⟩], auType := 0 }
      else if e.position > time + packetDuration then .ok (false, e :: es, a)
      else next a
    else next a

/-- The concatenation of what each entry writes (IOStream.cpp:2098-2143). -/
def writeEntries (bandType : Nat) (time : Int) (entries : List Entry) : Except Err Bits :=
  wList (fun x => writeEffect bandType time x.effect x.kfCount x.bits) entries

/-- Address of a band in the stream. -/
structure Address where
  perceId : Int
  channelId : Int
  bandId : Int

/-- IOStream.cpp:2029-2050 and 2091-2145: a data packet's payload. -/
def writePayloadPacket (bandType : Nat) (addr : Address) (time : Int) (a : PacketAcc) : Except Err Bits :=
  match writeEntries bandType time a.entries with
  | .error e => .error e
  | .ok b => .ok (writeEffectHeader time a.auType addr.perceId addr.channelId addr.bandId
      ++ (writeNBits DB_EFFECT_COUNT a.entries.length ++ b))

/-- IOStream.cpp:1931-1948, the loop of `packetizeBand`: the payloads and the identifiers in use.  (The
access unit type is kept from packet to packet in the code, but every packet that is written sets it.)
Running out of `fuel` is divergence, see `packetFuel`. -/
def packetLoop (bandType : Nat) (addr : Address) (packetDuration : Int) :
    Nat → Int → List Effect → List Int → Except Err (List Bits × List Int)
  | 0, _, _, _ => .error .diverge
  | fuel + 1, time, effects, ids =>
    match payloadLoop bandType time packetDuration effects { effectsId := ids } with
    | .error e => .error e
    | .ok (done, effects, a) =>
      match (if a.entries.isEmpty then .ok []
             else (writePayloadPacket bandType addr time a).map (fun b => [b])) with
      | .error e => .error e
      | .ok out =>
        if done then .ok (out, a.effectsId)
        else match packetLoop bandType addr packetDuration fuel (time + packetDuration) effects a.effectsId with
          | .error e => .error e
          | .ok (rest, ids) => .ok (out ++ rest, ids)

/-- A number of packet durations after which `packetizeBand` has ended, if it ever ends
(`event_lt_packetFuel`, `packetLoop_spec`): the time of every keyframe and effect is at most this number. -/
def packetFuel (effects : List Effect) : Nat :=
  (effects.map (fun e => e.position.natAbs
    + (e.keyframes.map (fun k => (k.relativePosition.getD 0).natAbs)).sum)).sum + 2

/-! ### Packets of a wavelet band -/

/-- IOStream.cpp:1961-1971, the loop of `createWaveletPayload`: the effects that are sent. -/
def waveletLoop (effects : List Effect) : Nat → Int → Int → Except Err (List Effect)
  | 0, _, _ => .error .diverge
  | fuel + 1, i, nbWaveBlock =>
    if i < effects.length then
      match (if i < 0 then none else effects[i.toNat]?) with
      | none => .error .throw
      | some e =>
        let overflow : Int := effects.length - (i + nbWaveBlock)
        let nbWaveBlock := if overflow < 0 then effects.length - i else nbWaveBlock
        match waveletLoop effects fuel (i + nbWaveBlock) nbWaveBlock with
        | .error x => .error x
        | .ok l => .ok (e :: l)
    else .ok []

/-- IOStream.cpp:1953-1973 `createWaveletPayload`; `/` truncates, a block length of 0 divides by zero.
If the block length is larger than the packet duration the loop does not advance. -/
def createWaveletPayload (packetDuration : Int) (b : Band) : Except Err (List Effect) :=
  match b.blockLength with
  | none => .ok []
  | some bl =>
    if bl = 0 then .error .ub
    else waveletLoop b.effects (b.effects.length + 2) 0 (packetDuration.tdiv bl)

/-- IOStream.cpp:2052-2089 `writeWaveletPayloadPacket`: a fresh identifier, the semantic of the band's
first effect. -/
def writeWaveletPayloadPacket (addr : Address) (time : Int) (id : Int) (semantic : Option String)
    (e : Effect) : Except Err Bits :=
  match writeSemantic semantic with
  | .error x => .error x
  | .ok sem => .ok (writeEffectHeader time 0 addr.perceId addr.channelId addr.bandId
      ++ (writeNBits DB_EFFECT_COUNT 1 ++ (writeNBits EFFECT_ID id
      ++ (writeNBits EFFECT_TYPE EffectType.Basis ++ (sem ++ writeWaveletBytes e)))))

/-- IOStream.cpp:1922-1929: one packet per effect, spaced by the block length. -/
def waveletPackets (addr : Address) (semantic : Option String) (blockLength : Int) :
    Int → List Effect → List Int → Except Err (List Bits × List Int)
  | _, [], ids => .ok ([], ids)
  | time, e :: es, ids =>
    match writeWaveletPayloadPacket addr time (nextEffectId ids) semantic e with
    | .error x => .error x
    | .ok b => match waveletPackets addr semantic blockLength (time + blockLength) es
          (ids ++ [nextEffectId ids]) with
      | .error x => .error x
      | .ok (l, ids) => .ok (b :: l, ids)

/-- IOStream.cpp:1913-1951 `packetizeBand`. -/
def packetizeBand (packetDuration : Int) (addr : Address) (b : Band) (ids : List Int) :
    Except Err (List Bits × List Int) :=
  if b.bandType = BandType.WaveletWave then
    match createWaveletPayload packetDuration b with
    | .error e => .error e
    | .ok l => waveletPackets addr (b.effects.head?.bind (·.semantic)) b.blockLengthOrDefault 0 l ids
  else packetLoop b.bandType addr packetDuration (packetFuel b.effects) 0 b.effects ids

/-! ### Ordering packets -/

/-- IOStream.cpp:1862-1875: insert a packet before the first one with a later timestamp. -/
def insertPacket (packet : Bits) : List Bits → Except Err (List Bits)
  | [] => .ok [packet]
  | p :: ps =>
    match readPacketTS p with
    | .error e => .error e
    | .ok sortedPTime => match readPacketTS packet with
      | .error e => .error e
      | .ok packetTime =>
        if sortedPTime > packetTime then .ok (packet :: p :: ps)
        else match insertPacket packet ps with
          | .error e => .error e
          | .ok l => .ok (p :: l)

/-- The two loops of IOStream.cpp:1856-1880 over the concatenated packets. -/
def insertPackets : List Bits → List Bits → Except Err (List Bits)
  | [], output => .ok output
  | p :: ps, output => match insertPacket p output with
    | .error e => .error e
    | .ok output => insertPackets ps output

/-- IOStream.cpp:1854-1882 `sortPacket`. -/
def sortPacket (bandPacket : List (List Bits)) : Except Err (List Bits) :=
  insertPackets bandPacket.flatten []

end Haptics
