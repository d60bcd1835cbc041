import Verif.Types.Model
import Mathlib.Data.List.Perm.Basic

/-
Operations on the data model: /repo/source/Types/src/{Effect,Band,Channel,Perception,Haptics}.cpp.
`int` arithmetic on positions is exact (no overflow); container sizes are below 2^31.
-/
namespace Haptics

/-! ### Containers -/

/-- `index < 0 || index >= size` → `false`, else `container[index] = x; true`. -/
def replaceAt {α : Type} (l : List α) (index : Int) (x : α) : Bool × List α :=
  if index < 0 ∨ index ≥ l.length then (false, l) else (true, l.set index.toNat x)

/-- `index < 0 || index >= size` → `false`, else `container.erase(begin() + index); true`. -/
def removeAt {α : Type} (l : List α) (index : Int) : Bool × List α :=
  if index < 0 ∨ index ≥ l.length then (false, l) else (true, l.eraseIdx index.toNat)

/-- Effect.cpp:82-89. -/
def Effect.replaceKeyframeAt (e : Effect) (index : Int) (k : Keyframe) : Bool × Effect :=
  let r := replaceAt e.keyframes index k
  (r.1, { e with keyframes := r.2 })
/-- Effect.cpp:91-98. -/
def Effect.removeKeyframeAt (e : Effect) (index : Int) : Bool × Effect :=
  let r := removeAt e.keyframes index
  (r.1, { e with keyframes := r.2 })
/-- Band.cpp:97-103. -/
def Band.replaceEffectAt (b : Band) (index : Int) (e : Effect) : Bool × Band :=
  let r := replaceAt b.effects index e
  (r.1, { b with effects := r.2 })
/-- Band.cpp:105-111. -/
def Band.removeEffectAt (b : Band) (index : Int) : Bool × Band :=
  let r := removeAt b.effects index
  (r.1, { b with effects := r.2 })
/-- Channel.cpp:86-92. -/
def Channel.replaceBandAt (c : Channel) (index : Int) (b : Band) : Bool × Channel :=
  let r := replaceAt c.bands index b
  (r.1, { c with bands := r.2 })
/-- Channel.cpp:111-117. -/
def Channel.removeBandAt (c : Channel) (index : Int) : Bool × Channel :=
  let r := removeAt c.bands index
  (r.1, { c with bands := r.2 })
/-- Perception.cpp:113-119. -/
def Perception.replaceChannelAt (p : Perception) (index : Int) (c : Channel) : Bool × Perception :=
  let r := replaceAt p.channels index c
  (r.1, { p with channels := r.2 })
/-- Perception.cpp:147-153. -/
def Perception.removeChannelAt (p : Perception) (index : Int) : Bool × Perception :=
  let r := removeAt p.channels index
  (r.1, { p with channels := r.2 })
/-- Haptics.cpp:64-71. -/
def Experience.replacePerceptionAt (h : Experience) (index : Int) (p : Perception) :
    Bool × Experience :=
  let r := replaceAt h.perceptions index p
  (r.1, { h with perceptions := r.2 })
/-- Haptics.cpp:97-104. -/
def Experience.removePerceptionAt (h : Experience) (index : Int) : Bool × Experience :=
  let r := removeAt h.perceptions index
  (r.1, { h with perceptions := r.2 })

/-! ### Metadata replacement -/

/-- Perception.h:163-164. -/
def DEFAULT_SEMANTIC_SCHEME : Str := 
  "urn:mpeg:mpegi:haptics:effectsemantic:2023".toList.map (fun c => UInt8.ofNat c.toNat)


/-- Haptics.cpp:77-94: what `replacePerceptionMetadataAt` does to one perception `old`. -/
def Perception.replaceMetadata (old new : Perception) : Perception :=
  { old with
    id := new.id
    avatarId := new.id
    description := new.description
    perceptionModality := new.perceptionModality
    unitExponent := some new.unitExponentOrDefault
    perceptionUnitExponent := some new.perceptionUnitExponentOrDefault
    effectSemanticScheme := some (new.effectSemanticScheme.getD DEFAULT_SEMANTIC_SCHEME)
    referenceDevices := new.referenceDevices
    effectLibrary := new.effectLibrary }

/-- Haptics.cpp:73-95. -/
def Experience.replacePerceptionMetadataAt (h : Experience) (index : Int) (p : Perception) :
    Bool × Experience :=
  match (if index < 0 then none else h.perceptions[index.toNat]?) with
  | none => (false, h)
  | some old => (true, { h with perceptions := h.perceptions.set index.toNat (old.replaceMetadata p) })

/-- Perception.cpp:125-143: what `replaceChannelMetadataAt` does to one channel `old`. -/
def Channel.replaceMetadata (old new : Channel) : Channel :=
  { old with
    id := new.id
    description := new.description
    gain := new.gain
    mixingWeight := new.mixingWeight
    bodyPartMask := new.bodyPartMask
    vertices := new.vertices
    referenceDeviceId := new.referenceDeviceId.orElse (fun _ => old.referenceDeviceId)
    frequencySampling := new.frequencySampling
    sampleCount := new.sampleCount
    direction := new.direction
    actuatorResolution := new.actuatorResolution
    bodyPartTarget := new.bodyPartTarget
    actuatorTarget := new.actuatorTarget }

/-- Perception.cpp:121-145. -/
def Perception.replaceChannelMetadataAt (p : Perception) (index : Int) (c : Channel) :
    Bool × Perception :=
  match (if index < 0 then none else p.channels[index.toNat]?) with
  | none => (false, p)
  | some old => (true, { p with channels := p.channels.set index.toNat (old.replaceMetadata c) })

/-- Channel.cpp:98-106: what `replaceBandMetadataAt` does to one band `old`. -/
def Band.replaceMetadata (old new : Band) : Band :=
  { old with
    bandType := new.bandType
    curveType := if new.bandType = BandType.Curve then some new.curveTypeOrDefault else old.curveType
    blockLength := if new.bandType = BandType.WaveletWave then some new.blockLengthOrDefault
      else old.blockLength
    lowerFrequencyLimit := new.lowerFrequencyLimit
    upperFrequencyLimit := new.upperFrequencyLimit }

/-- Channel.cpp:94-109. -/
def Channel.replaceBandMetadataAt (c : Channel) (index : Int) (b : Band) : Bool × Channel :=
  match (if index < 0 then none else c.bands[index.toNat]?) with
  | none => (false, c)
  | some old => (true, { c with bands := c.bands.set index.toNat (old.replaceMetadata b) })

/-! ### Adding effects and keyframes -/

/-- Band.cpp:90-94: insert before the first effect with a larger position. -/
def insertEffect (new : Effect) : List Effect → List Effect
  | [] => [new]
  | e :: l => if e.position > new.position then new :: e :: l else e :: insertEffect new l

/-- Band.cpp:89-95. -/
def Band.addEffect (b : Band) (e : Effect) : Band := { b with effects := insertEffect e b.effects }

/-- `k.getRelativePosition() >= position`: an absent position is smaller than any `int`
(Effect.cpp:110-113, 137-140). -/
def Keyframe.notBefore (k : Keyframe) (position : Int) : Bool :=
  match k.relativePosition with
  | none => false
  | some p => decide (p ≥ position)

/-- Effect.cpp:108-134 on the keyframe list. -/
def addAmplitudeKf (amplitude : Option ℚ) (position : Int) (override : Bool) :
    List Keyframe → List Keyframe
  | [] => [⟨some position, amplitude, none⟩]
  | k :: l =>
    if k.notBefore position then
      if k.relativePosition = some position then
        if override then { k with amplitudeModulation := amplitude } :: l
        else k :: ⟨some position, amplitude, none⟩ :: l
      else ⟨some position, amplitude, none⟩ :: k :: l
    else k :: addAmplitudeKf amplitude position override l

/-- Effect.cpp:136-156 on the keyframe list. -/
def addFrequencyKf (frequency : Option Int) (position : Int) : List Keyframe → List Keyframe
  | [] => [⟨some position, none, frequency⟩]
  | k :: l =>
    if k.notBefore position then
      if k.relativePosition = some position then { k with frequencyModulation := frequency } :: l
      else ⟨some position, none, frequency⟩ :: k :: l
    else k :: addFrequencyKf frequency position l

/-- Effect.cpp:104-134 (both overloads; the first has `override = true`). -/
def Effect.addAmplitudeAt (e : Effect) (amplitude : Option ℚ) (position : Int)
    (override : Bool := true) : Effect :=
  { e with keyframes := addAmplitudeKf amplitude position override e.keyframes }

/-- Effect.cpp:136-156. -/
def Effect.addFrequencyAt (e : Effect) (frequency : Option Int) (position : Int) : Effect :=
  { e with keyframes := addFrequencyKf frequency position e.keyframes }

/-! ### Durations and free bands -/

/-- Effect.cpp:403-425 `getEffectTimeLength`: the last keyframe that has a position.  If there are
keyframes but none has a position, `rend()` is dereferenced (except for wavelet bands). -/
def Effect.timeLength (e : Effect) (bandType : Nat) (transientDuration : ℚ) : Except Err ℚ :=
  if e.keyframes.isEmpty then .ok 0
  else if bandType = BandType.Transient ∨ bandType = BandType.Curve
      ∨ bandType = BandType.VectorialWave then
    match (e.keyframes.filterMap Keyframe.relativePosition).getLast? with
    | none => .error .ub
    | some p => .ok (if bandType = BandType.Transient then (p : ℚ) + transientDuration else p)
  else .ok 0

/-- Band.h:100. -/
def TRANSIENT_DURATION_MS : ℚ := 22

/-- Band.cpp:113-122 `isOverlapping`. -/
def Band.isOverlapping (b : Band) (e : Effect) (start stop : Int) : Except Err Bool :=
  match e.timeLength b.bandType TRANSIENT_DURATION_MS with
  | .error x => .error x
  | .ok length =>
    let position : ℚ := e.position
    .ok ((position ≤ start && position + length ≥ start)
      || (position ≤ stop && position + length ≥ stop)
      || (position ≥ start && position + length ≤ stop)
      || (position ≤ start && position + length ≥ stop))

/-- Channel.cpp:155-162: no effect of the band overlaps. -/
def Band.isFree (b : Band) (start stop : Int) : List Effect → Except Err Bool
  | [] => .ok true
  | e :: l => match b.isOverlapping e start stop with
    | .error x => .error x
    | .ok true => .ok false
    | .ok false => b.isFree start stop l

/-- Channel.cpp:146-169 `findBandAvailable`: index of the band found (`nullptr` → `none`). -/
def findBandAvailable (position duration : Int) (bandType : Nat) : Nat → List Band →
    Except Err (Option Nat)
  | _, [] => .ok none
  | i, b :: l =>
    if b.bandType ≠ bandType then findBandAvailable position duration bandType (i + 1) l
    else match b.isFree position (position + duration) b.effects with
      | .error x => .error x
      | .ok true => .ok (some i)
      | .ok false => findBandAvailable position duration bandType (i + 1) l

/-- Channel.cpp:146-169. -/
def Channel.findBandAvailable (c : Channel) (position duration : Int) (bandType : Nat) :
    Except Err (Option Nat) :=
  Haptics.findBandAvailable position duration bandType 0 c.bands

/-! ### References and the effect library -/

/-- Perception.cpp:296-303 `getEffectById`. -/
def getEffectById (library : List Effect) (id : Int) : Option Effect := library.find? (·.id == id)

/-- Perception.cpp:313-322: what becomes of one effect. -/
def linearizeEffect (library : List Effect) (e : Effect) : Effect :=
  if e.effectType = EffectType.Reference then
    match getEffectById library e.id with
    | some r => { r with position := e.position, id := -1 }
    | none => e
  else e

/-- Perception.cpp:305-327 `linearizeLibrary`. -/
def Perception.linearizeLibrary (p : Perception) : Perception :=
  { p with
    channels := p.channels.map (fun c => { c with bands := c.bands.map (fun b =>
      { b with effects := b.effects.map (linearizeEffect p.effectLibrary) }) })
    effectLibrary := [] }

/-- Effect.cpp:164-181 `isEquivalent` (identifier, position, semantic, timeline and wavelet payload are
not compared). -/
def Effect.isEquivalent (a b : Effect) : Bool :=
  a.effectType == EffectType.Basis && b.effectType == EffectType.Basis && a.phase == b.phase
  && a.baseSignal == b.baseSignal && a.keyframes == b.keyframes

/-- All effects of a list of channels, in the order of the loops of Perception.cpp:367-378. -/
def effectsOf (cs : List Channel) : List Effect := cs.flatMap (fun c => c.bands.flatMap (·.effects))

/-- `setId(newId)`, position kept, type `Reference`, everything else default
(Perception.cpp:348-351). -/
def referenceTo (newId : Int) (e : Effect) : Effect :=
  { id := newId, position := e.position, effectType := EffectType.Reference }

/-- Perception.cpp:339-357 for the effect `refEffect` of channel `i`, with
`searchForEquivalentEffects` 364-381: the list of places found and the replacements at these places are
fused into one pass over the channels from `i` on. -/
def refactorStep (i : Nat) (p : Perception) (refEffect : Effect) : Perception :=
  if ((effectsOf (p.channels.drop i)).filter (refEffect.isEquivalent ·)).length > 1 then
    let newId : Int := p.effectLibrary.length
    { p with
      channels := p.channels.take i ++ (p.channels.drop i).map (fun c =>
        { c with bands := c.bands.map (fun b => { b with effects := b.effects.map (fun e =>
          if refEffect.isEquivalent e then referenceTo newId e else e) }) })
      effectLibrary := p.effectLibrary ++ [{ refEffect with id := newId, position := 0 }] }
  else p

/-- Perception.cpp:331-359: the effects of channel `i` are taken from a copy made before the channel is
processed; wavelet bands are skipped. -/
def refactorChannel (p : Perception) (i : Nat) : Perception :=
  match p.channels[i]? with
  | none => p
  | some channel =>
    ((channel.bands.filter (fun b => b.bandType ≠ BandType.WaveletWave)).flatMap (·.effects)).foldl
      (refactorStep i) p

/-- Perception.cpp:329-362 `refactorEffects`. -/
def Perception.refactorEffects (p : Perception) : Perception :=
  (List.range p.channels.length).foldl refactorChannel p

/-- Haptics.cpp:189-193. -/
def Experience.refactor (h : Experience) : Experience :=
  { h with perceptions := h.perceptions.map Perception.refactorEffects }

/-- Haptics.cpp:183-187. -/
def Experience.linearize (h : Experience) : Experience :=
  { h with perceptions := h.perceptions.map Perception.linearizeLibrary }

end Haptics
