import Verif.Json.Regex
import Mathlib.Data.Rat.Floor

/-!
The semantic conformance check of `IOHaptics/src/IOJson.cpp`, which `loadFile` applies to what it has read.

Messages are left out; so is the exception that looking up an unknown modality or band type for a message
would throw (the loader only makes known ones).
-/

namespace Haptics.Json
open Haptics

/-- The bytes of a literal. -/
def lit (s : String) : Str := s.toUTF8.toList

def mainProfile : Str := lit "Main"
def parametricProfile : Str := lit "Simple Parametric"

/-- `nbInstances <= 1` of the loops that count the components with the same identifier, such as
IOJson.cpp:213-217. -/
def once (ids : List Int) (id : Int) : Bool := decide (ids.count id ≤ 1)

/-- IOJson.cpp:208-233 `semanticConformanceCheckAvatar`. -/
def checkAvatar (e : Experience) (a : Avatar) : Bool :=
  (a.id != 0) && once (e.avatars.map (·.id)) a.id &&
    a.mesh.all uriCheck

/-- IOJson.cpp:321-366 `semanticConformanceCheckReferenceDevice`. -/
def checkDevice (p : Perception) (d : ReferenceDevice) : Bool :=
  once (p.referenceDevices.map (·.id)) d.id &&
  (match d.minimumFrequency with
   | some lo =>
     (match d.maximumFrequency with
      | some hi => !decide (hi < lo)
      | none => true) &&
     (match d.resonanceFrequency with
      | some f => !decide (f < lo)
      | none => true)
   | none => true) &&
  (match d.maximumFrequency with
   | some hi =>
     (match d.resonanceFrequency with
      | some f => !decide (hi < f)
      | none => true)
   | none => true)

/-- Tools.cpp:436 `isPowerOfTwo`, for an `int` above the smallest one (where `n - 1` would overflow). -/
def isPowerOfTwo (n : Int) : Bool := decide (n ≠ 0) && decide (BitVec.ofInt 32 n &&& BitVec.ofInt 32 (n - 1) = 0)

/-- IOJson.cpp:512-561 `semanticConformanceCheckEffect`. -/
def checkEffect (e : Experience) (p : Perception) (b : Band) (f : Effect) : Bool :=
  !(e.profile == parametricProfile && f.effectType == EffectType.Composite) &&
  !(b.bandType == BandType.WaveletWave && decide (0 < f.keyframes.length)) &&
  (!(f.effectType == EffectType.Reference) || p.effectLibrary.any (fun l => l.id == f.id)) &&
  (match f.semantic with
   | some s =>
     !((match p.effectSemanticScheme with
        | none => true
        | some scheme => scheme == lit "urn:mpeg:mpegi:haptics:effectsemantic:2023") &&
       (stringToEffectSemantic.lookup s).isNone)
   | none => true)

/-- IOJson.cpp:471-511 `semanticConformanceCheckBand`. -/
def checkBand (e : Experience) (p : Perception) (b : Band) : Bool :=
  !(b.bandType != BandType.Curve && b.curveType.isSome) &&
  !(b.bandType == BandType.WaveletWave && !isPowerOfTwo b.blockLengthOrDefault) &&
  !(e.profile == parametricProfile && b.bandType == BandType.WaveletWave) &&
  !decide (b.upperFrequencyLimit < b.lowerFrequencyLimit) &&
  b.effects.all (checkEffect e p b)

/-- IOJson.cpp:402-413, IOJson.h:101-103: 0.99 ≤ norm of (X, Y, Z) / 127 ≤ 1.01, squared.  The code compares in
floating point with a relative error below 2^-20; (X, Y, Z) are integers, and no sum of squares is that near to
either bound (0.9801 * 16129 = 15808.03…, 1.0201 * 16129 = 16453.19…). -/
def checkDirection (v : Vector3) : Bool :=
  let n : Rat := (v.X * v.X + v.Y * v.Y + v.Z * v.Z : Int)
  !(decide (n / (127 * 127) < 9801 / 10000) || decide (10201 / 10000 < n / (127 * 127)))

/-- IOJson.cpp:435-462: the actuator resolution and targets of a channel. -/
def checkActuators (c : Channel) : Bool :=
  match c.actuatorResolution with
  | some r =>
    !(decide (r.X < 0) || decide (r.Y < 0) || decide (r.Z < 0)) &&
    (match c.actuatorTarget with
     | some targets => targets.all (fun t => !(decide (t.X < 0) || decide (r.X < t.X) || decide (t.Y < 0) ||
         decide (r.Y < t.Y) || decide (t.Z < 0) || decide (r.Z < t.Z)))
     | none => true)
  | none => c.actuatorTarget.isNone

/-- IOJson.cpp:368-470 `semanticConformanceCheckChannel`; IOJson.h:99-100 for the numbers of bands. -/
def checkChannel (e : Experience) (p : Perception) (c : Channel) : Bool :=
  once (p.channels.map (·.id)) c.id &&
  c.referenceDeviceId.all (fun id => p.referenceDevices.any (fun d => d.id == id)) &&
  c.direction.all checkDirection &&
  (if e.level = 1 then !decide (7 < c.bands.length)
   else if e.level = 2 then !decide (63 < c.bands.length)
   else true) &&
  checkActuators c &&
  c.bands.all (checkBand e p)

/-- IOJson.cpp:562-589 `semanticConformanceCheckLibraryEffect`. -/
def checkLibraryEffect (e : Experience) (p : Perception) (f : Effect) : Bool :=
  !(e.profile == parametricProfile && f.effectType == EffectType.Composite) &&
  once (p.effectLibrary.map (·.id)) f.id

/-- IOJson.cpp:235-320 `semanticConformanceCheckPerception`; IOJson.h:97-98 for the numbers of channels,
Perception.h:46-61 for the modalities. -/
def checkPerception (e : Experience) (p : Perception) : Bool :=
  once (e.perceptions.map (·.id)) p.id &&
  !(e.profile == parametricProfile && e.level == 1 &&
    !(p.perceptionModality == 9 || p.perceptionModality == 6 || p.perceptionModality == 11 ||
      p.perceptionModality == 10)) &&
  !(p.avatarId != 0 && !e.avatars.any (fun a => a.id == p.avatarId)) &&
  p.effectSemanticScheme.isNone &&
  (if e.level = 1 then !decide (127 < p.channels.length)
   else if e.level = 2 then !decide (65535 < p.channels.length)
   else true) &&
  p.referenceDevices.all (checkDevice p) &&
  p.channels.all (checkChannel e p) &&
  p.effectLibrary.all (checkLibraryEffect e p)

/-- IOJson.cpp:184-196, IOJson.h:95-96: the timescale. -/
def checkTimescale (e : Experience) : Bool :=
  match e.timescale with
  | some t =>
    if e.profile == parametricProfile && t != 1000 then false
    else !(e.profile == mainProfile && decide (48000 < t))
  | none => true

/-- IOJson.cpp:161-207 `semanticConformanceCheckExperience`. -/
def checkExperience (e : Experience) : Bool :=
  versionCheck e.version &&
  !(e.profile != mainProfile && e.profile != parametricProfile) &&
  !(e.level != 1 && e.level != 2) &&
  dateCheck e.date &&
  checkTimescale e &&
  e.avatars.all (checkAvatar e) &&
  e.perceptions.all (checkPerception e)

end Haptics.Json
