import Verif.Types.Model
import Verif.Json.Tables
import Verif.Json.Tree
import Verif.Tools.Text

/-!
OHM metadata files: OHMData.cpp, and the conversion from and to experiences in Haptics.cpp.

A file is a list of bytes, opened without errors.  The host is little-endian and its `char` is signed.  `float` gains
are kept as their 32 bits.
-/

namespace Haptics.Ohm
open Haptics

/-- OHMData.h:96-100 `HapticChannelMetadata`. -/
structure ChannelInfo where
  description : Str := []
  gain : BitVec 32 := 0x3f800000#32
  mask : BitVec 32 := 0
deriving DecidableEq

/-- OHMData.h:101-106 `HapticElementMetadata`; `numChannels` is a `short`. -/
structure ElementInfo where
  filename : Str := []
  description : Str := []
  numChannels : Int := 0
  channels : List ChannelInfo := []
deriving DecidableEq

/-- OHMData.h:108-112; `version` is a `short`. -/
structure Data where
  header : Str := []
  version : Int := 1
  description : Str := []
  elements : List ElementInfo := []
deriving DecidableEq

/-! OHMData.h:46-47 -/
abbrev descriptionByteSize : Nat := 32
abbrev fileNameByteSize : Nat := 64

/-- "OHM " -/
def ohmHeader : Str := [0x4f, 0x48, 0x4d, 0x20]

/-! ### Writing -/

/-- `static_cast<short>` of a size. -/
def toShort (n : Nat) : Int := ((n : Int) + 32768) % 65536 - 32768

/-- The two bytes of a `short`, the high one first. -/
def shortBytes (v : Int) : List UInt8 :=
  [UInt8.ofNat ((v % 65536).toNat / 256), UInt8.ofNat ((v % 65536).toNat % 256)]

/-- The bits `8 * i` to `8 * i + 7`. -/
def byteAt (x : BitVec 32) (i : Nat) : UInt8 := UInt8.ofBitVec (x.extractLsb' (8 * i) 8)

/-- OHMData.cpp:135-140 `fillString`. -/
def fillString (text : Str) (n : Nat) : Str :=
  let res := if text.length ≤ n then text else text.take n
  res ++ List.replicate (n - res.length) 0

/-- OHMData.cpp:183-196: one channel. -/
def writeChannel (c : ChannelInfo) : List UInt8 :=
  fillString c.description descriptionByteSize ++ [byteAt c.gain 0, byteAt c.gain 1, byteAt c.gain 2, byteAt c.gain 3]
    ++ [byteAt c.mask 3, byteAt c.mask 2, byteAt c.mask 1, byteAt c.mask 0]

/-- OHMData.cpp:169-197: one element. -/
def writeElement (e : ElementInfo) : List UInt8 :=
  fillString e.filename fileNameByteSize ++ fillString e.description descriptionByteSize ++ shortBytes e.numChannels
    ++ e.channels.flatMap writeChannel

/-- OHMData.cpp:142-201 `writeFile`.  The four bytes of the header must be in the string or be the zero behind it. -/
def write (d : Data) : Except Err (List UInt8) :=
  if d.header.length < 3 then .error .ub
  else .ok ((d.header ++ [0]).take 4 ++ shortBytes d.version ++ shortBytes (toShort d.elements.length)
    ++ fillString d.description descriptionByteSize ++ d.elements.flatMap writeElement)

/-! ### Loading -/

/-- `file.read` into a zeroed array: at the end of the file the rest of the array stays zero, and all later reads
fail. -/
def grab (n : Nat) (s : List UInt8) : List UInt8 × List UInt8 :=
  (s.take n ++ List.replicate (n - s.length) 0, s.drop n)

/-- `str.erase(str.find_last_not_of('\\x00') + 1)`. -/
def trim (s : Str) : Str := (s.reverse.dropWhile (· == 0)).reverse

/-- A string of fixed size. -/
def readText (n : Nat) (s : List UInt8) : Str × List UInt8 := (trim (grab n s).1, (grab n s).2)

/-- The byte at an index of an array that has it. -/
def byte (s : List UInt8) (i : Nat) : UInt8 := s.getD i 0

/-- Two bytes as a `short`, the high one first. -/
def readShort (s : List UInt8) : Int × List UInt8 :=
  let b := (grab 2 s).1
  let n := (byte b 0).toNat * 256 + (byte b 1).toNat
  (if n < 32768 then n else (n : Int) - 65536, (grab 2 s).2)

/-- OHMData.cpp:116-119: four bytes as a `float`. -/
def readGain (s : List UInt8) : BitVec 32 × List UInt8 :=
  let b := (grab 4 s).1
  ((byte b 0).toBitVec.setWidth 32 ||| (byte b 1).toBitVec.setWidth 32 <<< 8 |||
    (byte b 2).toBitVec.setWidth 32 <<< 16 ||| (byte b 3).toBitVec.setWidth 32 <<< 24, (grab 4 s).2)

/-- OHMData.cpp:121-125: four `char`, which are promoted to `int` with their sign, shifted and joined.  Shifting a
negative `int` is undefined before C++20; here it is the shift of its bits, as compilers do. -/
def readMask (s : List UInt8) : BitVec 32 × List UInt8 :=
  let b := (grab 4 s).1
  ((byte b 0).toBitVec.signExtend 32 <<< 24 ||| (byte b 1).toBitVec.signExtend 32 <<< 16 |||
    (byte b 2).toBitVec.signExtend 32 <<< 8 ||| (byte b 3).toBitVec.signExtend 32, (grab 4 s).2)

/-- OHMData.cpp:110-127: one channel. -/
def readChannel (s : List UInt8) : ChannelInfo × List UInt8 :=
  let (description, s) := readText descriptionByteSize s
  let (gain, s) := readGain s
  let (mask, s) := readMask s
  (⟨description, gain, mask⟩, s)

/-- `n` times. -/
def readMany {α : Type} (f : List UInt8 → α × List UInt8) : Nat → List UInt8 → List α × List UInt8
  | 0, s => ([], s)
  | n + 1, s => ((f s).1 :: (readMany f n (f s).2).1, (readMany f n (f s).2).2)

/-- OHMData.cpp:93-129: one element. -/
def readElement (s : List UInt8) : ElementInfo × List UInt8 :=
  let (filename, s) := readText fileNameByteSize s
  let (description, s) := readText descriptionByteSize s
  let (n, s) := readShort s
  let (channels, s) := readMany readChannel n.toNat s
  (⟨filename, description, n, channels⟩, s)

/-- OHMData.cpp:44-133 `loadFile`: the result, and the object afterwards.  Elements are added to those the object
has. -/
def load (bytes : List UInt8) (d : Data) : Bool × Data :=
  if bytes.isEmpty then (false, { d with version := 1 })
  else
    let (header, s) := grab 4 bytes
    if header ≠ ohmHeader then (false, { d with version := 1, header := header })
    else
      let (version, s) := readShort s
      let (n, s) := readShort s
      let (description, s) := readText descriptionByteSize s
      let (elements, _) := readMany readElement n.toNat s
      (true, ⟨header, version, description, d.elements ++ elements⟩)

/-! ### Experiences -/

/-- Perception.cpp:249-291 `convertToModality`. -/
def convertToModality (s : Str) : Nat :=
  match (Json.stringToPerceptionModality.find? (·.1 == s)) with
  | some e => e.2
  | none =>
    if s = Json.lit "Pressure effect" then 1
    else if s = Json.lit "Acceleration effect" then 2
    else if s = Json.lit "Velocity effect" then 3
    else if s = Json.lit "Position effect" then 4
    else if s = Json.lit "Temperature effect" then 5
    else if s = Json.lit "Vibration effect" ∨ s = Json.lit "Vibrotactile effect" then 6
    else if s = Json.lit "Water effect" then 7
    else if s = Json.lit "Wind effect" then 8
    else if s = Json.lit "Kinesthetic effect" ∨ s = Json.lit "Force effect" then 9
    else if s = Json.lit "Vibrotactile Texture effect" ∨ s = Json.lit "Texture effect" then 10
    else if s = Json.lit "Stiffness effect" then 11
    else if s = Json.lit "Friction effect" then 12
    else 0

/-- Haptics.cpp:148-149. -/
def channelFrom (value : BitVec 32 → ℚ) (j : Nat) (c : ChannelInfo) : Channel :=
  { id := j, description := c.description, gain := value c.gain, mixingWeight := 1, bodyPartMask := c.mask.toNat }

/-- Haptics.cpp:145-150: the channels `j`, `j + 1`, … of an element, `n` of them.  `value` is the value of a `float`
given by its bits; reading behind the end of the vector is undefined. -/
def channelsOf (value : BitVec 32 → ℚ) (l : List ChannelInfo) : (n j : Nat) → Except Err (List Channel)
  | 0, _ => .ok []
  | n + 1, j => do
    let c ← Json.must l[j]?
    let rest ← channelsOf value l n (j + 1)
    pure (channelFrom value j c :: rest)

/-- Haptics.cpp:140-152: the perceptions of the elements, with identifiers from `i` on. -/
def perceptionsOf (value : BitVec 32 → ℚ) : List ElementInfo → (i : Nat) → Except Err (List Perception)
  | [], _ => .ok []
  | e :: l, i => do
    let channels ← channelsOf value e.channels e.numChannels.toNat 0
    let rest ← perceptionsOf value l (i + 1)
    pure ({ id := i, avatarId := 0, description := e.description,
            perceptionModality := convertToModality e.description, channels := channels } :: rest)

/-- Haptics.cpp:134-154 `loadMetadataFromOHM`; `date` is the text of the current time. -/
def loadMetadata (value : BitVec 32 → ℚ) (date : Str) (d : Data) (x : Experience) : Except Err Experience := do
  let perceptions ← perceptionsOf value d.elements 0
  pure { x with version := toText d.version, date := date, description := d.description,
                perceptions := x.perceptions ++ perceptions }

/-- Haptics.cpp:165-177: one element; `bits` are the bits of a `float`.  All channels are read when their number fits a
`short`; otherwise the first ones, or none. -/
def elementOf (bits : ℚ → BitVec 32) (filename : Str) (p : Perception) : ElementInfo :=
  let n := toShort p.channels.length
  ⟨filename, p.description, n, (p.channels.take n.toNat).map (fun c =>
    ⟨c.description, bits c.gain, BitVec.ofNat 32 c.bodyPartMask⟩)⟩

/-- Haptics.cpp:156-182 `extractMetadataToOHM`. -/
def extractMetadata (bits : ℚ → BitVec 32) (filename : Str) (x : Experience) : Except Err Data := do
  let v ← if x.version.isEmpty then .ok 0 else stoi x.version
  pure ⟨ohmHeader, (v + 32768) % 65536 - 32768, x.description, x.perceptions.map (elementOf bits filename)⟩

end Haptics.Ohm
