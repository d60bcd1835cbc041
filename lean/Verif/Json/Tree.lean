import Verif.Json.Tables
import Verif.Bits.Float

/-!
JSON values as `rapidjson` holds them, and the accessors `IOJson.cpp` uses.

Printing a tree and parsing the text again (`rapidjson::Writer`, `ParseStream`) is taken to give the same tree:
`Writer` prints integers in decimal, escapes text byte by byte and prints a `double` with enough digits; the
parser may be off by a few units in the last place of a `double`, which `GetFloat` rounds away.  Numbers that
are not finite have no text and are left out.
-/

namespace Haptics.Json
open Haptics

/-- A JSON value.  `num` is a number without fraction and exponent, `dbl` another one. -/
inductive Json
  | null
  | bool (b : Bool)
  | num (i : Int)
  | dbl (q : ℚ)
  | str (s : Str)
  | arr (l : List Json)
  | obj (m : List (String × Json))

namespace Json

/-- `HasMember`, `operator[]`: the first member with a name. -/
def get? (j : Json) (key : String) : Option Json :=
  match j with
  | obj m => m.lookup key
  | _ => none

def isObject : Json → Bool
  | obj _ => true
  | _ => false

/-- `IsInt`, `GetInt`. -/
def asInt : Json → Option Int
  | num i => if -2 ^ 31 ≤ i ∧ i < 2 ^ 31 then some i else none
  | _ => none

/-- `IsUint`, `GetUint`. -/
def asUint : Json → Option Nat
  | num i => if 0 ≤ i ∧ i < 2 ^ 32 then some i.toNat else none
  | _ => none

/-- `IsNumber`, `GetFloat`. -/
def asFloat : Json → Option ℚ
  | num i => some (fl32 i)
  | dbl q => some (fl32 q)
  | _ => none

end Json

/-- What a C string keeps of text: everything before the first zero byte. -/
def cstr (s : Str) : Str := s.takeWhile (· != 0)

namespace Json

/-- `IsString`, `GetString` as a C string. -/
def asStr : Json → Option Str
  | str s => some (cstr s)
  | _ => none

/-- `IsArray`, `GetArray`. -/
def asArr : Json → Option (List Json)
  | arr l => some l
  | _ => none

/-! IOJsonPrimitives.cpp:49-77, and the same conditions written out in IOJson.cpp: a member of a kind. -/
def int? (j : Json) (key : String) : Option Int := (j.get? key).bind asInt
def uint? (j : Json) (key : String) : Option Nat := (j.get? key).bind asUint
def float? (j : Json) (key : String) : Option ℚ := (j.get? key).bind asFloat
def str? (j : Json) (key : String) : Option Str := (j.get? key).bind asStr
def arr? (j : Json) (key : String) : Option (List Json) := (j.get? key).bind asArr

end Json

/-- An object made by `AddMember` calls, each of them under an `if` when the value may be absent. -/
def mk (l : List (String × Option Json)) : Json := .obj (l.filterMap (fun m => m.2.map (fun v => (m.1, v))))

/-- `std::map::at`. -/
def at? {α β : Type} [BEq α] (table : List (α × β)) (key : α) : Except Err β :=
  match table.lookup key with
  | some v => .ok v
  | none => .error .throw

/-- A getter whose assertion fails on the wrong kind of value (release builds read something else). -/
def must {α : Type} (o : Option α) : Except Err α :=
  match o with
  | some v => .ok v
  | none => .error .ub

/-- A loop over all elements that may throw. -/
def mapAll {α β : Type} (f : α → Except Err β) : List α → Except Err (List β)
  | [] => .ok []
  | a :: l =>
    match f a with
    | .error e => .error e
    | .ok b =>
      match mapAll f l with
      | .error e => .error e
      | .ok bs => .ok (b :: bs)

/-- A loading loop: elements may be skipped (`continue`). -/
def collect {α : Type} (f : Json → Except Err (Option α)) : List Json → Except Err (List α)
  | [] => .ok []
  | j :: l =>
    match f j with
    | .error e => .error e
    | .ok r =>
      match collect f l with
      | .error e => .error e
      | .ok rs => .ok (match r with | some a => a :: rs | none => rs)

/-- A value that may be absent. -/
def optAll {α β : Type} (f : α → Except Err β) : Option α → Except Err (Option β)
  | none => .ok none
  | some a =>
    match f a with
    | .error e => .error e
    | .ok b => .ok (some b)

/-- The text of a semantic keyword; the model keeps keywords as `String`, one character for one byte. -/
def semanticBytes (s : String) : Str := s.toList.map (fun c => UInt8.ofNat c.toNat)
/-- A semantic keyword made of text. -/
def semanticOf (s : Str) : String := String.ofList (s.map (fun b => Char.ofNat b.toNat))

end Haptics.Json
