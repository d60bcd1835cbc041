import Verif.Spiht.Arith

/-!
The text form of a wavelet payload in a `.hjif` file: `IOJson.cpp:1682-1799`.

On writing (`IOJson.cpp:1555-1563`) the payload bytes are turned into bits and the bits into base64
characters; on reading (`loadBitstream`) the characters are turned into bits and the bits into bytes.
Vectors of bits (`unsigned char` 0 or 1) are lists of `Bool`.
-/

namespace Haptics.Json
open Haptics Haptics.Spiht

/-- IOJson.cpp:1682-1701 `bytes2bits`: the bits of every byte, lowest first, without the zeros at the
end.  The loop and the `at` that throws when every bit is zero are those of `ArithEnc::encode`
(`cutZeros`); an empty stream gives no bits. -/
def bytes2bits (l : List UInt8) : Except Err (List Bool) :=
  match l with
  | [] => .ok []
  | v :: l' => cutZeros (convert2bits (v :: l'))

/-- IOJson.cpp:1703-1719 `bits2bytes`: the same regrouping as `ArithEnc::convert2bytes`. -/
def bits2bytes (l : List Bool) : List UInt8 := convert2bytes l

/-- IOJson.cpp:1726-1737, the value of a character. -/
def ofChar (c : UInt8) : Nat :=
  if 65 ≤ c.toNat ∧ c.toNat ≤ 90 then c.toNat - 65
  else if 97 ≤ c.toNat ∧ c.toNat ≤ 122 then c.toNat - 71
  else if 48 ≤ c.toNat ∧ c.toNat ≤ 57 then c.toNat + 4
  else if c.toNat = 43 then 62
  else 63

/-- IOJson.cpp:1739-1749, the digits of a value, from `compare` down to 1 (`n` digits left, `compare`
is `2 ^ n / 2`). -/
def digits : (n : Nat) → (temp : Nat) → List Bool
  | 0, _ => []
  | n + 1, temp => if temp ≥ 2 ^ n then true :: digits n (temp - 2 ^ n) else false :: digits n temp

/-- IOJson.cpp:1721-1757 `base642bits`. -/
def base642bits (l : List UInt8) : Except Err (List Bool) :=
  match l with
  | [] => .ok []
  | c :: l' => cutZeros ((c :: l').flatMap (fun c => digits 6 (ofChar c)))

/-- IOJson.cpp:1770-1780 and 1786-1796, the character of a value. -/
def toChar (temp : Nat) : UInt8 :=
  if temp ≤ 25 then UInt8.ofNat (temp + 65)
  else if 26 ≤ temp ∧ temp ≤ 51 then UInt8.ofNat (temp + 71)
  else if 52 ≤ temp ∧ temp ≤ 61 then UInt8.ofNat (temp - 4)
  else if temp = 62 then 43
  else 47

/-- IOJson.cpp:1763-1798, the loop of `bits2base64`: `compare` is `2 ^ n / 2` where `n` digits are
missing in the current character (`n` is 6 at its start), `temp` the value so far. -/
def base64Loop : (n : Nat) → (temp : Nat) → List Bool → List UInt8
  | _, temp, [] => if temp > 0 then [toChar temp] else []
  | n, temp, b :: l =>
    let temp' := if b then temp + 2 ^ (n - 1) else temp
    if n - 1 = 0 then toChar temp' :: base64Loop 6 0 l else base64Loop (n - 1) temp' l

/-- IOJson.cpp:1759-1799 `bits2base64`. -/
def bits2base64 (l : List Bool) : List UInt8 := base64Loop 6 0 l

/-- IOJson.cpp:1555-1560, the text of a payload. -/
def writePayload (stream : List UInt8) : Except Err (List UInt8) :=
  match bytes2bits stream with
  | .ok bits => .ok (bits2base64 bits)
  | .error e => .error e

/-- IOJson.cpp:1195-1207 `loadBitstream`, on a JSON string. -/
def readPayload (text : List UInt8) : Except Err (List UInt8) :=
  match base642bits text with
  | .ok bits => .ok (bits2bytes bits)
  | .error e => .error e

end Haptics.Json
