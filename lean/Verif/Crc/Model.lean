import Verif.Bits.Model

/-
CRC of the MIHS stream. Models /repo/source/IOHaptics/src/IOStream.cpp:2256-2389 and the constants of
/repo/source/IOHaptics/include/IOStream.h:51-52.
-/
namespace Haptics

/-- IOStream.h:52. -/
def CRC16_POLYNOMIAL : Nat := 49185
/-- IOStream.h:51. -/
def CRC32_POLYNOMIAL : Nat := 2187366103

/-- IOStream.cpp:2383-2385: XOR of the polynomial onto the first `polynomial.size()` bits.  The loop
guard guarantees that the bitstream is long enough. -/
def xorPrefix : Bits → Bits → Bits
  | b :: bs, p :: ps => (b != p) :: xorPrefix bs ps
  | bs, [] => bs
  | [], _ :: _ => []

/-- One iteration of IOStream.cpp:2379-2387: take off the first bit, XOR if it was set. -/
def crcStep (p : Bits) : Bits → Bits
  | [] => []
  | msb :: t => if msb then xorPrefix t p else t

/-- The loop `while (bitstream.size() > polynomial.size())`.  Every iteration removes one bit, so
`bitstream.size()` iterations are enough. -/
def crcLoop (p : Bits) : Nat → Bits → Bits
  | 0, l => l
  | k + 1, l => if l.length > p.length then crcLoop p k (crcStep p l) else l

/-- IOStream.cpp:2375-2389 `computeCRC`: the new content of `bitstream`. -/
def computeCRC (b p : Bits) : Bits :=
  let l := b ++ List.replicate p.length false
  crcLoop p l.length l

/-- Polynomial selected by `crcLevel` (IOStream.cpp:2258-2272). -/
def crcPolynomial : Nat → Option Bits
  | 0 => some (writeNBits 16 CRC16_POLYNOMIAL)
  | 1 => some (writeNBits 32 CRC32_POLYNOMIAL)
  | _ => none

/-- IOStream.cpp:2256-2298 `writeCRC`: payload of a CRC packet.  With no packet `bitstream[0]` is out of
range (undefined behaviour); with exactly one packet the function returns `false`; `nbPackets` is stored
in 8 bits. -/
def writeCRC (packets : List Bits) (crcLevel : Nat) : Except Err Bits :=
  match crcPolynomial crcLevel with
  | none => .error .fail
  | some p =>
    match packets with
    | [] => .error .ub
    | [_] => .error .fail
    | _ =>
      let quotient := packets.flatten
      if quotient = [] then .error .fail
      else .ok (writeNBits 8 packets.length ++ computeCRC quotient p)

/-- IOStream.h:81-87 `struct CRC` (the polynomial fields never change). -/
structure CRC where
  nbPackets : Nat := 0
  value16 : Nat := 0
  value32 : Nat := 0
deriving DecidableEq, Repr

/-- Packet types that carry a CRC. -/
inductive CrcKind where
  | crc16 | crc32 | globalCrc16 | globalCrc32
deriving DecidableEq, Repr

/-- IOStream.cpp:2299-2327 `readCRC`. -/
def readCRC (k : CrcKind) : Rd CRC :=
  match k with
  | .crc16 => do let v ← rdU 16; pure { nbPackets := 1, value16 := v, value32 := 0 }
  | .crc32 => do let v ← rdU 32; pure { nbPackets := 1, value32 := v, value16 := 0 }
  | .globalCrc16 => do
    let n ← rdU 8
    let v ← rdU 16
    pure { nbPackets := n, value16 := v, value32 := 0 }
  | .globalCrc32 => do
    let n ← rdU 8
    let v ← rdU 32
    pure { nbPackets := n, value32 := v, value16 := 0 }

/-- IOStream.cpp:2329-2373 `checkCRC`.  Packets are inserted at the *front* of `protectedPackets`;
`crc.nbPackets--` leaves 255 in the `uint8_t` when the loop ends; a transmitted CRC of 0 is never
checked and the result is `false`. -/
def checkCRC (packets : List Bits) (crc : CRC) : Bool × CRC :=
  if packets.length < crc.nbPackets then (false, crc)
  else
    let protectedPackets := (packets.take crc.nbPackets).foldl (fun acc p => p ++ acc) []
    let crc' := { crc with nbPackets := 255 }
    if crc.value16 > 0 then
      let r := bitsVal ((computeCRC protectedPackets (writeNBits 16 CRC16_POLYNOMIAL)).take 16)
      (crc.value16 == r, { crc' with value16 := 0 })
    else if crc.value32 > 0 then
      let r := bitsVal ((computeCRC protectedPackets (writeNBits 32 CRC32_POLYNOMIAL)).take 32)
      (crc.value32 == r, { crc' with value32 := 0 })
    else (false, crc')

end Haptics
