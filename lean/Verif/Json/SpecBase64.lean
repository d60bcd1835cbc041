/-! What C25 says a `.hjif` file keeps of a wavelet payload. -/

namespace Haptics.Json

/-- A payload without the zero bytes at its end. -/
def withoutFinalZeros (stream : List UInt8) : List UInt8 :=
  (stream.reverse.dropWhile (· == 0)).reverse

/-- The sixty-four characters of base64 (RFC 4648, table 1). -/
def alphabet : List UInt8 :=
  "ABCDEFGHIJKLMNOPQRSTUVWXYZabcdefghijklmnopqrstuvwxyz0123456789+/".toList.map (fun c => c.toNat.toUInt8)

end Haptics.Json
