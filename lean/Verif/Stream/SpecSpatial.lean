import Verif.Stream.Writer

/-
What a packet of a band of a spatial modality should say.
-/
namespace Haptics

/-- What a spatial packet says: a time, whether it depends on others, the address of a band and the band. -/
structure SpatialPacket where
  time : Nat
  dependent : Bool
  addr : Address
  band : Band

/-- A reader of such packets: 32 bits of time, one bit, the identifiers of perception, channel and band on 8, 16 and
8 bits, the number of effects on 16 bits, and the effects in the layout of the binary file. -/
def readSpatial (timescale bandType : Nat) : Rd SpatialPacket := do
  let time ← rdU 32
  let dependent ← rdU 1
  let perceId ← rdU 8
  let channelId ← rdU 16
  let bandId ← rdU 8
  let count ← rdU 16
  let band ← Binary.readBandBody timescale { bandType := bandType, effects := List.replicate count {} }
  pure ⟨time, dependent == 1, ⟨perceId, channelId, bandId⟩, band⟩

end Haptics
