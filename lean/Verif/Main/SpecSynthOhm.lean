import Verif.Main.Synth
import Verif.Tools.SpecOhm
import Verif.Main.Beside
import Verif.Encoder.SpecPcmEncode

/-! What is expected of the OHM file that the synthesizer writes. -/

namespace Haptics.SynthMain
open Haptics
open Haptics.Json (lit)

/-- A path is made of a folder, which is empty or ends with a slash, and of a name without slash. -/
def Splits (path folder name : Str) : Prop :=
  path = folder ++ name ∧ 47 ∉ name ∧ (folder = [] ∨ folder.getLast? = some 47)

/-- `s` is `name` without its ending: the last period and what follows.  Names that begin with their last period have
none, and neither has `..`. -/
def WithoutEnding (name s : Str) : Prop :=
  (name ≠ lit ".." ∧ s ≠ [] ∧ ∃ e, name = s ++ 46 :: e ∧ 46 ∉ e) ∨
  (s = name ∧ (name = lit ".." ∨ ∀ a e, name = a ++ 46 :: e → a = []))

/-- The path has no needless slashes: none, one at the begin, or one after a folder that does not end with one. -/
def Neat (path : Str) : Prop :=
  ∃ folder name, Splits path folder name ∧ name ≠ [] ∧
    (folder = [] ∨ folder = [47] ∨ ∃ d, folder = d ++ [47] ∧ d ≠ [] ∧ d.getLast? ≠ some 47)

/-- An OHM file can hold the metadata of the experience, for a sound file called `name`. -/
structure Describable (name : Str) (x : Experience) : Prop where
  version : x.version = [] ∨ ∃ v, stoi x.version = .ok v
  description : Ohm.Fits 32 x.description
  file : Ohm.Fits 64 name
  perceptions : x.perceptions.length < 32768
  channels : ∀ p ∈ x.perceptions, Ohm.Fits 32 p.description ∧ p.channels.length < 32768
  texts : ∀ p ∈ x.perceptions, ∀ c ∈ p.channels, Ohm.Fits 32 c.description ∧ Ohm.Plain (BitVec.ofNat 32 c.bodyPartMask)

/-- The metadata of a perception whose signals are in file `name`. -/
def Describes (bits : ℚ → BitVec 32) (name : Str) (p : Perception) (e : Ohm.ElementInfo) : Prop :=
  e.filename = name ∧ e.description = p.description ∧ e.numChannels = p.channels.length ∧
  e.channels.length = p.channels.length ∧
  ∀ (j : Nat) (c : Channel), p.channels[j]? = some c → ∃ i, e.channels[j]? = some i ∧
    i.description = c.description ∧ i.gain = bits c.gain ∧ i.mask = BitVec.ofNat 32 c.bodyPartMask

/-- The encoder sees the files that the synthesizer wrote: the OHM file `n` and the sound file, whose parser `wav` has
one channel for each signal.  The encoder's own parts are as they are modelled; `value` is the value of a `float` and
`date` the text of the current time. -/
structure Sees (enc : EncoderMain.Env) (parts : EncoderMain.Settings → Pcm.Parts) (value : BitVec 32 → ℚ) (date : Str)
    (w : Output) (n : Str) (bytes : List UInt8) (wav : Wav.Parser) : Prop where
  loads : enc.loadOhm n = if (Ohm.load bytes {}).1 then some (Ohm.load bytes {}).2 else none
  metadata : enc.metadata = Ohm.loadMetadata value date
  beside : enc.beside = EncoderMain.besideOf
  encodes : ∀ s ts p q, enc.wav w.file s ts p = .ok (some q) →
    Pcm.encode (parts s) ⟨s.limit, s.wavelet, s.vectorial⟩ ts (some wav) p = .ok (0, q)
  rate : wav.sampleRate = w.rate ∧ w.rate < 2 ^ 31
  channels : wav.numChannels = w.signals.length ∧ wav.buffer.length = w.signals.length

end Haptics.SynthMain
