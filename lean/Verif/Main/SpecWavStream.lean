import Verif.Main.SpecImported
import Verif.Main.SpecAccepted

/-! What C96 says: a WAV file that is encoded to a stream is received with all its channels and bands. -/

namespace Haptics.Wav
open Haptics

/-- A band as received: of the same kind and at the same frequencies; each of its effects at its time, as the encoder makes
it, with the amplitudes of curves rounded to what the stream has (`receivedIn`: C18) and the bytes of wavelet blocks as
they were (`receivedWavelet`: C58). -/
structure SameBand (b b' : Band) : Prop where
  bandType : b'.bandType = b.bandType
  lower : b'.lowerFrequencyLimit = b.lowerFrequencyLimit
  upper : b'.upperFrequencyLimit = b.upperFrequencyLimit
  blockLength : b.bandType = BandType.WaveletWave → b'.blockLength = b.blockLength
  effects : b'.effects.map Effect.anonymous = b.effects.map (fun e => (e.receivedBy b.bandType).anonymous)

/-- A channel as received. -/
structure SameChannel (c c' : Channel) : Prop where
  id : c'.id = c.id
  rate : c'.frequencySampling = c.frequencySampling
  samples : c'.sampleCount = c.sampleCount
  bands : List.Forall₂ SameBand c.bands c'.bands

/-- What was received is what the encoder made of the recording; there is nothing else. -/
structure Received (ts : Nat) (q : Perception) (r : Experience) : Prop where
  timescale : r.timescale = some ts
  channels : ∃ p, r.perceptions = [p] ∧ List.Forall₂ SameChannel q.channels p.channels

/-- Recordings and settings that survive, for packets of `d` ticks and wavelet blocks of `bl` samples: at most 60
channels, none of them empty; sample rate and limit of the curves below 2^16; curves no longer than 65534 ticks.  With
wavelets there is one tick for each sample, and blocks have the length of a packet and less than 256 samples. -/
structure Streamable (parts : Pcm.Parts) (cfg : Pcm.Config) (ts bl d : Nat) (w : Parser) : Prop where
  rate : 0 < w.sampleRate ∧ w.sampleRate < 2 ^ 16
  limit : 0 ≤ cfg.curveFrequencyLimit ∧ cfg.curveFrequencyLimit < 2 ^ 16
  timescale : ts < 2 ^ 32
  packet : 0 < d ∧ d ≤ 7000
  channels : 0 < w.numChannels ∧ w.numChannels ≤ 60
  enabled : cfg.vectorialEnabled = true ∨ cfg.waveletEnabled = true
  samples : ∀ s ∈ w.buffer, s ≠ [] ∧ s.length ≤ 2 ^ 24
  filter : ∀ s ∈ w.buffer, (parts.lowPass s cfg.curveFrequencyLimit).length = s.length
  curves : cfg.vectorialEnabled = true → (cfg.waveletEnabled = false ∨ 0 < cfg.curveFrequencyLimit) →
    ∀ s ∈ w.buffer, s.length * ts ≤ 65534 * w.sampleRate.toNat
  wavelets : cfg.waveletEnabled = true → ts = w.sampleRate.toNat ∧ bl = d ∧ d < 256
  blocks : cfg.waveletEnabled = true → (w.buffer.map (fun s => s.length / d + 2)).sum < 65536

/-- No block has 65536 bytes or more, and together they have at most 9 million, where every block counts 24 bytes more than
it has. -/
structure Compact (q : Perception) : Prop where
  each : ∀ c ∈ q.channels, ∀ b ∈ c.bands, ∀ e ∈ b.effects, e.waveletBitstream.length < 65536
  total : ((((q.channels.flatMap (·.bands)).filter (fun b => b.bandType = BandType.WaveletWave)).flatMap (·.effects)).map
    (fun e => e.waveletBitstream.length + 24)).sum ≤ 9000000

end Haptics.Wav
