import Verif.Eval.Playback
import Verif.Encoder.Pcm
import Verif.Wavelet.Codec
import Verif.Wavelet.Decoder

/-! A recording, from the encoder to the synthesizer, in `double`: what Channel.cpp mixes. -/

namespace Haptics.Recording
open Haptics

/-- Channel.cpp:194-200: one sample of a band is added to the channel. -/
def mix (acc v : ℚ) : ℚ :=
  let s := fl64 (acc + v)
  if s < -1 then -1 else if s > 1 then 1 else s

/-- Channel.cpp:190-203: a sample of a channel whose bands have the samples `l` at this place. -/
def channelSample (l : List ℚ) : ℚ := l.foldl mix 0

end Haptics.Recording
