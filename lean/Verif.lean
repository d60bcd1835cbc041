import Verif.Bits.Props
import Verif.Crc.Props
import Verif.Types.Model
import Verif.Bits.PropsFloat
import Verif.Stream.PropsMeta
import Verif.Stream.PropsUnit
import Verif.Types.PropsOps
import Verif.Types.PropsLibrary
import Verif.Eval.PropsCurve
import Verif.Eval.PropsChirp
import Verif.Stream.PropsTransmit
import Verif.Stream.PropsTerm
import Verif.Stream.PropsClock
import Verif.Stream.PropsTidy
import Verif.Stream.PropsInit
import Verif.Stream.PropsStream
import Verif.Stream.SpecSizes
import Verif.Stream.Sizes
import Verif.Stream.PropsSizes
import Verif.Stream.PropsResend
import Verif.Stream.PropsWavelet
import Verif.Stream.PropsSpatial
import Verif.Binary.PropsBands
import Verif.Binary.PropsHeader
import Verif.Binary.PropsLoad
import Verif.Binary.PropsTimeline
import Verif.Spiht.PropsArith
import Verif.Spiht.PropsSpiht
import Verif.Spiht.PropsSafe
import Verif.Json.PropsBase64
import Verif.Wavelet.PropsEncoder
import Verif.Wavelet.PropsSignal
import Verif.Json.PropsRegex
import Verif.Json.PropsConformance
import Verif.Json.PropsFile
import Verif.Encoder.PropsIvs
import Verif.Encoder.PropsIvsTime
import Verif.Encoder.PropsEnvelope
import Verif.Encoder.PropsInject
import Verif.Encoder.PropsIvsFile
import Verif.Encoder.PropsAhapSafe
import Verif.Encoder.PropsAhapCurve
import Verif.Encoder.PropsAhapFile
import Verif.Tools.PropsOhm
import Verif.Tools.PropsOhmExperience
import Verif.Tools.PropsWav
import Verif.Encoder.PropsPcm
import Verif.Encoder.PropsPcmCurve
import Verif.Encoder.PropsPcmEncode
import Verif.Tools.Args
import Verif.Tools.SpecArgs
import Verif.Tools.PropsArgs
import Verif.Encoder.Main
import Verif.Encoder.SpecMain
import Verif.Encoder.PropsMain
import Verif.Main.Decoder
import Verif.Main.PropsDecoder
import Verif.Main.Synth
import Verif.Main.PropsSynth
import Verif.Wavelet.PropsTransform
import Verif.Wavelet.PropsCodec
import Verif.Psycho.Props
import Verif.Eval.PropsBspline
import Verif.Eval.PropsPlayback
import Verif.Main.PropsRecording
import Verif.Json.PropsLoad
import Verif.Filter.Props
import Verif.Encoder.PropsBands
import Verif.Json.TypedCheck
import Verif.Main.SpecAccepted
import Verif.Main.PropsAccepted
import Verif.Psycho.Smr
import Verif.Psycho.SpecSmr
import Verif.Psycho.PropsSmr
import Verif.Encoder.AhapTyped
import Verif.Main.AhapBands
import Verif.Stream.FreshIds
import Verif.Main.SpecImported
import Verif.Main.PropsImported
import Verif.Encoder.IvsTyped
import Verif.Main.IvsBands
import Verif.Main.WavTyped
import Verif.Main.Streamed
import Verif.Main.SpecIvsStream
import Verif.Main.PropsIvsStream
import Verif.Stream.WaveletPacket
import Verif.Main.SpecWavStream
import Verif.Main.WavStream
import Verif.Main.PropsWavStream
import Verif.Types.DecEq
import Verif.Main.SpecTranscoded
import Verif.Main.Transcoded
import Verif.Main.PropsTranscoded
import Verif.Bits.SpecRecode
import Verif.Bits.PropsRecode
import Verif.Stream.SpecCrc
import Verif.Stream.PropsCrc
import Verif.Stream.SpecSpatial
import Verif.Main.SpecSynth
import Verif.Eval.SpecTransient
import Verif.Eval.PropsTransient
import Verif.Stream.SpecComposite
import Verif.Stream.PropsComposite
import Verif.Spiht.PropsProbability
import Verif.Psycho.PropsCodec
import Verif.Encoder.PropsIvsSignal
import Verif.Eval.Rounded
import Verif.Eval.SpecRounded
import Verif.Eval.DoubleLemmas
import Verif.Eval.PropsRounded
import Verif.Eval.RelLemmas
import Verif.Eval.PropsRoundedCurve
import Verif.Main.Beside
import Verif.Main.SpecSynthOhm
import Verif.Main.PropsSynthOhm
import Verif.Tools.SpecNumber
import Verif.Tools.PropsNumber
import Verif.Eval.SpecNear
import Verif.Eval.NearLemmas
import Verif.Eval.NearSound
import Verif.Eval.NearChannel
import Verif.Main.SpecSounds
import Verif.Main.SoundsLemmas
import Verif.Main.PropsSounds
import Verif.Stream.SpecJoin
import Verif.Stream.SyncLemmas
import Verif.Stream.JoinLemmas
import Verif.Stream.PropsJoin
import Verif.Main.SpecRate
import Verif.Main.RateLemmas
import Verif.Main.PropsRate
import Verif.Main.SpecPadding
import Verif.Main.PropsPadding
import Verif.Stream.JoinRead
import Verif.Stream.SpecLoss
import Verif.Stream.LossLemmas
import Verif.Stream.PropsLoss
import Verif.Eval.SpecMix
import Verif.Main.PropsMix
import Verif.Main.SpecMove
import Verif.Main.PropsMove
import Verif.Main.SpecPoint
import Verif.Main.PropsPoint
import Verif.Main.PropsShared
import Verif.Wavelet.Band
import Verif.Wavelet.SpecBand
import Verif.Wavelet.PropsBand
import Verif.Eval.Natural
import Verif.Eval.SpecNatural
import Verif.Eval.PropsNatural
import Verif.Stream.SpecCut
import Verif.Stream.PropsCut
import Verif.Main.SpecVolume
import Verif.Main.PropsVolume
import Verif.Main.SpecSolo
import Verif.Main.PropsSolo
import Verif.Stream.SpecDuration
import Verif.Stream.PropsDuration
import Verif.Main.SpecOrder
import Verif.Main.PropsOrder
import Verif.Stream.SpecHostile
import Verif.Stream.PropsHostile
import Verif.Main.RateSplines
import Verif.Tools.SpecOhmCut
import Verif.Tools.PropsOhmCut
import Verif.Eval.NearBezier
import Verif.Stream.SpecRepeat
import Verif.Stream.PropsRepeat
import Verif.Main.WaveletParts
import Verif.Spiht.StateLemmas
import Verif.Wavelet.Shared
import Verif.Wavelet.SpecShared
import Verif.Wavelet.PropsShared
import Verif.Wavelet.PropsPayload
