# Design of the formal model

Subject: MPEGGroup/HapticReferenceSoftware (C++), read as text from `/repo`.
Proof assistant: Lean 4.33.0, single Mathlib modules imported where needed.

## Layout

* `lean/Verif/<Area>/Model.lean` – the model: computable functions transcribing the C++ function by
  function; each definition cites file and lines.
* `lean/Verif/<Area>/Spec.lean` – where needed, a small independent specification
  (e.g. GF(2) polynomial remainder, "sorted stable permutation").
* `lean/Verif/<Area>/Lemmas.lean` – helper lemmas.
* `lean/Verif/<Area>/Props.lean` – the property theorems with their non-vacuity examples.
  Theorem names start with the property id in lower case (`c01_...`).

## Modelling conventions

* Bit vectors (`std::vector<bool>`) are `List Bool`, most significant bit first, as in the code.
* A reader over a bit vector plus cursor is a function from the remaining bits to
  `Except Err (value × remaining bits)`. Undefined behaviour (`Err.ub`), thrown exceptions
  (`Err.throw`), non-termination (`Err.diverge`) and a `false` return (`Err.fail`) are distinct outcomes.
* `int` values are `Int`. Machine widths are modelled where the code narrows (casts to
  `uint8_t`/`uint16_t`/`int8_t`, 25-bit position fields, ...). Overflow of `int` arithmetic
  (undefined behaviour in C++) is excluded by the explicit range hypotheses of the theorems or
  stated as not modelled in the definition's comment.
* `float`/`double`: binary32/binary64 rounding is modelled on exact rationals
  (round-to-nearest-even) where a property depends on it; NaN and infinities are not modelled.
  Where exact arithmetic replaces rounding the definition says so, and the theorem is `_partial`.
* Mutation through references becomes returning the new value; loops become recursion/folds, or take
  fuel when termination is itself in question.
* Library calls (rapidjson, pugixml, AudioFile, IIR, dj_fft, file system) are not modelled.

## Property plan

| id | model | proof |
|----|-------|-------|
| C01, C02 | `writeNBits`, `readNBits` with pending bits, `fillBitset`, `writeBitset` | refinement of the stateful reader to a flat bit cursor, then round trip by induction on width |
| C03 | `readUInt`, `readInt` on bit lists | two's complement arithmetic |
| C04 | `writeString`, `readString` | round trip by induction; negation witness for a 256-byte text |
| C05 | `writeFloatNBits`, `readFloatNBits` | rational arithmetic; binary32 rounding as separate layer |
| C06–C08 | whole of IOBinary.cpp, IOBinaryBands.cpp | compositional round-trip lemmas (`reader (writer x ++ rest) = (x, rest)`) |
| C09 | `writeLibraryEffect`, `writeTimelineEffect` as fuel-indexed recursion | negation: no fuel suffices for an effect with a timeline; partial: terminates otherwise |
| C10 | block length code | arithmetic |
| C11, C12 | `computeCRC` | refinement to polynomial remainder over GF(2); burst detection from invertibility of x |
| C13–C17 | IOStream packet/unit writers and readers | compositional round trips; negations for the code's defects |
| C18 | `sortPacket` | insertion-sort induction |
| C19 | packetisation loop | window partition; negation for overlapping effects |
| C20 | id allocation | max+1 |
| C21 | `ArithEnc::encode`, `ArithDec::decode` | interval invariant: the emitted bit string denotes a number in the encoder interval, decoder tracks the same interval |
| C22 | SPIHT encoder/decoder list machine | lock-step simulation: decoder state = encoder state restricted to transmitted planes |
| C23 | trailing-zero stripping | analysis of coder output; negation witness on `ArithEnc::encode` alone |
| C24 | header bits | finite arithmetic |
| C25 | base64 functions | regrouping lemma |
| C26–C31 | Types containers | list induction, histories as folds |
| C32, C33 | evaluation, without rounding (Eval/Model) and with it (Eval/Rounded) | clamp algebra; no division by zero, whatever the rounding; divergence witness |
| C34 | conformance checks | soundness by unfolding of loops to quantifiers |
| C35–C37 | stream reader state machine | witnesses and partial theorems |
| C38 | OHM byte format | round trip; negation witness for masks |
| C39 | `WavParser`: scaling, clipping, interleaving, loading | induction over channels and samples; round trip with `Nearest`; conversion of negative values as parameter `wrap` |
| C40, C72–C75 | `IvsEncoder`: repeat expansion, ticks and Hz in binary64, attack/fade, distribution to bands, whole file | list induction; error bounds of `fl64`; `inject` as invariant "no two effects of a band overlap"; negations with witnesses |
| C41, C80 | `PcmEncoder`: extrema, keyframes, bands of a channel | induction on the signal; case analysis `Bands`; filter, evaluation and wavelet encoder are parameters |
| C42, C43, C67, C68 | `WaveletEncoder`, `WaveletDecoder` | block splitting as list arithmetic; quantiser error bound; encoder-decoder round trip by composition with C21/C22 |
| C44 | `InputParser` | lists; plain command lines are independent of order |
| C45, C50–C54, C63–C65 | evaluation of effects, bands and channels in real arithmetic with NaN; C45 and C50–C52 also with rounding (Eval/Rounded) | convexity, periodicity, area under the frequency curve; negations for pad units, two-keyframe curves and tails |
| C46–C49, C55–C62 | stream writer and reader as a whole | simulation of reader by writer, unit by unit; termination by a decreasing measure; clock equality along histories |
| C66 | SPIHT decoder on arbitrary bytes | safety invariant of the list machine |
| C69, C70 | regular expressions (backtracking matcher), conformance checks | soundness and completeness against declarative languages |
| C71 | IOJson writer and loader on JSON trees | compositional round trip |
| C76–C78 | `AhapEncoder` on JSON trees | safety by case analysis; keyframes of continuous events; whole file |
| C38, C79 | `OHMData` bytes; conversion from and to experiences | round trip; exactly which masks, versions and modalities survive |
| C81–C83 | `main` of encoder, synthesizer and decoder | case analysis of runs; composition with C32, C54, C57, C80; negations with concrete command lines |
| C84 | `Wavelet.cpp` (`Transform.lean`), any rounding of relative error 2⁻⁵³ | symmetric extension as a function on ℤ, parity of reflections, the reconstruction identity as a linear inequality, induction over levels |
| C85 | C42, C43, C67 with the transform of C84 | composition, error per band |
| C86 | `findPeaks`, `peakMask`, the bands (Psycho/Model), exact arithmetic | plateau-free: nearest higher peak argument; witnesses for plateaus |
| C87 | the three splines of Tools.cpp (Eval/Splines), put into the rendering of C53 | algebra per segment; knots and weights; square root bounds; witnesses |
| C88 | `EvaluationBand` and `EvaluateWavelet` in binary64 (Eval/Playback) | error bounds of the positions; subtraction is exact; a `double` below an integer stays below it through multiplication and division |
| C89 | C85, C88 and C39 put together with the mixing of `EvaluateChannel` (Main/Recording) | composition; limiting is 1-Lipschitz |
| C90 | the loading functions of C71 on arbitrary trees; form and meaning of a file (Json/SpecLoad) | induction over lists, element by element; witnesses for every missing check |
| C91 | the loops of `LP` and `HP` over an arbitrary filter (Filter/Model) | the filtered signal as a double sum; exchange of sums |
| C92 | the importers (Encoder/Ahap, Ivs, Pcm, Wavelet/Encoder), writer and loader of JSON (Json/Write, Load), the conformance checks | the loaded experience is the written one but for the date (C33), so loading succeeds iff the checks do (C34); the checks on what each importer makes, by its characterisation (C74-C80) |
| C93 | `getSMR`, `globalMaskingThreshold`, `perceptualThreshold` (Psycho/Smr) over a parametric libm and Fourier transform; the static variable as state | sums over bands; relative errors; the first value of the threshold by rounding bounds; C86 for the mask, C43 for the encoder |
| C94 | the AHAP encoder of C76–C78 followed by the stream writer and reader of C57 (Main/PropsImported) | bounds on the keyframes made by the encoder give the hypotheses of C57; the identifiers given are 0, 1, 2, …; witnesses by evaluation in the kernel |
| C95 | the IVS encoder of C40 and C72–C75 followed by the stream writer and reader of C57 (Main/Streamed, Main/PropsIvsStream) | at most six keyframes per effect and no overlap in a band bound the events of a packet; the rest as C94; witnesses by evaluation in the kernel |
| C96 | the WAV encoder of C80, with the wavelet encoder of C26, followed by the stream writer and reader of C57 (Main/WavStream, Main/PropsWavStream) | bounds on the blocks and keyframes of each channel give the hypotheses of C57 for several channels; what is received otherwise by `c58_received` and arithmetic on the position of the second block |
| C97 | the stream writer and reader of C57 followed by the writer and loader of `.hjif` files of C71 (Main/Transcoded, Main/PropsTranscoded) | what is received has values of the C++ types and conforms, part by part; identifiers that were added are not kept by a file; samples for the negations |
| C98 | `writeFloatNBits`, `readFloatNBits` as for C05 (Bits/PropsRecode) | all 256 codes of an amplitude, each value being one of them; induction over the generations |
| C99 | `readUnits` with `checkCRC`, `readCRC`, `readData` (Stream/PropsCrc, Stream/SpecCrc) | units as lists of packets; the state a CRC packet leaves is an invariant of the units after it; the check that follows every later unit always fails |
| C100 | `Band.evaluate`, `evaluationSwitch`, `evaluateTransient`, `findBandAvailable` (Eval/PropsTransient, Eval/SpecTransient) | the sound of a transient as a function of seconds; the effect that is played is the last one that has started; the early exit for the end of the band compared with the duration in ticks |
| C101 | `ohmFile`, `fileName`, `replaceExtension`, `besideOf` with the encoder of C81 and C80 (Main/Synth, Main/Beside, Main/PropsSynthOhm) | splitting of paths; round trip of the OHM file (C38); the encoder's channels by C80; negations for two perceptions and for gains |
| C102 | writer and reader of C57 with the synthesizer of C82 (Main/SpecSounds, Main/PropsSounds; Eval/NearLemmas, NearSound, NearBezier, NearChannel) | every function of the evaluation is continuous in amplitudes and phases with explicit constants; errors of quantization from C05; wavelet blocks are received byte for byte, so the decoder (Main/WaveletParts) makes the same samples of them; negations for channels without a number of samples and without bands |
| C103 | writer and reader of C57, with sync points (Stream/SpecJoin, SyncLemmas, JoinLemmas, PropsJoin) | the clock of the writer never passes a sync point before its unit is written; what is sent after time `t` are the sendings of the experience since `t`, so that C57's reader applies to the rest; a repeated description changes nothing (C36); negations by evaluation in the kernel |
| C104 | renderings of C32 and C52 and the program of C82 (Main/SpecRate, RateLemmas, PropsRate) | samples of bands other than curves depend on `i / fs` only; segments of curves depend on the proportions of times, and the value of a curve at a time is unique; induction over effects, bands and channels; negation with an explicit curve |
| C105 | renderings of C32 and the program of C82 (Main/SpecPadding, PropsPadding) | the position of sample `i + d` with padding is that of sample `i` without; before, no effect has started, and after the last effect all add 0; induction over effects, bands and channels; negation with the curve of C104 |
| C106 | streams of C57, C103 (Stream/SpecLoss, LossLemmas, PropsLoss) | a unit is heard as a whole or not at all, so the packets that arrive are those an experience with only the events at those times would send; induction over the units with the invariant of C103, with the clock right unless time has been lost; negations by evaluation |
| C107 | evaluation of channels and bands (Eval/Model; Eval/SpecMix, Main/PropsMix) | induction over the bands: clipping after every addition equals clipping at the end for numbers of one sign or of small magnitude; the sum of optional reals is right commutative, so permutations do not matter; negations by evaluation |
| C108 | evaluation of effects, synthesizer (Main/SpecMove, PropsMove) | every effect depends only on the difference of time and position; the sum over the started effects by induction; moving commutes with replacing the references; then as C105; the negation follows from that of C105, since padding and position of a curve are added |
| C109 | evaluation of bands and channels at a position and as a signal (Eval/Model; Main/SpecPoint, PropsPoint) | the effects from the last to the first: those that have not started and those that have ended are silent, so the sum is the value of the last one that has started; channels by C107; negations by evaluation |
| C110 | `refactor`, `linearize`, `playFile` (Types/Ops, Main/Synth; Main/PropsShared) | evaluation depends on an effect only through its signal (C31), level by level up to the synthesizer; resolving twice is resolving once; negation by evaluation |
| C111 | `WaveletDecoder::decodeBand` (Wavelet/Band; SpecBand, PropsBand) | each block by C43; a power of two commutes with rounding; where blocks are placed, by induction for adjacent, later and earlier positions |
| C112 | `cubicInterpolation`, `interpolationCodec` (Eval/Natural; SpecNatural, PropsNatural) | the tridiagonal system: pivots positive by induction, backward substitution solves it, hence the spline conditions; the codec by C52 |
| C113 | `loadFile`, `readFile` (Stream/Unit; SpecCut, PropsCut) | reading past the end gives zeros, so the units are the complete ones and one filled up; at the end of a unit by C106 with all later units lost |
| C114 | `playFile`, `getTimeLength` (Main/Synth; SpecVolume, PropsVolume) | removing everything but the effects commutes with each step, so the signals are those of the effects alone times the factors |
| C115 | `playFile`, `getTimeLength`, `EvaluateChannel` (Main/Synth, Eval/Model; SpecSolo, PropsSolo) | every loop over samples commutes with taking the first ones; the number of samples grows with the length, as rounding is monotone |
| C116 | `IOStream::writeUnits`, `readUnits` (Stream; SpecDuration, PropsDuration) | corollary of C57: what is received does not mention the duration; negations by running the units of small experiences |
| C117 | `playFile`, `getTimeLength`, `linearize` (Main/Synth; SpecOrder, PropsOrder) | C82 in both directions; permutations of related lists; the maximum does not depend on the order |
| C118 | `loadFile`, `readMIHSUnit`, `readMIHSPacket`, `readFile` (Stream/Unit, Reader; SpecHostile, PropsHostile) | every unit is as long as it says; the head of a unit and of its first packet evaluated on any bits; negations for whole classes of files |
| C119 | `OHMData::loadFile`, `writeFile` (Tools/Ohm; SpecOhmCut, PropsOhmCut) | readers that do not tell the end of the file from zeros, composed; the sizes of what is written |
| C120 | writer and reader of C57 (Stream/SpecRepeat, PropsRepeat) | the reader's invariant of C106 along any sequence of frames that differs from the stream in its sync points only; negations by evaluation |
| C121 | encoder and decoder of C22 and C67, with the state handed from block to block, band to band and channel to channel (Wavelet/Shared, SpecShared, PropsShared, PropsPayload, Spiht/StateLemmas) | the tables of two encoders agree wherever they are looked at (induction over the levels and over the list of sets); induction over blocks, bands and channels |

## Trusted base

* Lean's kernel and the axioms `propext`, `Classical.choice`, `Quot.sound` at most (checked with `#print axioms`
  for every theorem of the manifest). No axiom is added; no `sorry`, `native_decide`, `bv_decide`.
  `decide +kernel` evaluates in the kernel and is used for concrete witnesses only.
* The reading of the C++ source recorded in the citations. The code is not executed.
* The assumptions of the next two sections.

## Assumptions

* `float`/`double` are IEEE binary32/binary64 with round-to-nearest-even, each operation rounded once (no fused
  multiply-add, no extended precision). `fl32`/`fl64` (Bits/Float.lean) round rational numbers; NaN, infinities and
  signed zeros do not occur in that model. Bits/PropsFloat.lean proves the bounds used elsewhere.
* Evaluation (Eval) uses real numbers, with NaN (`0/0`) as a separate value, in place of `double`.
  Eval/Rounded is the same code with every result rounded; with no rounding it is Eval (`evaluate_exact`), and C32
  and C33, and the shapes of C45 and C50–C52, hold for it with any rounding that is right up to one part in 2^53, monotone and exact on whole numbers
  (`Arith.Sound`), such as that of binary64 with exponents of any size (`double_sound`).
* The arithmetic coder's probabilities are exact quotients, which gives the same as binary64 (C21); the wavelet quantiser is in binary64, with
  `pow(x, 2)` the rounded square; so are the bit budget polynomial and the number of samples of the synthesizer.
* `int` overflow is undefined behaviour in C++. Where it can be reached, it is an outcome `ub` or excluded by range
  hypotheses; the sums of the IVS and AHAP importers are taken without overflow.
* `std::sort` on equal keys: the result order is a parameter where it matters (IVS repeats).
* The host is little-endian with signed `char`; right shifts of negative `int` are arithmetic.
* Library code: rapidjson's printing followed by parsing is the identity on JSON trees and a failed assertion of it is
  `ub`; pugixml gives the attributes of well-formed files; dr_wav stores and gives back header and samples; the JSON
  schema check is a parameter; `std::regex` is a backtracking matcher for the patterns used; files are lists of bytes.

## Modelled / not modelled

Modelled, function by function (every definition cites its lines):

| source | model | remarks |
|--------|-------|---------|
| IOHaptics/IOBinaryPrimitives, IOBinaryFields | Bits/Model, Bits/Fields, Bits/Float | |
| IOHaptics/IOBinary, IOBinaryBands | Binary/Bands, Binary/File | |
| IOHaptics/IOStream | Stream/Unit, Meta, Data, Packetize, Writer, Reader; Crc/Model | scratch fields of the reader that are overwritten before use are left out |
| IOHaptics/IOJson, IOJsonPrimitives | Json/Tree, Tables, Write, Load, Base64, Regex, Conformance | |
| Types/* | Types/Model, Ops, Semantic; Eval/Model, Eval/Rounded | metadata setters/getters as record fields; Akima, Bézier and B-spline interpolation are parameters, put in by C87 (Eval/Splines) |
| Spiht/* | Spiht/Arith, Spiht/Model | |
| Encoder/IvsEncoder, AhapEncoder, PcmEncoder | Encoder/Ivs, IvsRepeat, Inject, Ahap, AhapCurve, Pcm, Numbers | low-pass filter is a parameter of the PCM encoder |
| Encoder/WaveletEncoder, WaveletDecoder | Wavelet/Encoder, Wavelet/Decoder | transform and psychohaptic model are parameters; the transform is put in by C85 |
| PsychohapticModel | Psycho/Model, Psycho/Smr | exact arithmetic but for the threshold; Fourier transform, logarithm, power and square root are parameters |
| FilterBank/Wavelet | Wavelet/Transform, Wavelet/Codec | |
| FilterBank/Filterbank (LP, HP) | Filter/Model | the filter itself is a parameter |
| Tools/InputParser, OHMData, WavParser, Tools (linear, chirp, cubic, normalisation) | Tools/*, Encoder/Numbers, Eval/Model | |
| Encoder, Synthesizer, Decoder `main`; Synthesizer/Helper | Encoder/Main, Main/* | console output left out |

Not modelled: the coefficients of the IIR filters (library `iir1`), the Fourier transform (library `dj_fft`), the unused
`cubicInterpolation` and `interpolationCodec` of Tools, the test programs, and the third-party libraries.

Limits of each theorem are stated in its comment; where the code violates a property, the violation is itself a theorem
with suffix `_negation` (or `_unsafe`) and a concrete witness, and what does hold carries the suffix `_partial`.
