{"id": "C01", "title": "Fixed-width integers survive the binary bit layer at any alignment", "statement": "Writing an integer with IOBinaryPrimitives::writeNBits<T,n>, packing the bits into bytes (fillBitset, writeBitset) and reading them back with readNBits<T,n> returns the same integer whenever it fits in n bits, wherever in a byte the field starts, and the next read continues exactly after the field.", "quantifier": "all bit widths n, all values fitting in n bits, all numbers of already pending bits, all following data", "why_tests_cant": "The reader re-buffers left-over bits between calls; correctness depends on every combination of width, pending-bit count and value, an unbounded set.", "anchors": ["source/IOHaptics/include/IOBinaryPrimitives.h:readNBits", "source/IOHaptics/include/IOBinaryPrimitives.h:writeNBits", "source/IOHaptics/include/IOBinaryPrimitives.h:fillBitset", "source/IOHaptics/include/IOBinaryPrimitives.h:writeBitset"]}
{"id": "C02", "title": "Any field sequence read from a binary file equals the same reads on one flat bit string", "statement": "The stateful file reader (istream plus pending bits) behaves as a cursor over the flat bit string of the file: each read of n bits returns the next n bits, consumes no more and no fewer, and reads past the end of the file return zero bits.", "quantifier": "all files, all sequences of reads of arbitrary widths, including past the end of file", "why_tests_cant": "It is a statement about every history of reads, not one call.", "anchors": ["source/IOHaptics/include/IOBinaryPrimitives.h:readNBits"]}
{"id": "C03", "title": "Signed integers survive the MIHS bit layer", "statement": "IOBinaryPrimitives::readInt returns the two's-complement value that writeNBits<int,n> wrote, for every value in [-2^(n-1), 2^(n-1)), and advances the cursor by exactly n; readUInt does the same for unsigned values below 2^31.", "quantifier": "all widths 1..31, all values in range, all offsets and surrounding data", "why_tests_cant": "The sign handling flips the whole bitstream before re-reading; the claim is for every width/value/offset.", "anchors": ["source/IOHaptics/include/IOBinaryPrimitives.h:readInt", "source/IOHaptics/include/IOBinaryPrimitives.h:readUInt"]}
{"id": "C04", "title": "Strings up to 255 bytes survive the binary string codec; longer strings must not corrupt what follows", "statement": "writeString followed by readString returns the text and leaves the cursor right after it for every text of at most 255 bytes. (Full property: for longer texts the fields after the string are still read correctly.)", "quantifier": "all byte strings, all following data", "why_tests_cant": "Length boundary plus arbitrary content and following fields.", "anchors": ["source/IOHaptics/src/IOBinaryPrimitives.cpp:writeString", "source/IOHaptics/src/IOBinaryPrimitives.cpp:readString"]}
{"id": "C05", "title": "Quantised float fields stay in range and within one quantisation step", "statement": "A float written with writeFloatNBits<T,n>(v,min,max) and read back with readFloatNBits lies in [min,max], never decreases when v increases, reproduces min and max exactly at the ends, and differs from the clamped input by at most one step (max-min)/(2^n-1) (up to the rounding of binary32 arithmetic).", "quantifier": "all values, all widths used, all ranges min<max", "why_tests_cant": "Real-valued domain; truncation and clamping interact.", "anchors": ["source/IOHaptics/include/IOBinaryPrimitives.h:writeFloatNBits", "source/IOHaptics/include/IOBinaryPrimitives.h:readFloatNBits"]}
{"id": "C06", "title": "The binary file (IOBinary) header round-trips", "statement": "IOBinary::writeFileHeader followed by readFileHeader restores version, profile, level, date, description, avatars, perceptions, libraries, reference devices, channels and band headers (floats up to their quantisation), for every experience whose fields fit the format.", "quantifier": "all experiences whose counts, ids and strings fit the field widths", "why_tests_cant": "Unbounded nesting of lists with optional fields; every combination of presence bits must stay in sync.", "anchors": ["source/IOHaptics/src/IOBinary.cpp:writeFileHeader", "source/IOHaptics/src/IOBinary.cpp:readFileHeader"]}
{"id": "C07", "title": "The binary file (IOBinary) body round-trips effects of every band type", "statement": "IOBinaryBands::writeBandBody followed by readBandBody restores the effects of Transient, Curve, VectorialWave and WaveletWave bands, keyframe by keyframe, for effects that fit the format.", "quantifier": "all effect lists, all band types, all keyframe lists with the fields the band type stores", "why_tests_cant": "Variable-length nested records; any missing field desynchronises everything after it.", "anchors": ["source/IOHaptics/src/IOBinaryBands.cpp:writeBandBody", "source/IOHaptics/src/IOBinaryBands.cpp:readBandBody"]}
{"id": "C08", "title": "A whole binary (IOBinary) file round-trips", "statement": "IOBinary::writeFile followed by loadFile into an empty Haptics object yields the same experience (floats up to quantisation), for every experience that fits the format and contains no nested timelines.", "quantifier": "all experiences fitting the format", "why_tests_cant": "The body reader relies on state rebuilt by the header reader for arbitrary structures.", "anchors": ["source/IOHaptics/src/IOBinary.cpp:writeFile", "source/IOHaptics/src/IOBinary.cpp:loadFile"]}
{"id": "C09", "title": "Writing a binary (IOBinary) file terminates for every experience", "statement": "IOBinary::writeFile terminates on every finite experience, including library effects and band effects with a timeline.", "quantifier": "all finite experiences", "why_tests_cant": "Termination over all inputs; a test that hits the bad case simply crashes by stack exhaustion.", "anchors": ["source/IOHaptics/src/IOBinary.cpp:writeLibraryEffect", "source/IOHaptics/src/IOBinaryBands.cpp:writeTimelineEffect"]}
{"id": "C10", "title": "Wavelet block length code round-trips", "statement": "For a wavelet band whose block length is 2^k samples (4<=k), the block length restored by readBandHeader equals the one given to writeBandHeader.", "quantifier": "all block lengths that are powers of two of samples, all upper frequencies and timescales for which the tick count is an integer", "why_tests_cant": "Arithmetic over all timescales/frequencies with rounding and a division.", "anchors": ["source/IOHaptics/src/IOBinaryBands.cpp:writeBandHeader", "source/IOHaptics/src/IOBinaryBands.cpp:readBandHeader"]}
{"id": "C11", "title": "The stream CRC equals polynomial division", "statement": "IOStream::computeCRC returns the remainder of message*x^n divided by x^n + poly over GF(2), for n = 16 and 32 and every message.", "quantifier": "all messages of any length, any polynomial and degree", "why_tests_cant": "Universal over messages; tests only compare a few vectors.", "anchors": ["source/IOHaptics/src/IOStream.cpp:computeCRC"]}
{"id": "C12", "title": "CRC packets detect every single-bit error and every burst no longer than the CRC", "statement": "If a protected block is altered in one bit, or in any burst of at most 16 (CRC16) / 32 (CRC32) consecutive bits, the CRC recomputed on reception differs from the transmitted one; an unaltered block always passes.", "quantifier": "all messages, all error positions and burst patterns", "why_tests_cant": "Number of message/error pairs is unbounded.", "anchors": ["source/IOHaptics/src/IOStream.cpp:computeCRC", "source/IOHaptics/src/IOStream.cpp:checkCRC", "source/IOHaptics/src/IOStream.cpp:writeCRC"]}
{"id": "C13", "title": "MIHS packet header round-trips", "statement": "readMIHSPacketType and the length decoding of readMIHSPacket recover the packet type and payload byte count that writeMIHSPacketHeader produced, for every payload of fewer than 2^17 bytes.", "quantifier": "all packet types, all payload lengths", "why_tests_cant": "All lengths; byte/bit and 17-bit field boundary.", "anchors": ["source/IOHaptics/src/IOStream.cpp:writeMIHSPacketHeader", "source/IOHaptics/src/IOStream.cpp:readMIHSPacket"]}
{"id": "C14", "title": "A .hmpg stream file splits back into exactly the units that were written", "statement": "IOStream::loadFile applied to the concatenation of any MIHS units (9-byte header with 32-bit payload length, payload) returns exactly those units, in order, each complete.", "quantifier": "all lists of units with arbitrary payloads", "why_tests_cant": "Framing must hold for every list and payload size, not a sample file.", "anchors": ["source/IOHaptics/src/IOStream.cpp:loadFile", "source/IOHaptics/src/IOStream.cpp:writeMIHSUnit"]}
{"id": "C15", "title": "Every packet of an MIHS unit is read", "statement": "IOStream::readMIHSUnit processes every packet contained in the unit's payload.", "quantifier": "all units, all packet lists", "why_tests_cant": "Depends on the size of the last packet relative to the header; only some sizes fail.", "anchors": ["source/IOHaptics/src/IOStream.cpp:readMIHSUnit"]}
{"id": "C16", "title": "Timing packets round-trip", "statement": "writeTiming/readTiming and writeInitializationTiming/readInitializationTiming restore time, timescale, nominal duration, duration deviation and overlap flag.", "quantifier": "all values fitting the field widths", "why_tests_cant": "All field values and their bit boundaries.", "anchors": ["source/IOHaptics/src/IOStream.cpp:writeInitializationTiming", "source/IOHaptics/src/IOStream.cpp:readInitializationTiming", "source/IOHaptics/src/IOStream.cpp:writeTiming", "source/IOHaptics/src/IOStream.cpp:readTiming"]}
{"id": "C17", "title": "Experience, avatar, perception, reference-device, channel, band and library metadata packets round-trip", "statement": "Each MIHS metadata packet payload written by IOStream is restored field by field by the matching reader (floats up to quantisation; an absent priority is transmitted as 0).", "quantifier": "all metadata whose fields fit the format, including arbitrarily nested library timelines", "why_tests_cant": "Optional fields and variable-length lists in all combinations; recursive timelines of any depth.", "anchors": ["source/IOHaptics/src/IOStream.cpp:writeMetadataHaptics", "source/IOHaptics/src/IOStream.cpp:writeMetadataPerception", "source/IOHaptics/src/IOStream.cpp:writeMetadataChannel", "source/IOHaptics/src/IOStream.cpp:writeMetadataBand", "source/IOHaptics/src/IOStream.cpp:writeLibrary"]}
{"id": "C18", "title": "Packets are emitted in timestamp order without loss, duplication or reordering of ties", "statement": "IOStream::sortPacket returns a permutation of the packets, ordered by timestamp, keeping the original order of packets with equal timestamps.", "quantifier": "all packet lists with timestamps below 2^31", "why_tests_cant": "Sorting correctness is universal over lists.", "anchors": ["source/IOHaptics/src/IOStream.cpp:sortPacket", "source/IOHaptics/src/IOStream.cpp:readPacketTS"]}
{"id": "C19", "title": "Splitting an effect over packets loses no keyframe", "statement": "When a band is packetised with a packet duration d, every keyframe of every non-overlapping effect appears in exactly one packet, the one whose time window contains it, and re-assembling packets with the same effect id restores the keyframe list. (Full property: for every band, overlapping effects included.)", "quantifier": "all bands, all keyframe times, all packet durations", "why_tests_cant": "Windows, effect positions and durations combine without bound.", "anchors": ["source/IOHaptics/src/IOStream.cpp:packetizeBand", "source/IOHaptics/src/IOStream.cpp:createPayloadPacket", "source/IOHaptics/src/IOStream.cpp:writeEffectBasis", "source/IOHaptics/src/IOStream.cpp:addEffectToHaptic"]}
{"id": "C20", "title": "Fresh effect identifiers never collide", "statement": "IOStream's effect id assignment gives every effect without an id a new id different from all ids already used in the experience.", "quantifier": "all experiences, all existing id sets", "why_tests_cant": "Universal over id sets.", "anchors": ["source/IOHaptics/src/IOStream.cpp:getNextEffectId", "source/IOHaptics/src/IOStream.cpp:setNextEffectId", "source/IOHaptics/src/IOStream.cpp:getEffectsId"]}
{"id": "C21", "title": "The arithmetic coder is lossless", "statement": "ArithDec decoding the bytes produced by ArithEnc::encode and convert2bytes returns the encoded binary symbols, for every symbol/context sequence, provided the encoder's output is not all zeros.", "quantifier": "all symbol sequences and context sequences of any length", "why_tests_cant": "Adaptive state, carry (bits-to-follow) and stripped trailing zeros make correctness depend on the entire history.", "anchors": ["source/Spiht/src/ArithEnc.cpp:encode", "source/Spiht/src/ArithDec.cpp:decode"]}
{"id": "C22", "title": "SPIHT is lossless", "statement": "Spiht_Dec::decode applied to the output of Spiht_Enc::encode restores every quantised wavelet coefficient, for every block whose length is a power of two and whose magnitudes fit the announced number of bit planes.", "quantifier": "all coefficient blocks, all block lengths, all bit-plane counts", "why_tests_cant": "Three dynamic lists mutated during traversal over every possible significance pattern.", "anchors": ["source/Spiht/src/Spiht_Enc.cpp:encode", "source/Spiht/src/Spiht_Dec.cpp:decode"]}
{"id": "C23", "title": "Encoding a wavelet block never throws", "statement": "ArithEnc::encode returns normally on every input Spiht_Enc produces (its trailing-zero removal must not run past the start of the stream).", "quantifier": "all blocks accepted by the encoder", "why_tests_cant": "The exception needs a coded stream made only of zeros.", "anchors": ["source/Spiht/src/ArithEnc.cpp:encode"]}
{"id": "C24", "title": "Wavelet maximum header round-trips", "statement": "The bit-plane count and the quantised maximum coefficient written in the SPIHT block header are restored by the decoder.", "quantifier": "all bit-plane counts 0..15, all quantised maxima in both quantiser modes", "why_tests_cant": "All 4-bit and 8-bit header values through two different quantiser formats.", "anchors": ["source/Spiht/src/Spiht_Enc.cpp:maximumWaveletCoefficient", "source/Spiht/src/Spiht_Enc.cpp:setBitwavmax", "source/Spiht/src/Spiht_Dec.cpp:getWavmax"]}
{"id": "C25", "title": "Wavelet payload survives the base64 text of a .hjif file", "statement": "The wavelet bitstream written in JSON (bytes2bits, bits2base64) and read back (base642bits, bits2bytes) is the original stream with trailing zero bytes removed, for every stream that is not all zeros.", "quantifier": "all byte strings", "why_tests_cant": "6-bit/8-bit regrouping with trailing-zero stripping, any length and content.", "anchors": ["source/IOHaptics/src/IOJson.cpp:bits2base64", "source/IOHaptics/src/IOJson.cpp:base642bits", "source/IOHaptics/src/IOJson.cpp:bytes2bits", "source/IOHaptics/src/IOJson.cpp:bits2bytes"]}
{"id": "C26", "title": "Effects of a band are always kept in time order", "statement": "After any sequence of Band::addEffect calls the effects are sorted by position, each added effect is present exactly once, and effects with equal position keep insertion order.", "quantifier": "all sequences of additions", "why_tests_cant": "Statement over every history of additions.", "anchors": ["source/Types/src/Band.cpp:addEffect"]}
{"id": "C27", "title": "Inserting amplitude or frequency keyframes keeps the keyframes ordered and the requested value readable", "statement": "Effect::addAmplitudeAt and addFrequencyAt keep keyframes sorted by position, never alter other keyframes' positions, and afterwards the keyframe at the position carries the requested value.", "quantifier": "all keyframe lists, all positions and values", "why_tests_cant": "Histories of interleaved insertions.", "anchors": ["source/Types/src/Effect.cpp:addAmplitudeAt", "source/Types/src/Effect.cpp:addFrequencyAt"]}
{"id": "C28", "title": "Index-based replace and remove touch exactly one element, or none when the index is invalid", "statement": "replaceXAt/removeXAt for perceptions, channels, bands, effects, keyframes return false and change nothing when the index is out of range, otherwise return true and change exactly that element.", "quantifier": "all containers, all indices including negative and too large", "why_tests_cant": "Boundary conditions over all sizes and integer indices.", "anchors": ["source/Types/src/Band.cpp:replaceEffectAt", "source/Types/src/Band.cpp:removeEffectAt", "source/Types/src/Channel.cpp:replaceBandAt", "source/Types/src/Effect.cpp:replaceKeyframeAt", "source/Types/src/Perception.cpp:replaceChannelAt", "source/Types/src/Haptics.cpp:replacePerceptionAt"]}
{"id": "C29", "title": "Replacing perception metadata copies every metadata field and keeps the channels", "statement": "Haptics::replacePerceptionMetadataAt copies id, avatar id, description, modality, reference devices and library of the given perception while keeping the channels.", "quantifier": "all perceptions", "why_tests_cant": "Only perceptions whose id differs from their avatar id expose an error.", "anchors": ["source/Types/src/Haptics.cpp:replacePerceptionMetadataAt"]}
{"id": "C30", "title": "The band chosen for a new effect never already contains an overlapping effect", "statement": "Channel::findBandAvailable returns a band of the requested type none of whose effects overlaps the requested interval, or nothing if there is none.", "quantifier": "all channels, positions and durations", "why_tests_cant": "Universal over band contents and intervals.", "anchors": ["source/Types/src/Channel.cpp:findBandAvailable", "source/Types/src/Band.cpp:isOverlapping"]}
{"id": "C31", "title": "Linearising replaces every resolvable reference by its library effect", "statement": "Haptics::linearize leaves no Reference effect whose id is in the library, keeps position and order of effects, substitutes exactly the keyframes of the library entry, and empties the library. Refactoring then linearising gives back the original signal description.", "quantifier": "all perceptions and libraries", "why_tests_cant": "Round trip over all reference/library graphs.", "anchors": ["source/Types/src/Perception.cpp:linearizeLibrary", "source/Types/src/Perception.cpp:refactorEffects"]}
{"id": "C32", "title": "Synthesised channel samples never leave [-1,1]", "statement": "Channel::Evaluate and EvaluateChannel return amplitudes in [-1,1] for every channel and time.", "quantifier": "all channels, bands, effects, times", "why_tests_cant": "Real-valued inputs, any number of bands.", "anchors": ["source/Types/src/Channel.cpp:Evaluate", "source/Types/src/Channel.cpp:EvaluateChannel"]}
{"id": "C33", "title": "Evaluation terminates", "statement": "Effect::EvaluateTransient terminates for every effect and time.", "quantifier": "all keyframe lists and times", "why_tests_cant": "Non-termination on rare inputs.", "anchors": ["source/Types/src/Effect.cpp:EvaluateTransient"]}
{"id": "C34", "title": "A file accepted by the semantic conformance check has unique identifiers and resolvable references", "statement": "If semanticConformanceCheckExperience accepts, then avatar, perception, channel (within a perception), reference device and library effect ids are unique, every channel's reference device exists, every Reference effect resolves in its perception's library, and band limits are ordered.", "quantifier": "all experiences", "why_tests_cant": "Soundness of a checker over all accepted inputs.", "anchors": ["source/IOHaptics/src/IOJson.cpp:semanticConformanceCheckExperience", "source/IOHaptics/src/IOJson.cpp:semanticConformanceCheckEffect"]}
{"id": "C35", "title": "Conformant experiences keep their channels when streamed", "statement": "A channel metadata packet is attached to the perception it names, for every experience whose channel ids are unique within each perception.", "quantifier": "all experiences, all orders of channel packets", "why_tests_cant": "Needs two perceptions re-using an id; histories of packets.", "anchors": ["source/IOHaptics/src/IOStream.cpp:searchChannelInHaptic", "source/IOHaptics/src/IOStream.cpp:readMetadataChannel"]}
{"id": "C36", "title": "Re-receiving an initialization unit changes nothing", "statement": "Reading the same MetadataHaptics/Perception/Channel/Band/Library packets twice (sync units) leaves the same experience as reading them once.", "quantifier": "all metadata, any number of repetitions", "why_tests_cant": "Idempotence over histories.", "anchors": ["source/IOHaptics/src/IOStream.cpp:readMIHSPacket", "source/IOHaptics/src/IOStream.cpp:readLibrary"]}
{"id": "C37", "title": "Empty components are removed before streaming", "statement": "IOStream::checkHapticComponent leaves no empty band or channel in the experience, and removes only empty components.", "quantifier": "all experiences", "why_tests_cant": "Needs consecutive empty components; removal during iteration.", "anchors": ["source/IOHaptics/src/IOStream.cpp:checkHapticComponent"]}
{"id": "C38", "title": "OHM metadata files round-trip", "statement": "OHMData::writeFile followed by loadFile restores description, element names, descriptions, gains and body part masks.", "quantifier": "all OHM metadata with strings within their fixed sizes", "why_tests_cant": "32-bit masks with signed-char arithmetic fail only for some bit patterns.", "anchors": ["source/Tools/src/OHMData.cpp:loadFile", "source/Tools/src/OHMData.cpp:writeFile"]}
{"id": "C39", "title": "WAV export clips and interleaves without mixing channels or samples", "statement": "Sample s of channel c is written at index s*channels+c as the scaled value clipped to 16 bits, and reading de-interleaves back to the same channel and sample.", "quantifier": "all channel counts, sample counts, values", "why_tests_cant": "Index arithmetic over all sizes.", "anchors": ["source/Tools/src/WavParser.cpp:saveFile", "source/Tools/src/WavParser.cpp:loadFile"]}
{"id": "C40", "title": "IVS repeat expansion", "statement": "A repeat event with count n yields n+1 copies of its effects, shifted by multiples of the repeat's expanded duration; effects are neither lost nor invented, for arbitrarily nested repeats.", "quantifier": "all repeat trees", "why_tests_cant": "Recursive structure of any depth.", "anchors": ["source/Encoder/include/IvsEncoder.h:RepeatNode::linearize", "source/Encoder/include/IvsEncoder.h:RepeatNode::pushEffect"]}
{"id": "C41", "title": "PCM local extrema are strictly increasing in time and include the borders", "statement": "PcmEncoder::localExtrema returns indices strictly increasing, each paired with the signal's value, and with includeBorder the first and last sample are present; convertToCurveBand produces keyframes with strictly increasing positions.", "quantifier": "all signals", "why_tests_cant": "All signal shapes, plateaus included.", "anchors": ["source/Encoder/src/PcmEncoder.cpp:localExtrema", "source/Encoder/src/PcmEncoder.cpp:convertToCurveBand"]}
{"id": "C42", "title": "Wavelet block splitting covers the signal exactly once", "statement": "WaveletEncoder::encodeSignal produces ceil(n/blockLength) blocks, in order, whose concatenation is the signal followed by zeros, at positions that are multiples of the block duration.", "quantifier": "all signal lengths and block lengths", "why_tests_cant": "All length residues.", "anchors": ["source/Encoder/src/WaveletEncoder.cpp:encodeSignal"]}
{"id": "C43", "title": "Wavelet quantiser", "statement": "uniformQuant returns values of magnitude at most the announced maximum, with the sign of the input, within half/one step of the input, and whose integer index fits the number of bits SPIHT is told.", "quantifier": "all inputs with |x|<=max, all bit counts", "why_tests_cant": "Real-valued domain.", "anchors": ["source/Encoder/src/WaveletEncoder.cpp:uniformQuant", "source/Encoder/src/WaveletEncoder.cpp:maxQuant"]}
{"id": "C44", "title": "Command line options", "statement": "InputParser::getCmdOption returns the token following the first occurrence of the option, or empty if it is absent or last; getFileExt returns the part after the last dot.", "quantifier": "all argument vectors and file names", "why_tests_cant": "All argument lists.", "anchors": ["source/Tools/src/InputParser.cpp:getCmdOption", "source/Tools/src/InputParser.cpp:getFileExt"]}
{"id": "C45", "title": "Linear interpolation stays within its end points", "statement": "linearInterpolation returns a value between the two key values for times between the key times, hits both ends exactly, and is monotone.", "quantifier": "all key points and times", "why_tests_cant": "Real-valued domain.", "anchors": ["source/Tools/src/Tools.cpp:linearInterpolation"]}
{"id": "C46", "title": "Silence units carry the synchronisation state of what follows", "statement": "After writeUnits, each Silent unit has the sync bits of the next Temporal or Initialization unit.", "quantifier": "all unit sequences", "why_tests_cant": "All sequences of units.", "anchors": ["source/IOHaptics/src/IOStream.cpp:silentUnitSyncFlag"]}
{"id": "C47", "title": "Re-encoding a decoded float field is stable", "statement": "Writing a float that was obtained by reading a quantised field, and reading it again, returns the same float: repeated decode/encode generations lose nothing further.", "quantifier": "all widths, ranges, codes and numbers of generations", "why_tests_cant": "Whether a code is stable depends on binary32 rounding of each individual code; the loss only shows over generations.", "anchors": ["source/IOHaptics/include/IOBinaryPrimitives.h:writeFloatNBits", "source/IOHaptics/include/IOBinaryPrimitives.h:readFloatNBits"]}
{"id": "C48", "title": "A malformed stream is reported as a failure", "statement": "IOStream::readFile returns false when a unit or packet of the stream is rejected (unknown packet type, data for an unknown perception, channel or band), when the file is empty or cannot be split into units.", "quantifier": "all byte sequences", "why_tests_cant": "All malformed inputs.", "anchors": ["source/IOHaptics/src/IOStream.cpp:readFile", "source/IOHaptics/src/IOStream.cpp:readMIHSUnit"]}
{"id": "C49", "title": "The receiver's clock equals the transmitter's", "statement": "While the units produced by IOStream::writeUnits are read in order, the reader's time at the start of each Temporal unit equals the timestamp of the data packets in that unit, so that effects are placed at the time they were taken from.", "quantifier": "all sequences of data packets in timestamp order, all packet durations", "why_tests_cant": "Silent units, floors to packet durations and unit durations interact over arbitrarily long streams.", "anchors": ["source/IOHaptics/src/IOStream.cpp:writeUnits", "source/IOHaptics/src/IOStream.cpp:writeMIHSUnitSilent", "source/IOHaptics/src/IOStream.cpp:writeMIHSUnitTemporal", "source/IOHaptics/src/IOStream.cpp:readMIHSUnit"]}
{"id": "C50", "title": "Interpolated curve values never overshoot their keyframes", "statement": "Effect::EvaluateKeyframes, for linear and cubic curves, returns the amplitude of a keyframe at its time, and between two keyframes a finite value between their amplitudes; no value exceeds the largest amplitude.", "quantifier": "all keyframe lists, times, curve types, time scales", "why_tests_cant": "Real-valued domain; overshoot of a cubic depends on every coefficient.", "anchors": ["source/Types/src/Effect.cpp:EvaluateKeyframes"]}
{"id": "C51", "title": "Base signals are periodic and bounded", "statement": "Each base signal (sine, square, triangle, saw teeth) stays in [-1,1] and repeats after one period; a vectorial effect is never rendered louder than its largest amplitude.", "quantifier": "all times, frequencies, phases, keyframe lists", "why_tests_cant": "Real-valued domain, rounding ties.", "anchors": ["source/Types/src/Effect.cpp:computeBaseSignal", "source/Types/src/Effect.cpp:EvaluateVectorial"]}
{"id": "C52", "title": "Curve synthesis yields one sample per instant and passes through every keyframe", "statement": "linearInterpolation2 and cubicInterpolation2 return exactly one value for every sample from the first to the last keyframe, equal to the keyframe amplitudes at the keyframes and between neighbouring amplitudes elsewhere.", "quantifier": "all keyframe sequences in time order", "why_tests_cant": "Off-by-one effects depend on the spacing of the last keyframes.", "anchors": ["source/Tools/src/Tools.cpp:linearInterpolation2", "source/Tools/src/Tools.cpp:cubicInterpolation2", "source/Types/src/Band.cpp:EvaluationBand"]}
{"id": "C53", "title": "Curve effects sound at their own time", "statement": "Band::EvaluationBand adds the interpolated signal of every curve effect, starting at the sample that corresponds to the effect's position.", "quantifier": "all curve bands, sampling frequencies, time scales", "why_tests_cant": "All positions, keyframe counts and sampling parameters.", "anchors": ["source/Types/src/Band.cpp:EvaluationBand"]}
{"id": "C54", "title": "The rendered signal is long enough for every effect", "statement": "Helper::getTimeLength returns a duration that covers the last keyframe of every effect of the experience.", "quantifier": "all experiences", "why_tests_cant": "Any arrangement of effects in bands.", "anchors": ["source/Synthesizer/src/Helper.cpp:getTimeLength", "source/Types/src/Band.cpp:getBandTimeLength"]}
{"id": "C55", "title": "Reading a stream always ends", "statement": "IOStream::readFile ends - with a result, an exception or an out-of-range access, but never by looping for ever - whatever the bytes of the file.", "quantifier": "all byte sequences", "why_tests_cant": "The loops are driven by lengths and counts taken from the file; only an argument over all of them shows they always advance.", "anchors": ["source/IOHaptics/src/IOStream.cpp:loadFile", "source/IOHaptics/src/IOStream.cpp:readMIHSUnit", "source/IOHaptics/src/IOStream.cpp:readLibraryEffect"]}
{"id": "C56", "title": "The content of a data packet is read back", "statement": "The effects IOStream writes in a data packet (identifier, type, position relative to the packet, semantic, phase, base signal, keyframes) are read back, with amplitudes and phase equal up to quantisation, and are added to the band the packet is addressed to, displaced by the difference between the receiver's clock and the packet's timestamp.", "quantifier": "all effects whose values fit the fields, all bands, all receivers that know the band", "why_tests_cant": "Bit-level layout over all effects, keyframe counts and field combinations.", "anchors": ["source/IOHaptics/src/IOStream.cpp:writePayloadPacket", "source/IOHaptics/src/IOStream.cpp:readData", "source/IOHaptics/src/IOStream.cpp:readEffect", "source/IOHaptics/src/IOStream.cpp:addEffectToHaptic"]}
{"id": "C57", "title": "A streamed experience is received", "statement": "Reading with IOStream::readFile the file IOStream::writeFile made of an experience gives back the metadata, library and effects of the experience, with effects where they were and values equal up to quantisation.", "quantifier": "all experiences whose values fit the fields, all packet durations", "why_tests_cant": "End-to-end composition of framing, clock, packetisation and reassembly, for arbitrarily many bands and effects.", "anchors": ["source/IOHaptics/src/IOStream.cpp:writeFile", "source/IOHaptics/src/IOStream.cpp:readFile"]}
{"id": "C58", "title": "Wavelet effects survive streaming", "statement": "IOStream sends every effect of a wavelet band exactly once, and the receiver places each where it was.", "quantifier": "all wavelet bands, block lengths and packet durations", "why_tests_cant": "Depends on the ratio of packet duration and block length and on the number of effects.", "anchors": ["source/IOHaptics/src/IOStream.cpp:createWaveletPayload", "source/IOHaptics/src/IOStream.cpp:readWaveletEffect"]}
{"id": "C59", "title": "Composite effects keep their timing", "statement": "IOStream::linearizeTimeline replaces a composite effect by its parts, each at the time at which the composite plays it.", "quantifier": "all nestings of composite effects", "why_tests_cant": "Unbounded nesting.", "anchors": ["source/IOHaptics/src/IOStream.cpp:linearizeTimeline"]}
{"id": "C61", "title": "New metadata of a channel or band replaces the old", "statement": "Perception::replaceChannelMetadataAt and Channel::replaceBandMetadataAt set every metadata field to the new value and keep the bands, respectively effects.", "quantifier": "all channels and bands", "why_tests_cant": "Any combination of present and absent fields.", "anchors": ["source/Types/src/Perception.cpp:replaceChannelMetadataAt", "source/Types/src/Channel.cpp:replaceBandMetadataAt"]}
{"id": "C60", "title": "Spatial perceptions survive streaming", "statement": "IOStream sends every effect of a perception that is not temporal exactly once, in a form its own reader understands.", "quantifier": "all perceptions with a spatial modality, all effects", "why_tests_cant": "Depends on the number of effects, their keyframes and the channel's vertices.", "anchors": ["source/IOHaptics/src/IOStream.cpp:writeSpatialData", "source/IOHaptics/src/IOStream.cpp:readEffect"]}
{"id": "C62", "title": "Loading any binary file comes to an end", "statement": "IOBinary::loadFile returns for every sequence of bytes, however truncated or corrupt: the recursion for nested timelines is bounded by the size of the file.", "quantifier": "all byte sequences", "why_tests_cant": "Nesting depth and counts come from the file, and reading past its end is not detected.", "anchors": ["source/IOHaptics/src/IOBinary.cpp:loadFile", "source/IOHaptics/src/IOBinary.cpp:readLibraryEffect", "source/IOHaptics/src/IOBinaryBands.cpp:readTimelineEffect"]}
{"id": "C63", "title": "Vibrations follow their keyframes", "statement": "At every time of a vectorial effect, the signal played is the line through the amplitude keyframes times the base signal (sine, square, triangle, saw tooth) after as many cycles as the area under the line through the frequency keyframes: no jumps of phase at the keyframes.", "quantifier": "all effects with placed keyframes, all times, base signals, phases, timescales", "why_tests_cant": "Continuous time and arbitrarily many keyframes; the phase accumulates over all earlier keyframes.", "anchors": ["source/Types/src/Effect.cpp:EvaluateVectorial", "source/Types/src/Effect.cpp:computeBaseSignal", "source/Tools/src/Tools.cpp:chirpInterpolation"]}
{"id": "C64", "title": "Vibrations stay within the band", "statement": "A vectorial effect with a frequency outside the limits of its band is played at the nearest frequency the band allows.", "quantifier": "all effects, band limits, times and timescales", "why_tests_cant": "Continuous time, any frequencies and limits.", "anchors": ["source/Types/src/Effect.cpp:EvaluateVectorial"]}
{"id": "C65", "title": "Wavelet bands play their samples", "statement": "At every time, a wavelet band plays the sample whose turn it is of the last effect that has started, and is silent before the first effect and after the samples of the last; it never reads outside of the samples.", "quantifier": "all bands, sample sequences, times and timescales", "why_tests_cant": "Continuous time; the index depends on position, sampling rate and timescale.", "anchors": ["source/Types/src/Effect.cpp:EvaluateWavelet", "source/Types/src/Band.cpp:Evaluate"]}
{"id": "C66", "title": "Decoding a wavelet stream is safe for any bytes", "statement": "Spiht_Dec::decodeEffect returns for every byte string given as a wavelet bitstream: it writes only inside the block, does not throw and terminates, and the decoder is ready for the next block.", "quantifier": "all byte strings, all block lengths from 16 on, all previous uses", "why_tests_cant": "The streams that lead the tree search out of the block are a vanishing fraction of all byte strings.", "anchors": ["source/Spiht/src/Spiht_Dec.cpp:decodeEffect", "source/Spiht/src/ArithDec.cpp:decode"]}
{"id": "C67", "title": "A wavelet block is decoded as it was encoded", "statement": "Decoding the band WaveletEncoder::encodeSignal made of a signal gives, for every block, as many samples as the block had, at the time at which the block was, from coefficients as precise as the bit budget allows.", "quantifier": "all signals, sampling rates, block lengths, timescales and budgets", "why_tests_cant": "The block length is sent in ticks and recomputed in floating point; whether it comes out right depends on the sampling rate and the timescale.", "anchors": ["source/Encoder/src/WaveletEncoder.cpp:encodeSignal", "source/WaveletDecoder/src/WaveletDecoder.cpp:transformBand"]}
{"id": "C68", "title": "A wavelet block is played at its position", "statement": "WaveletDecoder::transformBand keeps every effect of a wavelet band at the position it has.", "quantifier": "all bands, effects and positions", "why_tests_cant": "Any number of effects and any gaps between them.", "anchors": ["source/WaveletDecoder/src/WaveletDecoder.cpp:transformBand"]}
{"id": "C69", "title": "Versions, dates and URIs of a .hjif file are well-formed", "statement": "IOJson::loadFile only accepts a file whose version is a year from 2023 on with an optional amendment number, whose date is an ISO 8601 date, and whose avatar meshes are URIs.", "quantifier": "all strings", "why_tests_cant": "Strings are unbounded, and the regular expressions are searched for anywhere in them.", "anchors": ["source/IOHaptics/src/IOJson.cpp:versionCheck", "source/IOHaptics/src/IOJson.cpp:dateCheck", "source/IOHaptics/src/IOJson.cpp:URICheck"]}
{"id": "C70", "title": "Experiences made by the encoder or allowed by the standard pass the conformance check", "statement": "A .hjif file written by the encoder, or using the semantic scheme defined by the standard, is accepted by IOJson::loadFile.", "quantifier": "all encoder settings and experiences", "why_tests_cant": "Depends on sampling rate, block length and timescale, and on every field that is checked.", "anchors": ["source/IOHaptics/src/IOJson.cpp:semanticConformanceCheckPerception", "source/IOHaptics/src/IOJson.cpp:semanticConformanceCheckBand"]}
{"id": "C71", "title": "A .hjif file gives the experience back", "statement": "Loading the .hjif file IOJson::writeFile made of an experience gives that experience, with all its avatars, perceptions, devices, library, channels, bands, effects, keyframes, timelines and syncs.", "quantifier": "all experiences whose values fit the C++ types", "why_tests_cant": "Unbounded lists at six levels, and thirty optional fields in every combination.", "anchors": ["source/IOHaptics/src/IOJson.cpp:writeFile", "source/IOHaptics/src/IOJson.cpp:loadFile"]}
{"id": "C72", "title": "IVS times and periods in ticks and Hz", "statement": "A time of an IVS file, in milliseconds, becomes the number of whole ticks passed at that time (at most one tick early when the time is exactly on a tick), later times never become earlier, and a period of p milliseconds becomes 1000/p Hz rounded down.", "quantifier": "every time below 2^31 ms, every timescale below 2^32 whose result fits an int, every period", "why_tests_cant": "The conversion goes through two roundings of binary floating point; the values for which it is off by one are irregular and depend on the timescale.", "anchors": ["source/Encoder/src/IvsEncoder.cpp: millisecondsToTimeScale, convertToEffect, getPeriod"]}
{"id": "C73", "title": "Attack and fade of IVS effects", "statement": "An imported IVS effect starts when it is launched; its keyframes go from 0 to the duration in the order of time; and its amplitude follows the attack from the attack level to the magnitude, stays, and follows the fade to the fade level.", "quantifier": "every basis effect and launch event, every combination of attack and fade, every timescale", "why_tests_cant": "The relation of attack, fade and duration has many cases, most of which no sample file has.", "anchors": ["source/Encoder/src/IvsEncoder.cpp: convertToEffect", "source/Types/src/Effect.cpp: addAmplitudeAt"]}
{"id": "C74", "title": "Imported effects and their bands", "statement": "Effects of an imported file all enter the channel, each once and unchanged, existing bands keep their effects, no two effects of one vectorial band overlap, and effects that do not overlap share one band.", "quantifier": "every list of effects in any order and every channel with bands that do not overlap", "why_tests_cant": "It is an invariant of the whole history of insertions, for any number and order of effects.", "anchors": ["source/Encoder/src/IvsEncoder.cpp: injectIntoBands", "source/Encoder/src/AhapEncoder.cpp: encode", "source/Types/src/Channel.cpp: findBandAvailable, generateBand", "source/Types/src/Band.cpp: addEffect"]}
{"id": "C75", "title": "Import of a whole IVS file", "statement": "Each timeline of an IVS file gets its own channel, in order; channels that are there are extended and the others stay; each launch event of a known basis effect gives an effect, and exactly the effects that remain after expanding repeat events are in the channel; channels have different identifiers.", "quantifier": "every IVS file, every perception, every order in which repeat events of equal start are sorted", "why_tests_cant": "Files can have any number of timelines, events and effects, and the perception may have channels before.", "anchors": ["source/Encoder/src/IvsEncoder.cpp: encode, getLaunchedEffect, injectIntoBands"]}
{"id": "C76", "title": "Every AHAP file is converted safely", "statement": "Converting an AHAP file whose values are in the ranges of the format gives a result: the encoder never reads outside of a parameter curve, wherever the curve lies relative to the events.", "quantifier": "every AHAP file with any number of events and curves, every timescale, every perception with at most one channel", "why_tests_cant": "Whether the code reads before the first or behind the last control point depends on the relative position of all curves and events.", "anchors": ["source/Encoder/src/AhapEncoder.cpp: modulateContinuousOnAmplitude, modulateContinuousOnFrequency, encode"]}
{"id": "C77", "title": "AHAP curves over continuous events", "statement": "The keyframes of a converted continuous event are at its start, its end and at each control point between, in the order of time; the amplitude there is intensity times value of the intensity curve, the frequency is given by the sum of sharpness and value of the sharpness curve.", "quantifier": "every intensity and sharpness curve in the order of time, every continuous event", "why_tests_cant": "Curves have any number of points, at, before, between and after the ends of the event, and both curves insert keyframes into the same list.", "anchors": ["source/Encoder/src/AhapEncoder.cpp: extractContinuous, modulateContinuousOnAmplitude, modulateContinuousOnFrequency", "source/Types/src/Effect.cpp: addAmplitudeAt, addFrequencyAt", "source/Tools/src/Tools.cpp: linearInterpolation, chirpInterpolation, genericNormalization"]}
{"id": "C78", "title": "Import of a whole AHAP file", "statement": "Each transient of an AHAP file is one keyframe of the one effect of a transient band, in the order of time, with amplitude and frequency of its intensity, sharpness and the curves; each continuous event is one effect of a vectorial band, none of which overlap; all bands the channel had stay.", "quantifier": "every AHAP file with any number of events and curves, every perception with at most one channel", "why_tests_cant": "Files can have any number of events in any order, and the perception may have bands before.", "anchors": ["source/Encoder/src/AhapEncoder.cpp: encode, extractTransients"]}
{"id": "C79", "title": "OHM metadata and experiences", "statement": "Metadata loaded from an OHM file becomes an experience with one perception for each element and one channel for each of its channels, and comes back unchanged (but for file names) when OHM metadata is made of that experience; of an experience, descriptions, gains and masks survive the way through OHM metadata.", "quantifier": "all OHM files, all metadata, all experiences", "why_tests_cant": "Versions, channel counts and masks go through narrower types; which values survive is a statement about all of them.", "anchors": ["source/Types/src/Haptics.cpp:loadMetadataFromOHM", "source/Types/src/Haptics.cpp:extractMetadataToOHM", "source/Types/src/Perception.cpp:convertToModality"]}
{"id": "C80", "title": "Encoding of a whole WAV file", "statement": "When encoding of a WAV file reports success, the perception has one channel for each channel of the file, channels it had before keep their data, and each has bands added that together represent its signal: a curve through the extrema of the low frequencies, wavelets of what the curve leaves, or one of the two as configured. Otherwise nothing is changed.", "quantifier": "all files, configurations, perceptions and time scales; any filter, evaluation and wavelet encoder", "why_tests_cant": "Configurations, numbers of channels and channels present before combine in many ways; what is left over for the wavelets must fit for every signal.", "anchors": ["source/Encoder/src/PcmEncoder.cpp:encode", "source/Encoder/src/PcmEncoder.cpp:convertToCurveBand"]}
{"id": "C81", "title": "The encoder as a program", "statement": "Running the encoder with a command line either writes one file - under the name asked for or the default one of its format, binary exactly when asked for - and reports success, or writes nothing and reports failure. The options for bit rate, budget, block length and cutoff are used as given, a higher bit rate never gives a smaller budget, and an OHM file gives one perception per element with the file of that element encoded into it.", "quantifier": "all command lines, files and outcomes of the importers", "why_tests_cant": "The number of combinations of options, kinds of files and failures is unbounded; exit codes and ignored options only show for combinations nobody tried.", "anchors": ["source/Encoder/src/main.cpp: main", "source/Encoder/include/PcmEncoder.h: EncodingConfig"]}
{"id": "C82", "title": "The synthesizer as a program", "statement": "Running the synthesizer writes one signal per channel of the experience, all of the same length, with samples within the gain of the channel, at the rate and under the name asked for; they last as long as the experience plus the padding before and after it.", "quantifier": "all command lines, experiences, rates, timescales and paddings", "why_tests_cant": "Durations depend on timescale, rate and padding together; tests use ticks of a millisecond, for which a confusion of units does not show.", "anchors": ["source/Synthesizer/src/main.cpp: main", "source/Synthesizer/src/Helper.cpp: getTimeLength, playFile"]}
{"id": "C83", "title": "The decoder as a program", "statement": "Running the decoder on the stream of an experience writes that experience under the name asked for and succeeds; on a file that is missing or is no stream it fails.", "quantifier": "all command lines and contents of files", "why_tests_cant": "Requires every possible content of a file.", "anchors": ["source/Decoder/src/main.cpp: main", "source/IOHaptics/src/IOStream.cpp: readFile"]}
{"id": "C84", "title": "The wavelet transform is invertible", "statement": "Wavelet::inv_DWT applied to what Wavelet::DWT made of a signal gives the signal back, up to a tiny fraction of its amplitude; and changing the coefficients by small amounts changes every sample by a small amount only, in proportion.", "quantifier": "all signals, lengths and numbers of levels", "why_tests_cant": "Perfect reconstruction is a statement about all real-valued signals including the symmetric extension at both ends and the rounding of every operation.", "anchors": ["source/FilterBank/src/Wavelet.cpp: DWT", "source/FilterBank/src/Wavelet.cpp: inv_DWT", "source/FilterBank/src/Wavelet.cpp: symconv1D"]}
{"id": "C85", "title": "The wavelet codec reproduces the signal", "statement": "Encoding a signal with WaveletEncoder::encodeSignal and decoding the band with WaveletDecoder::transformBand gives, for every block, samples that differ from those of the signal by at most what the bits given to each band allow.", "quantifier": "all signals, sampling rates, block lengths and budgets", "why_tests_cant": "The bound must hold for every signal; it combines transform, allocation of bits, quantisation, SPIHT and arithmetic coding.", "anchors": ["source/Encoder/src/WaveletEncoder.cpp: encodeSignal", "source/WaveletDecoder/src/WaveletDecoder.cpp: transformBand", "source/FilterBank/src/Wavelet.cpp: inv_DWT"]}
{"id": "C86", "title": "Peaks of a spectrum and their mask", "statement": "PsychohapticModel::findPeaks reports, in increasing order and with their heights, exactly the bins of the spectrum that are higher than what surrounds them, reach the height asked for and stand out by the prominence asked for; it ends and stays inside the spectrum for every spectrum. The mask peakMask makes of them is defined at every frequency and is the largest of the masks of the single peaks. The bands into which the model sums a block cover the block.", "quantifier": "all spectra, thresholds, sampling rates and block lengths", "why_tests_cant": "Requires every arrangement of peaks, valleys and plateaus; nearest higher peaks can be anywhere.", "anchors": ["source/PsychohapticModel/src/PsychohapticModel.cpp: findPeaks", "source/PsychohapticModel/src/PsychohapticModel.cpp: peakMask", "source/PsychohapticModel/src/PsychohapticModel.cpp: PsychohapticModel"]}
{"id": "C87", "title": "Akima, Bezier and B-spline curves", "statement": "For keyframes at increasing positions, rendering a curve effect of type Akima, Bezier or B-spline gives one finite value per sample up to the last keyframe, without undefined behaviour: an Akima curve passes through every keyframe, with cubics between whose slopes agree where they meet; a Bezier curve is the one whose control points are the keyframes; Bezier and B-spline curves begin and end at the first and last keyframe and never exceed the amplitudes of the keyframes.", "quantifier": "all lists of keyframes, amplitudes and sampling rates", "why_tests_cant": "Real-valued domain; needs every arrangement and number of keyframes.", "anchors": ["source/Tools/src/Tools.cpp: akimaInterpolation", "source/Tools/src/Tools.cpp: bezierInterpolation", "source/Tools/src/Tools.cpp: bsplineInterpolation", "source/Types/src/Band.cpp: EvaluationBand"]}
{"id": "C88", "title": "Wavelet samples are played at their place", "statement": "Rendering a wavelet band at its own sampling frequency, with the rounding of the arithmetic taken into account, gives the samples of its blocks one after the other: sample number n of the output is sample number n of the signal the blocks make up, no two blocks are mixed, no sample is dropped to silence, and nothing is read outside of a block.", "quantifier": "all block lengths, sampling frequencies, timescales and numbers of blocks that last whole ticks, all sample positions", "why_tests_cant": "Whether a rounded position lies above or below a whole number depends on every bit of it; a few rates and positions show nothing about the others.", "anchors": ["source/Types/src/Band.cpp: EvaluationBand", "source/Types/src/Effect.cpp: EvaluateWavelet", "source/Synthesizer/src/Helper.cpp: playFile"]}
{"id": "C89", "title": "A recording survives encoding and synthesis", "statement": "A recording that is encoded with wavelets, with or without a curve for its low frequencies, and synthesized at its own sampling frequency comes out as a signal whose every 16 bit sample differs from the sample of the recording at the same place by no more than the precision its block was encoded with, plus a step of 16 bits.", "quantifier": "all recordings, block lengths, sampling frequencies, budgets and curves", "why_tests_cant": "A statement about every sample of every signal through the whole chain of transform, quantization, entropy coding, decoding, rounding and mixing.", "anchors": ["source/Encoder/src/PcmEncoder.cpp: encode", "source/Encoder/src/WaveletEncoder.cpp: encodeSignal", "source/WaveletDecoder/src/WaveletDecoder.cpp: transformBand", "source/Types/src/Channel.cpp: EvaluateChannel", "source/Tools/src/WavParser.cpp: saveFile"]}
{"id": "C90", "title": "Loading a .hjif file is safe and complete", "statement": "Loading a .hjif file either gives the experience the file stands for, with every element of every list in it, or refuses the file; it never ends with an exception or undefined behaviour.", "quantifier": "all JSON trees", "why_tests_cant": "Requires every tree, with every member missing, of another kind or with another name, at every depth.", "anchors": ["source/IOHaptics/src/IOJson.cpp: loadFile", "source/IOHaptics/src/IOJson.cpp: loadEffects", "source/IOHaptics/src/IOJson.cpp: loadLibrary", "source/IOHaptics/src/IOJson.cpp: loadChannels", "source/IOHaptics/src/IOJsonPrimitives.cpp: hasNumber"]}
{"id": "C91", "title": "The filters do not shift a signal in time", "statement": "Filterbank::LP and Filterbank::HP give a signal of the same length that is a linear function of the input and neither delayed nor advanced: what is left at one place of an impulse at another one is the same with the two places exchanged, and no component comes out inverted.", "quantifier": "all signals, lengths and filters", "why_tests_cant": "The symmetry must hold for every pair of places and every signal, up to both ends.", "anchors": ["source/FilterBank/src/Filterbank.cpp: LP", "source/FilterBank/src/Filterbank.cpp: HP"]}
{"id": "C92", "title": "What the encoder writes can be loaded", "statement": "A .hjif file that the encoder makes of an AHAP, IVS or WAV file can be loaded by the decoder, the synthesizer and the encoder itself; and it is known of every input whether it can.", "quantifier": "all AHAP, IVS and WAV files, configurations and timescales", "why_tests_cant": "Whether a file passes depends on counts, identifiers and block lengths that come out of the conversion of the whole input; a few inputs show nothing about the others.", "anchors": ["source/Encoder/src/main.cpp: main", "source/IOHaptics/src/IOJson.cpp: semanticConformanceCheckExperience", "source/IOHaptics/src/IOJson.cpp: loadFile", "source/Encoder/src/WaveletEncoder.cpp: encodeSignal"]}
{"id": "C93", "title": "What the wavelet encoder is told about a block", "statement": "For every block PsychohapticModel::getSMR gives one energy and one ratio of signal to mask for each band: the energy of the signal in the band, and a ratio that is a number, taking into account how sensitive touch is at each frequency; and what it gives depends on the block only, not on the blocks before.", "quantifier": "all blocks, block lengths, sampling frequencies and histories of calls", "why_tests_cant": "The threshold of perception goes through a loop with an early end that only shows in values nobody looks at; a static variable makes results depend on the history of the process.", "anchors": ["source/PsychohapticModel/src/PsychohapticModel.cpp: getSMR", "source/PsychohapticModel/src/PsychohapticModel.cpp: perceptualThreshold", "source/PsychohapticModel/src/PsychohapticModel.cpp: globalMaskingThreshold", "source/Encoder/src/WaveletEncoder.cpp: encodeBlock"]}
{"id": "C94", "title": "An AHAP file as a stream", "statement": "An AHAP file that is encoded to a binary stream and read back gives an experience with all its events: each transient and each continuous event once, at its time, with the amplitudes and frequencies the encoder gives it (up to the rounding of the stream), and nothing else.", "quantifier": "all AHAP files with values in the ranges of the format, all timescales and packet durations", "why_tests_cant": "The encoder and the stream are tested apart: files whose events are late, out of order or below a negative curve are encoded without complaint, and it takes a decoder to see that they are lost or moved.", "anchors": ["source/Encoder/src/main.cpp: main", "source/Encoder/src/AhapEncoder.cpp: encode", "source/IOHaptics/src/IOStream.cpp: writeFile", "source/IOHaptics/src/IOStream.cpp: readFile"]}
{"id": "C95", "title": "An IVS file as a stream", "statement": "An IVS file that is encoded to a binary stream and read back gives an experience with all that its timelines play: each launched effect, with its repetitions, once, at its time, with the amplitudes and frequencies the encoder gives it (up to the rounding of the stream), in the channel of its timeline, and nothing else.", "quantifier": "all IVS files with levels in the range of the format, all timescales and packet durations", "why_tests_cant": "The encoder and the stream are tested apart: files with two timelines, with a periodic effect without period or with a long effect are encoded without complaint, and it takes a decoder to see what became of them.", "anchors": ["source/Encoder/src/main.cpp: main", "source/Encoder/src/IvsEncoder.cpp: encode", "source/IOHaptics/src/IOStream.cpp: writeFile", "source/IOHaptics/src/IOStream.cpp: readFile"]}
{"id": "C96", "title": "A WAV file as a stream", "statement": "A WAV file that is encoded to a binary stream and read back gives an experience with all its channels, each with the bands the encoder made of it: the curve with its keyframes at their times, the wavelet blocks with all their bytes, in their order and at their times, and nothing else.", "quantifier": "all recordings, configurations, block lengths, timescales and packet durations", "why_tests_cant": "Whether blocks arrive depends on block length, sampling frequency, timescale and packet duration together; encoder and stream are tested apart, each with its own choice of them.", "anchors": ["source/Encoder/src/main.cpp: main", "source/Encoder/src/PcmEncoder.cpp: encode", "source/Encoder/src/WaveletEncoder.cpp: encodeSignal", "source/IOHaptics/src/IOStream.cpp: writeFile", "source/IOHaptics/src/IOStream.cpp: readFile"]}
{"id": "C97", "title": "A file made into a stream and back can be loaded", "statement": "A .hjif file that loads, made into a binary stream by the encoder and back into a .hjif file by the decoder, gives a file that loads again, with what the stream transports and a file holds of the experience.", "quantifier": "all .hjif files that load, all packet durations", "why_tests_cant": "Stream and file formats have different rules on identifiers, defaults and texts; each is tested with its own samples, and the conformance check only sees the combination.", "anchors": ["source/Encoder/src/main.cpp: main", "source/Decoder/src/main.cpp: main", "source/IOHaptics/src/IOStream.cpp: readFile", "source/IOHaptics/src/IOJson.cpp: loadFile", "source/IOHaptics/src/IOJson.cpp: semanticConformanceCheckExperience"]}
{"id": "C98", "title": "Coding a second time changes nothing", "statement": "A value of an amplitude, phase or frequency field that was written and read once is not changed by writing and reading it again, however often.", "quantifier": "all values, any number of generations", "why_tests_cant": "A loss of one step per generation is within the tolerance of every single test; it takes all values, and repetition, to see it.", "anchors": ["source/IOHaptics/include/IOBinaryPrimitives.h: writeFloatNBits", "source/IOHaptics/include/IOBinaryPrimitives.h: readFloatNBits"]}
{"id": "C99", "title": "A CRC that does not match stops reception until the next sync point, and one that matches does not", "statement": "When the CRC packet of a unit disagrees with the units it protects, IOStream::readFile leaves out all data that depend on data before, until a sync point; when it agrees, reading goes on as if the CRC packet was not there. In either case what follows is placed at its own time.", "quantifier": "all streams, CRC packets of all four types, all values, any number of units after", "why_tests_cant": "A test reads one CRC packet at a time and does not look at the units that come after it; whether reception goes on is a matter of the state left behind.", "anchors": ["source/IOHaptics/src/IOStream.cpp:readFile", "source/IOHaptics/src/IOStream.cpp:checkCRC", "source/IOHaptics/src/IOStream.cpp:readCRC", "source/IOHaptics/src/IOStream.cpp:readData"]}
{"id": "C100", "title": "A transient is 22 ms of sound at every timescale", "statement": "A transient sounds for 22 ms from the time it is struck, as two periods of a sine with its amplitude, whatever the number of ticks per second of the experience and whatever other effects the band has before it; and these 22 ms are what is kept free for it when effects are placed.", "quantifier": "all transient bands, effects, times and timescales", "why_tests_cant": "Almost all test files have 1000 ticks per second, where 22 ms and 22 ticks are the same.", "anchors": ["source/Types/src/Band.cpp: Evaluate", "source/Types/src/Band.cpp: isOverlapping", "source/Types/src/Band.cpp: getTransientDuration", "source/Types/src/Effect.cpp: EvaluateTransient"]}
{"id": "C101", "title": "A synthesized sound file and its description", "statement": "With --generate_ohm the synthesizer writes, beside the sound file and under its name, an OHM file that names the sound file and lists the channels of each perception with their descriptions, gains and masks; and encoding that OHM file gives each perception its own channels back, each with its own signal, as strong as it was.", "quantifier": "all command lines, names of files, experiences and configurations of the encoder", "why_tests_cant": "Whether a channel gets its own signal and strength back shows only when several perceptions, gains other than one and the two programs are combined.", "anchors": ["source/Synthesizer/src/main.cpp: main", "source/Types/src/Haptics.cpp: extractMetadataToOHM", "source/Encoder/src/main.cpp: main", "source/Encoder/src/PcmEncoder.cpp: encode"]}
{"id": "C102", "title": "A stream sounds like the file it was made of", "statement": "Synthesizing a stream gives the same channels, with as many samples, as synthesizing the experience that was encoded; samples differ by no more than what the quantization of amplitudes, phases and gains allows.", "quantifier": "all experiences of keyframe bands with values in the ranges of the format, packet durations, sampling frequencies and paddings", "why_tests_cant": "The error of a sample depends on how quantized amplitudes, phases and gains interact with interpolation, mixing of bands and references to the library; sample tests can only compare chosen signals.", "anchors": ["source/IOHaptics/src/IOStream.cpp: writeFile, loadFile", "source/Synthesizer/src/Helper.cpp: playFile, getTimeLength", "source/Types/src/Channel.cpp: EvaluateChannel"]}
{"id": "C103", "title": "One can join a stream at a sync point", "statement": "A receiver that starts to read a stream anywhere gets the description of the whole experience at the next sync point and, of its effects, exactly what happens from that time on, at the right times; every sync point of the experience has an initialization unit.", "quantifier": "all experiences with any number of sync points, all packet durations, and all sync points to join at", "why_tests_cant": "A stream has unboundedly many joining points, and what is received from one depends on the packets, silences and sync points before and after it.", "anchors": ["source/IOHaptics/src/IOStream.cpp: writeUnits, writeMIHSUnit, getNextSync", "source/IOHaptics/src/IOStream.cpp: loadFile, readMIHSUnit, readMIHSUnitTemporal"]}
{"id": "C104", "title": "The sampling frequency does not change what is played", "statement": "Playing an experience at two sampling frequencies gives the same values at the times at which both have samples; one may choose a frequency for the device without changing the sound.", "quantifier": "all experiences, all pairs of sampling frequencies, paddings and times that are multiples of both periods", "why_tests_cant": "The frequency is a free parameter of the synthesizer; a test renders at a few frequencies, and the dependence of a sample on the grid shows only for some positions of keyframes.", "anchors": ["source/Types/src/Band.cpp: EvaluationBand", "source/Types/src/Channel.cpp: EvaluateChannel", "source/Synthesizer/src/Helper.cpp: playFile", "source/Tools/src/Tools.cpp: linearInterpolation2, cubicInterpolation2"]}
{"id": "C105", "title": "Padding is silence before and after the sound", "statement": "Asking the synthesizer for padding adds silence of that length before and after the sound and changes nothing of the sound itself.", "quantifier": "all experiences, sampling frequencies, time scales and paddings of whole samples", "why_tests_cant": "The position of every sample is computed from the padding, for each kind of band by other code; a test with one kind of effect, or a time scale of 1000, sees nothing.", "anchors": ["source/Types/src/Band.cpp: EvaluationBand", "source/Types/src/Channel.cpp: EvaluateChannel", "source/Synthesizer/src/Helper.cpp: playFile"]}
{"id": "C106", "title": "Lost units cost only what they carried", "statement": "A receiver that loses some units of a stream gets everything that the other units carry, at the right times.", "quantifier": "all experiences, packet durations and patterns of loss of the units of a stream", "why_tests_cant": "There are 2^n patterns of loss of the n units of a stream; what goes wrong after a loss is the time of everything that follows, which only shows with loss in the middle and several packets.", "anchors": ["source/IOHaptics/src/IOStream.cpp: readMIHSUnit", "source/IOHaptics/src/IOStream.cpp: readMIHSPacketHeader", "source/IOHaptics/src/IOStream.cpp: readData"]}
{"id": "C107", "title": "A channel plays the sum of its bands", "statement": "What a channel plays is the sum of what its bands play, clipped to the range from -1 to 1, and the order of the bands, and of the effects of a band, does not matter.", "quantifier": "all channels, all bands and effects, all sampling frequencies and paddings", "why_tests_cant": "Tests play one arrangement; the clipping of intermediate sums only shows where three bands of different sign overlap above full scale.", "anchors": ["source/Types/src/Channel.cpp: EvaluateChannel", "source/Types/src/Channel.cpp: Evaluate", "source/Types/src/Band.cpp: EvaluationBand"]}
{"id": "C108", "title": "Effects that are moved sound the same, later", "statement": "If all effects of an experience are moved by the same time, what is played is what was played before, delayed by that time.", "quantifier": "all experiences, all times, all sampling frequencies and paddings", "why_tests_cant": "Tests play effects at a few positions; that nothing but the delay depends on the position is a statement about pairs of experiences and all times.", "anchors": ["source/Types/src/Band.cpp: EvaluationBand", "source/Types/src/Effect.cpp: EvaluateVectorial", "source/Types/src/Effect.cpp: EvaluateTransient", "source/Types/src/Effect.cpp: EvaluateWavelet"]}
{"id": "C109", "title": "Values at a position and samples of a signal agree", "statement": "The value of a channel or band at a position is the sample of its signal at that time.", "quantifier": "all channels and bands, all sampling frequencies, all samples", "why_tests_cant": "The two evaluations are separate code paths; that they agree at every position for every content is not something a sample of positions can show.", "anchors": ["source/Types/src/Band.cpp: Evaluate", "source/Types/src/Band.cpp: EvaluationBand", "source/Types/src/Channel.cpp: Evaluate", "source/Types/src/Channel.cpp: EvaluateChannel"]}
{"id": "C110", "title": "Sharing effects does not change the sound", "statement": "Moving repeated effects to a library, and resolving references, does not change what is played.", "quantifier": "all experiences, all sampling frequencies, all paddings", "why_tests_cant": "The encoder offers both as options that change only the representation; that no content is rendered differently cannot be sampled.", "anchors": ["source/Types/src/Perception.cpp: refactorEffects", "source/Types/src/Perception.cpp: linearizeLibrary", "source/Types/src/Haptics.cpp: refactor", "source/Types/src/Haptics.cpp: linearize", "source/Synthesizer/src/Helper.cpp: playFile"]}
{"id": "C111", "title": "The signal of a wavelet band", "statement": "Decoding a whole wavelet band to a signal gives the signal it was made of, as precisely as its budget allows, without reading or writing out of bounds.", "quantifier": "all signals, block lengths, sampling frequencies, timescales and budgets", "why_tests_cant": "Where each block lands depends on frequency, timescale and block length together; the error is only visible for some of them.", "anchors": ["source/WaveletDecoder/src/WaveletDecoder.cpp: decodeBand", "source/Encoder/src/WaveletEncoder.cpp: encodeSignal"]}
{"id": "C112", "title": "The natural spline through the keyframes", "statement": "The library's natural cubic interpolation and its codec interpolation return, for keyframes in the order of time, the samples of the curve through the keyframes.", "quantifier": "all lists of keyframes and curve types", "why_tests_cant": "The coefficients may be right and the samples taken from them still wrong; a test of one curve cannot tell for all.", "anchors": ["source/Tools/src/Tools.cpp: cubicInterpolation, interpolationCodec"]}
{"id": "C113", "title": "A stream file that was cut off", "statement": "From a stream file that was cut off after any number of bytes one gets what the complete units before the cut carry, and nothing that was not sent; the program does not fail.", "quantifier": "all experiences, packet durations and numbers of bytes", "why_tests_cant": "A file can be cut at every byte, and what is read there depends on all that came before.", "anchors": ["source/IOHaptics/src/IOStream.cpp: IOStream::loadFile, readFile, readMIHSUnit"]}
{"id": "C114", "title": "The volume of a channel, and what is not heard", "statement": "The gain of a channel, in the units of its perception, is a factor of its signal and of nothing else; descriptions, identifiers, mixing coefficients, devices, avatars and sync points are not heard.", "quantifier": "all experiences, sampling frequencies and paddings", "why_tests_cant": "Any field could have an effect on any sample.", "anchors": ["source/Synthesizer/src/Helper.cpp: Helper::playFile, getTimeLength", "source/Types/src/Channel.cpp: EvaluateChannel"]}
{"id": "C115", "title": "A channel sounds the same alone", "statement": "The signal of a channel does not depend on the other channels of the experience, except that they can make it longer; nor do the samples depend on how many are asked for.", "quantifier": "all experiences, channels, sampling frequencies and paddings", "why_tests_cant": "Every channel may be disturbed by every other.", "anchors": ["source/Synthesizer/src/Helper.cpp: Helper::playFile, getTimeLength", "source/Types/src/Channel.cpp: EvaluateChannel", "source/Types/src/Band.cpp: EvaluationBand"]}
{"id": "C116", "title": "The duration of packets does not change what is received", "statement": "An experience streamed with packets of one duration and with packets of another gives the same experience at the receiver.", "quantifier": "all experiences and packet durations", "why_tests_cant": "Every duration cuts the effects at other places.", "anchors": ["source/IOHaptics/src/IOStream.cpp: writeFile, writeUnits, writeMIHSUnitTemporal, writeAllBands", "source/Encoder/src/main.cpp: main"]}
{"id": "C117", "title": "The order of perceptions and channels does not matter", "statement": "Two experiences with the same channels, each described in the same way by its perception, have the same signals, in whatever order and in however many perceptions the channels are.", "quantifier": "all pairs of experiences with the same channels, all sampling frequencies and paddings", "why_tests_cant": "There are factorially many orders.", "anchors": ["source/Synthesizer/src/Helper.cpp: Helper::playFile, getTimeLength", "source/Types/src/Haptics.cpp: linearize", "source/Types/src/Perception.cpp: linearizeLibrary"]}
{"id": "C118", "title": "Reading any file as a stream is safe", "statement": "Reading a file of any bytes as a stream ends with a result that says whether it could be read; it never reads outside the file and never ends the program.", "quantifier": "all files of any bytes", "why_tests_cant": "There are 256^n files of n bytes, and the length fields in them are what decides where the reader looks.", "anchors": ["source/IOHaptics/src/IOStream.cpp: readFile, loadFile, readMIHSUnit, readMIHSPacket", "source/IOHaptics/src/IOBinaryPrimitives.cpp: readNBytes"]}
{"id": "C119", "title": "An OHM file that was cut off", "statement": "An OHM metadata file of which the end is missing is refused, or only the elements that are complete in it are loaded, as they were written; nothing is invented.", "quantifier": "all metadata that can be written, all points at which the file may end", "why_tests_cant": "A file may end after any of its bytes.", "anchors": ["source/Tools/src/OHMData.cpp: OHMData::loadFile, OHMData::writeFile"]}
{"id": "C120", "title": "A description may be repeated at any time, and units may arrive again", "statement": "A receiver gets the same experience if the sender repeats the description between any two units of a stream, and if units arrive twice or in another order.", "quantifier": "all experiences that can be streamed, packet durations, places and numbers of repetitions", "why_tests_cant": "Which units arrive, how often and in which order depends on sender and network.", "anchors": ["source/IOHaptics/src/IOStream.cpp: readMIHSUnit, loadFile, writeMIHSUnitInitialization"]}
{"id": "C121", "title": "A wavelet block is coded alike wherever it is", "statement": "The encoder and the decoder of wavelet blocks are used for all blocks, bands and channels of an experience, one after the other. What a block is coded as, and what it sounds like, depends on that block only: channels and bands can be coded alone, recordings can be cut between blocks, and the samples of a block that is played do not depend on what is in the others.", "quantifier": "all recordings, cuts between blocks, experiences with any payloads, block lengths that are powers of two from 8 on, and states encoder and decoder are left in", "why_tests_cant": "What is left of a block in the statistics and tables of the coder depends on the whole history.", "anchors": ["source/Spiht/src/Spiht_Enc.cpp: encodeEffect, initMaxDescendants", "source/Spiht/src/Spiht_Dec.cpp: decodeEffect", "source/Encoder/src/WaveletEncoder.cpp: encodeSignal", "source/Encoder/src/PcmEncoder.cpp: encode", "source/Synthesizer/src/Helper.cpp: playFile"]}
