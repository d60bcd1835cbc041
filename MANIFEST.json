{
 "claims": [
  {
   "property": "C01",
   "status": "proved",
   "theorems": [
    "Haptics.c01_fields_roundtrip",
    "Haptics.c01_field_roundtrip",
    "Haptics.c01_packing",
    "Haptics.c01_packing_inverse",
    "Haptics.c01_vector_roundtrip"
   ],
   "note": "Every width, alignment and field sequence."
  },
  {
   "property": "C02",
   "status": "proved",
   "theorems": [
    "Haptics.c02_read_is_cursor",
    "Haptics.c02_history_is_cursor"
   ],
   "note": "Refinement of the stateful reader to a flat bit cursor, for arbitrary read histories."
  },
  {
   "property": "C03",
   "status": "proved",
   "theorems": [
    "Haptics.c03_readUInt",
    "Haptics.c03_readUInt32",
    "Haptics.c03_readInt",
    "Haptics.c03_short_is_ub"
   ],
   "note": "Reading past the end is undefined behaviour in the code and a distinct outcome in the model."
  },
  {
   "property": "C04",
   "status": "partial",
   "theorems": [
    "Haptics.c04_string_roundtrip_partial",
    "Haptics.c04_long_string_desynchronises",
    "Haptics.c04_negation"
   ],
   "note": "Round trip for texts of at most 255 bytes. The full property is false of the code: c04_negation gives a 256-byte text after which the next field is misread."
  },
  {
   "property": "C05",
   "status": "proved",
   "theorems": [
    "Haptics.c05_roundtrip",
    "Haptics.c05_monotone",
    "Haptics.c05_min_exact",
    "Haptics.c05_max_exact",
    "Haptics.c05_in_range",
    "Haptics.c05_error_bound",
    "Haptics.c05_ranges_exact",
    "Haptics.c05_amplitude"
   ],
   "note": "Arithmetic is modelled as binary32/binary64 with correct rounding (no FMA contraction, FLT_EVAL_METHOD 0, finite values). The error bound is one step plus the stated rounding allowance."
  },
  {
   "property": "C06",
   "status": "partial",
   "theorems": [
    "Haptics.Binary.c06_header_partial",
    "Haptics.Binary.c06_device_negation",
    "Haptics.Binary.c06_channel_id_negation"
   ],
   "note": "Header round trip proved for channels with a reference device, channel ids in [-32768,32767] and libraries without timelines. Without device the channel comes back with device 255 (c06_device_negation); ids of 32768 and more come back negative (c06_channel_id_negation)."
  },
  {
   "property": "C07",
   "status": "partial",
   "theorems": [
    "Haptics.Binary.c07_body",
    "Haptics.Binary.c07_wavelet_partial",
    "Haptics.Binary.c07_wavelet_negation",
    "Haptics.Binary.c07_header"
   ],
   "note": "Proved for transient, curve and vectorial bands (c07_body; composites without timeline, because writing timelines diverges, see C09). Wavelet bands only with positions equal to index*blockLength*timescale/upperFrequency; false for the encoder's positions (c07_wavelet_negation)."
  },
  {
   "property": "C08",
   "status": "partial",
   "theorems": [
    "Haptics.Binary.c08_file_partial",
    "Haptics.Binary.c08_timescale_negation"
   ],
   "note": "Whole file round trip proved for experiences that fit (no timelines, wavelet bands with blocks of a power of two of samples at the reader's positions) and a reader without perceptions. The timescale is not stored (c08_timescale_negation)."
  },
  {
   "property": "C09",
   "status": "partial",
   "theorems": [
    "Haptics.Binary.c09_negation",
    "Haptics.Binary.c09_terminates_partial",
    "Haptics.Binary.c09_library_negation",
    "Haptics.Binary.c09_file_negation",
    "Haptics.Binary.c09_file_terminates_partial",
    "Haptics.Binary.c09_reader"
   ],
   "note": "Writing ends if no library effect and no composite effect has a timeline (c09_file_terminates_partial). With a timeline it recurses for ever (c09_negation, c09_library_negation, c09_file_negation)."
  },
  {
   "property": "C10",
   "status": "partial",
   "theorems": [
    "Haptics.Binary.c10_block_length_partial",
    "Haptics.Binary.c10_below_49",
    "Haptics.Binary.c10_negation"
   ],
   "note": "c10_block_length_partial: blocks of 2^k samples lasting a whole number of ticks survive the header if u*(1/u)=1 in double precision, which holds for all u<49 (c10_below_49). c10_negation: at 49 Hz every block is read back halved."
  },
  {
   "property": "C11",
   "status": "proved",
   "theorems": [
    "Haptics.c11_crc_is_remainder",
    "Haptics.c11_crc16_generator"
   ],
   "note": "Refinement to the polynomial remainder over GF(2), any message length and degree."
  },
  {
   "property": "C12",
   "status": "partial",
   "theorems": [
    "Haptics.c12_unaltered_passes",
    "Haptics.c12_burst_detected",
    "Haptics.c12_crc16",
    "Haptics.c12_crc32",
    "Haptics.c12_single_bit_is_burst",
    "Haptics.c12_message_burst_changes_crc",
    "Haptics.c12_global_crc_roundtrip",
    "Haptics.c12_check_rejects_intact_packets",
    "Haptics.c12_single_packet_crc_unwritable",
    "Haptics.c12_empty_crc_ub",
    "Haptics.c12_zero_crc_rejected",
    "Haptics.c12_check_single_partial"
   ],
   "note": "Detection is proved for every burst up to the CRC width. 'An unaltered block always passes' holds for the CRC itself but not for checkCRC/writeCRC: counterexamples c12_check_rejects_intact_packets, c12_single_packet_crc_unwritable, c12_zero_crc_rejected."
  },
  {
   "property": "C13",
   "status": "partial",
   "theorems": [
    "Haptics.c13_header",
    "Haptics.c13_data_header",
    "Haptics.c13_readPacketLength_doubles",
    "Haptics.c13_negation"
   ],
   "note": "The header is read back for every packet by readMIHSPacket (c13_header, c13_data_header). readPacketLength, the other length decoder, is off by one bit: c13_readPacketLength_doubles, c13_negation."
  },
  {
   "property": "C14",
   "status": "partial",
   "theorems": [
    "Haptics.c14_split",
    "Haptics.c14_initialization_is_unit",
    "Haptics.c14_temporal_is_unit",
    "Haptics.c14_silentFirst_is_unit",
    "Haptics.c14_silentBetween_is_unit",
    "Haptics.c14_spatial_negation"
   ],
   "note": "Any sequence of well-formed units splits back exactly; Initialization, Temporal and Silent units are well formed. Spatial units are not (c14_spatial_negation)."
  },
  {
   "property": "C15",
   "status": "partial",
   "theorems": [
    "Haptics.c15_unit_partial",
    "Haptics.c15_short_last_packet_skipped",
    "Haptics.c15_negation",
    "Haptics.c15_terminates"
   ],
   "note": "Exact characterisation of what is read; complete when the last packet has more than 6 bytes of payload. False in general: c15_negation."
  },
  {
   "property": "C16",
   "status": "proved",
   "theorems": [
    "Haptics.c16_timing",
    "Haptics.c16_initTiming",
    "Haptics.c16_timing_received"
   ],
   "note": "All 32-bit times; initialization timing for every value of its fields."
  },
  {
   "property": "C17",
   "status": "partial",
   "theorems": [
    "Haptics.c17_avatar",
    "Haptics.c17_experience",
    "Haptics.c17_referenceDevice",
    "Haptics.c17_perception",
    "Haptics.c17_channel",
    "Haptics.c17_band",
    "Haptics.c17_libraryEffect",
    "Haptics.c17_library",
    "Haptics.c17_no_avatar_becomes_255",
    "Haptics.c17_blockLength_wraps",
    "Haptics.c17_meshless_avatar_throws",
    "Haptics.c17_long_description_corrupts"
   ],
   "note": "Proved for every object whose values and counts fit the packet fields (SpecMeta: Fits), library effects nested to any depth. Without the size conditions the property is false of the code: c17_no_avatar_becomes_255, c17_blockLength_wraps, c17_meshless_avatar_throws, c17_long_description_corrupts."
  },
  {
   "property": "C18",
   "status": "proved",
   "theorems": [
    "Haptics.c18_sort",
    "Haptics.c18_timestamps",
    "Haptics.c18_throws"
   ],
   "note": "Stable sort by timestamp for every packet sequence; timestamps from 2^31 on make it throw (c18_throws)."
  },
  {
   "property": "C19",
   "status": "partial",
   "theorems": [
    "Haptics.c19_reassemble",
    "Haptics.c19_packets_partial",
    "Haptics.c19_overlap_negation",
    "Haptics.c19_reference_negation",
    "Haptics.c19_zero_negation",
    "Haptics.c19_transmit_partial"
   ],
   "note": "Proved for bands whose effects follow one another in time (keyframes in order, no overlap), ids distinct, values that fit the fields. False in general: overlapping effects lose keyframes (c19_overlap_negation), a last reference exactly at the end of a window is dropped (c19_reference_negation), duration 0 never ends (c19_zero_negation)."
  },
  {
   "property": "C20",
   "status": "partial",
   "theorems": [
    "Haptics.c20_next",
    "Haptics.c20_band",
    "Haptics.c20_ids_in_use",
    "Haptics.c20_experience_partial",
    "Haptics.c20_negation"
   ],
   "note": "Identifiers given are new and distinct within every band (c20_next, c20_band); the parts of composite effects are not taken into account, so the full property is false: c20_negation."
  },
  {
   "property": "C21",
   "status": "proved",
   "theorems": [
    "Haptics.Spiht.c21_lossless",
    "Haptics.Spiht.c21_zeros",
    "Haptics.Spiht.c21_init",
    "Haptics.Spiht.c21_decode",
    "Haptics.Spiht.c21_next",
    "Haptics.Spiht.c21_probability",
    "Haptics.Spiht.c21_product",
    "Haptics.Spiht.c21_rescaled"
   ],
   "note": "For all symbol and context sequences and all valid statistics (the encoder's are always valid: c21_next); c21_zeros: the encoder throws exactly when all symbols are zeros; c21_init, c21_decode: the decoder returns symbols for any input at all. Exact division gives the same probabilities as binary64 (c21_probability, c21_product)."
  },
  {
   "property": "C22",
   "status": "proved",
   "theorems": [
    "Haptics.Spiht.c22_empty",
    "Haptics.Spiht.c22_block",
    "Haptics.Spiht.c22_lossless",
    "Haptics.Spiht.c22_blocks",
    "Haptics.Spiht.c22_short_unsafe",
    "Haptics.Spiht.c22_fits_negation"
   ],
   "note": "c22_lossless: any block of 2^k >= 8 coefficients whose magnitudes fit the bit planes, any state of the encoder's vectors; c22_blocks: a whole band with one encoder and one decoder; c22_empty: blocks that are not written. c22_fits_negation and c22_short_unsafe: the conditions on magnitude and length are needed."
  },
  {
   "property": "C23",
   "status": "proved",
   "theorems": [
    "Haptics.Spiht.c23_returns"
   ],
   "note": "c23_returns, for all coefficients and 0..15 bit planes; blocks of four coefficients are undefined behaviour (c22_short_unsafe)."
  },
  {
   "property": "C24",
   "status": "proved",
   "theorems": [
    "Haptics.Spiht.c24_header",
    "Haptics.Spiht.c24_rounded"
   ],
   "note": "c24_header for representable maxima, c24_rounded for the others below 17. Maxima are rationals; the double operations are exact."
  },
  {
   "property": "C25",
   "status": "proved",
   "theorems": [
    "Haptics.Json.c25_roundtrip",
    "Haptics.Json.c25_alphabet",
    "Haptics.Json.c25_encoder",
    "Haptics.Json.c25_zeros_negation",
    "Haptics.Json.c25_read_negation"
   ],
   "note": "For every payload that is empty or has a nonzero byte (the quantifier of the property); payloads of the wavelet encoder are read back exactly. All-zero payloads throw on writing and texts of 'A' throw on reading (negations)."
  },
  {
   "property": "C26",
   "status": "proved",
   "theorems": [
    "Haptics.c26_addEffect"
   ],
   "note": "Any sequence of additions; ties keep arrival order."
  },
  {
   "property": "C27",
   "status": "proved",
   "theorems": [
    "Haptics.c27_addAmplitudeAt",
    "Haptics.c27_addFrequencyAt"
   ],
   "note": "Any effect whose keyframes are ordered, any position and value."
  },
  {
   "property": "C28",
   "status": "proved",
   "theorems": [
    "Haptics.c28_replaceAt",
    "Haptics.c28_removeAt",
    "Haptics.c28_operations"
   ],
   "note": "All index operations on effects, bands, channels, perceptions and keyframes."
  },
  {
   "property": "C29",
   "status": "partial",
   "theorems": [
    "Haptics.c29_replaceMetadata_partial",
    "Haptics.c29_negation",
    "Haptics.c29_avatar"
   ],
   "note": "The full property is false of the code: replacing a perception stores its id as avatar id (c29_negation, c29_avatar). Proved for every other field."
  },
  {
   "property": "C30",
   "status": "partial",
   "theorems": [
    "Haptics.c30_timescale_negation",
    "Haptics.c30_found",
    "Haptics.c30_none",
    "Haptics.c30_safe",
    "Haptics.c30_unsafe"
   ],
   "note": "Proved for bands whose keyframes have positions, with 22 ticks for a transient; c30_unsafe shows the undefined behaviour when no keyframe of the effect has a position, c30_timescale_negation that 22 ticks are not the duration of a transient at other timescales than 1000."
  },
  {
   "property": "C31",
   "status": "partial",
   "theorems": [
    "Haptics.c31_linearize",
    "Haptics.c31_no_reference_partial",
    "Haptics.c31_chain_negation",
    "Haptics.c31_composite_negation",
    "Haptics.c31_refactor_linearize_partial",
    "Haptics.c31_collision_negation",
    "Haptics.c31_wavelet_negation"
   ],
   "note": "Proved for numbered libraries without chains of references, composites or wavelets that capture each other; each excluded case has a negation theorem with a witness."
  },
  {
   "property": "C32",
   "status": "partial",
   "theorems": [
    "Haptics.c32_evaluate_partial",
    "Haptics.c32_evaluate",
    "Haptics.c32_negation",
    "Haptics.c32_evaluateChannel_partial",
    "Haptics.c32_evaluateChannel",
    "Haptics.c32_empty_band_negation",
    "Haptics.Rounded.c32_double",
    "Haptics.Rounded.c32_channel_double"
   ],
   "note": "The full property is false of the code: a keyframe with an amplitude but no position is rendered as NaN (c32_negation), and a band without effects is undefined behaviour in EvaluateChannel. Proved: every playable channel is rendered as numbers of [-1,1], without undefined behaviour, in exact arithmetic and with any rounding to 53 bits (c32_double, c32_channel_double; exponents of any size); EvaluateChannel for channels without curve bands or empty bands."
  },
  {
   "property": "C33",
   "status": "partial",
   "theorems": [
    "Haptics.c33_partial",
    "Haptics.c33_silent",
    "Haptics.c33_negation",
    "Haptics.Rounded.c33_double_partial"
   ],
   "note": "The full property is false of the code: c33_negation gives a keyframe without amplitude for which evaluation never ends. Proved for effects whose placed keyframes have amplitudes, in exact arithmetic and (c33_double_partial) with any rounding."
  },
  {
   "property": "C34",
   "status": "partial",
   "theorems": [
    "Haptics.Json.c34_iff",
    "Haptics.Json.c34_resolves",
    "Haptics.Json.c34_nested_negation",
    "Haptics.Json.c34_library_negation"
   ],
   "note": "The check accepts exactly the experiences that meet the rules of SpecConformance, which include unique identifiers, existing devices and avatars, ordered limits and references of bands that resolve (c34_iff, c34_resolves). References inside composite effects and inside the library are not checked (c34_nested_negation, c34_library_negation)."
  },
  {
   "property": "C35",
   "status": "partial",
   "theorems": [
    "Haptics.c35_channels_partial",
    "Haptics.c35_negation"
   ],
   "note": "Proved for channel ids unique over the whole experience, any order of channel packets; false when they are unique only within each perception (c35_negation), which is what the conformance check accepts."
  },
  {
   "property": "C36",
   "status": "partial",
   "theorems": [
    "Haptics.c36_packets_partial",
    "Haptics.c36_known",
    "Haptics.c36_unit_partial",
    "Haptics.c36_avatars_negation",
    "Haptics.c36_avatarId_negation",
    "Haptics.c36_scheme_negation",
    "Haptics.c36_library_negation"
   ],
   "note": "Proved for experiences without avatars whose perceptions have avatarId = id and a semantic scheme; each of these conditions is necessary (c36_*_negation, end to end through writer and reader). A library packet received twice on its own doubles the library (c36_library_negation)."
  },
  {
   "property": "C37",
   "status": "partial",
   "theorems": [
    "Haptics.c37_only_empty",
    "Haptics.c37_all_empty_partial",
    "Haptics.c37_negation",
    "Haptics.c37_seven_passes"
   ],
   "note": "Only empty effects, bands, channels and perceptions are removed (c37_only_empty, proved in full). All of them are removed when no two neighbours are empty (c37_all_empty_partial); false in general: an empty element after a removed one is skipped (c37_negation), even after seven passes (c37_seven_passes)."
  },
  {
   "property": "C38",
   "status": "partial",
   "theorems": [
    "Haptics.Ohm.c38_file",
    "Haptics.Ohm.c38_mask_bits",
    "Haptics.Ohm.c38_round_trip",
    "Haptics.Ohm.c38_mask_negation",
    "Haptics.Ohm.c38_accepted",
    "Haptics.Ohm.c38_reload_negation",
    "Haptics.Ohm.c38_count_negation",
    "Haptics.Ohm.c38_default_unsafe"
   ],
   "note": "True for everything but masks: written and loaded metadata is equal when texts fit their fields and masks are plain (c38_round_trip); exactly which bits of a mask survive is c38_mask_bits, and c38_mask_negation shows that the property is false for others (signed char). Loading into an object that is not empty appends (c38_reload_negation); counts of 32768 and more make no elements (c38_count_negation); writing a default-constructed object reads behind the end of a string (c38_default_unsafe)."
  },
  {
   "property": "C39",
   "status": "partial",
   "theorems": [
    "Haptics.Wav.c39_layout",
    "Haptics.Wav.c39_mono",
    "Haptics.Wav.c39_load",
    "Haptics.Wav.c39_round_trip",
    "Haptics.Wav.c39_exact",
    "Haptics.Wav.c39_error",
    "Haptics.Wav.c39_refused",
    "Haptics.Wav.c39_undefined"
   ],
   "note": "Proved for all tables of samples under the reading of the conversion that x86 compilers use (negative numbers modulo 2^16): layout, clipping, nearest 16 bit value, round trip, error bound, refusal of uneven channels. The language leaves the conversion of negative numbers undefined; c39_undefined shows that this happens exactly for signals with a sample rounded to -32768..-1. dr_wav itself is taken to store and return header and samples."
  },
  {
   "property": "C40",
   "status": "partial",
   "theorems": [
    "Haptics.Ivs.c40_separate_partial",
    "Haptics.Ivs.c40_within_partial",
    "Haptics.Ivs.c40_nested_negation",
    "Haptics.Ivs.c40_order_negation",
    "Haptics.Ivs.c40_depth_negation"
   ],
   "note": "Proved for repeat events that do not overlap and are launched in order (c40_separate_partial) and for one event around all the others (c40_within_partial). False of the code in general, with concrete witnesses: nested events lose effects (c40_nested_negation), launches out of order (c40_order_negation), three levels (c40_depth_negation)."
  },
  {
   "property": "C41",
   "status": "partial",
   "theorems": [
    "Haptics.Pcm.c41_points",
    "Haptics.Pcm.c41_exactly",
    "Haptics.Pcm.c41_one_way",
    "Haptics.Pcm.c41_wav",
    "Haptics.Pcm.c41_negation",
    "Haptics.Pcm.c41_keyframes",
    "Haptics.Pcm.c41_ticks",
    "Haptics.Pcm.c41_first_negation"
   ],
   "note": "Proved for signals of at least two samples (indices, values, borders), exactly which samples become points and that the signal goes one way between them when neighbouring samples differ by 0 or at least 2^-45 (all 16 bit signals), and the keyframes of the band. c41_negation: a single sample gives two points at the same index, smaller peaks are missed."
  },
  {
   "property": "C42",
   "status": "proved",
   "theorems": [
    "Haptics.Wavelet.c42_blocks",
    "Haptics.Wavelet.c42_positions"
   ],
   "note": "For every block length above 0 and every signal."
  },
  {
   "property": "C43",
   "status": "partial",
   "theorems": [
    "Haptics.Wavelet.c43_quantise",
    "Haptics.Wavelet.c43_maximum",
    "Haptics.Wavelet.c43_maximum_binary64",
    "Haptics.Wavelet.c43_half_negation",
    "Haptics.Wavelet.c43_maximum_negation",
    "Haptics.Wavelet.c43_block",
    "Haptics.Wavelet.c43_negation",
    "Haptics.Wavelet.c43_silent_unsafe"
   ],
   "note": "In binary64; the transform, the psychohaptic model and the logarithm are arbitrary functions, and pow(x,2) is the rounded square. Precision and distribution of the budget are proved when the budget is at most 15 or at most 15 bits for each band that is not reproduced exactly, or the block is silent and the budget at most 30 (c43_block); what a coefficient exceeds the maximum of the header is added to its error. Otherwise the property is false: bits exceed 15 (c43_negation), a silent block shifts by 31 (c43_silent_unsafe), maxima between 127/128 and 1 are cut (c43_maximum_negation), and half a step is exceeded by a rounding error (c43_half_negation)."
  },
  {
   "property": "C44",
   "status": "partial",
   "theorems": [
    "Haptics.Args.c44_option",
    "Haptics.Args.c44_exists",
    "Haptics.Args.c44_extension",
    "Haptics.Args.c44_plain",
    "Haptics.Args.c44_negation"
   ],
   "note": "Value, existence and extension for all command lines and names; plain command lines do not depend on order. c44_negation: a missing value is taken from the next option, values may be taken for options, a dot in a folder's name makes an extension."
  },
  {
   "property": "C45",
   "status": "proved",
   "theorems": [
    "Haptics.c45_between",
    "Haptics.c45_ends",
    "Haptics.c45_monotone",
    "Haptics.c45_number_iff",
    "Haptics.Rounded.c45_double",
    "Haptics.Rounded.c45_between_double",
    "Haptics.Rounded.c45_ends_double"
   ],
   "note": "In real arithmetic, and with any rounding to 53 bits: c45_double (one part in 2^48), c45_ends_double (ends hit exactly in binary64 for float amplitudes). The single exception, two simultaneous key points evaluated at their time, is characterised by c45_number_iff."
  },
  {
   "property": "C46",
   "status": "proved",
   "theorems": [
    "Haptics.c46_silent_sync"
   ],
   "note": "All unit sequences."
  },
  {
   "property": "C47",
   "status": "partial",
   "theorems": [
    "Haptics.c47_reencode_drifts",
    "Haptics.c47_generation_loss",
    "Haptics.c47_one_generation_partial",
    "Haptics.c47_ends_stable"
   ],
   "note": "The full property is false of the code: c47_reencode_drifts and c47_generation_loss give amplitudes that lose one code per generation. Proved: the ends are stable and one generation moves by at most one step plus rounding."
  },
  {
   "property": "C48",
   "status": "partial",
   "theorems": [
    "Haptics.c48_always_true",
    "Haptics.c48_negation"
   ],
   "note": "The property is false of the code: readFile returns true whenever it returns (c48_always_true), including for rejected packets (c48_negation)."
  },
  {
   "property": "C49",
   "status": "partial",
   "theorems": [
    "Haptics.c49_clock_partial",
    "Haptics.c49_negation",
    "Haptics.c49_silence_negation",
    "Haptics.c49_timing_negation"
   ],
   "note": "Proved for packets whose times are non-decreasing multiples of the packet duration and whose units fit the size fields; the initialization units are those of a prefix of the sync points, and of all of them if they are in order, after the first packet and at times of packets. False in general: a wavelet block length that does not divide the packet duration makes the receiver's clock drift (c49_negation); a silence of 2^24 ticks or more is announced wrongly (c49_silence_negation)."
  },
  {
   "property": "C50",
   "status": "proved",
   "theorems": [
    "Haptics.c50_between",
    "Haptics.c50_bounded",
    "Haptics.Rounded.c50_double"
   ],
   "note": "In real arithmetic, and with any rounding to 53 bits: c50_double bounds the distance from the curve in real arithmetic."
  },
  {
   "property": "C51",
   "status": "proved",
   "theorems": [
    "Haptics.c51_range",
    "Haptics.c51_periodic",
    "Haptics.c51_vectorial",
    "Haptics.Rounded.c51_double"
   ],
   "note": "In real arithmetic; with any rounding to 53 bits the range is kept but for one part in 2^48 per period (c51_double). Vectorial bound for effects whose amplitude keyframes have positions."
  },
  {
   "property": "C52",
   "status": "partial",
   "theorems": [
    "Haptics.c52_partial",
    "Haptics.c52_shape",
    "Haptics.c52_negation",
    "Haptics.c52_out_of_bounds",
    "Haptics.Rounded.c52_double"
   ],
   "note": "The full property is false of the code when the last two of three or more keyframes are at neighbouring samples (c52_negation, c52_out_of_bounds). Proved otherwise, also with any rounding to 53 bits (c52_double)."
  },
  {
   "property": "C53",
   "status": "partial",
   "theorems": [
    "Haptics.c53_partial",
    "Haptics.c53_two_keyframes_negation",
    "Haptics.c53_position_negation",
    "Haptics.c53_single_keyframe_negation"
   ],
   "note": "The full property is false of the code: two-keyframe effects are dropped, positions are scaled wrongly, single keyframes read out of bounds (three negations). Proved for effects at the origin with three or more keyframes."
  },
  {
   "property": "C54",
   "status": "partial",
   "theorems": [
    "Haptics.c54_partial",
    "Haptics.c54_negation"
   ],
   "note": "The full property is false of the code: only the last effect of a band is considered (c54_negation). Proved for the last effects."
  },
  {
   "property": "C55",
   "status": "proved",
   "theorems": [
    "Haptics.c55_reading_ends"
   ],
   "note": "Every file, of any length and content: the reader comes to an end (with a result, an exception or undefined behaviour, never by looping)."
  },
  {
   "property": "C56",
   "status": "proved",
   "theorems": [
    "Haptics.c56_effect",
    "Haptics.c56_packet"
   ],
   "note": "All keyframe band types; effects whose values fit the fields (SpecData)."
  },
  {
   "property": "C57",
   "status": "partial",
   "theorems": [
    "Haptics.c57_composite_partial",
    "Haptics.c57_sync_partial",
    "Haptics.c57_streamed_partial"
   ],
   "note": "Proved for every experience whose bands hold sequential basis/reference effects (transient, curve, vectorial) or wavelet blocks of one packet each at a sample rate equal to the timescale, within field widths, with stream timing below 2^24 and of moderate size (Experience.Modest, in numbers of vertices, library effects, keyframes and bytes of wavelet blocks; Stream/Sizes shows that no packet is then too long): the whole file is received as specified. c57_sync_partial: also with sync points, if the experience can be sent again (C36). Not covered: other wavelet bands (C58), other composites (C59), spatial perceptions (C60), and experiences where channel ids repeat across perceptions (C35). c57_composite_partial: the same with composite effects that start together with what contains them (others: c59_negation), of which the parts are received."
  },
  {
   "property": "C58",
   "status": "partial",
   "theorems": [
    "Haptics.c58_sent",
    "Haptics.c58_negation",
    "Haptics.c58_diverge_negation",
    "Haptics.c58_zero_unsafe",
    "Haptics.c58_received",
    "Haptics.c58_partial",
    "Haptics.c58_position_negation"
   ],
   "note": "c58_sent: which blocks are sent, for all block lengths and packet durations; c58_received: what exactly a receiver has of them, also when it was told another block length; c58_partial: everything arrives when one block fits a packet and the upper limit equals the timescale. Not true in general: c58_negation (blocks lost), c58_diverge_negation (endless loop), c58_zero_unsafe (division by zero), c58_position_negation (wrong unit)."
  },
  {
   "property": "C59",
   "status": "partial",
   "theorems": [
    "Haptics.c59_parts",
    "Haptics.c59_partial",
    "Haptics.c59_negation"
   ],
   "note": "c59_parts: no part is lost or repeated, at any nesting; c59_partial: parts at their times when composite effects start at 0. Not true otherwise: c59_negation."
  },
  {
   "property": "C61",
   "status": "partial",
   "theorems": [
    "Haptics.c61_channel_partial",
    "Haptics.c61_channel_negation",
    "Haptics.c61_band_partial",
    "Haptics.c61_band_negation"
   ],
   "note": "Channel priority and reference device, and the band's curve type, are not replaced: c61_channel_negation, c61_band_negation."
  },
  {
   "property": "C60",
   "status": "partial",
   "theorems": [
    "Haptics.c60_repeated_negation",
    "Haptics.c60_packet_partial",
    "Haptics.c60_negation"
   ],
   "note": "The property is false of the code: c60_negation (the reader throws on what the writer sends) and c60_repeated_negation (packets sent several times). Proved: c60_packet_partial - a packet of a spatial band carries its address and all its effects, in the layout of the binary file."
  },
  {
   "property": "C62",
   "status": "proved",
   "theorems": [
    "Haptics.Binary.c62_load_ends"
   ],
   "note": "Recursion depth is the only source of divergence in the model; loops run over counts of at most 16 bits."
  },
  {
   "property": "C63",
   "status": "partial",
   "theorems": [
    "Haptics.c63_amplitude",
    "Haptics.c63_waveform",
    "Haptics.c63_partial",
    "Haptics.c63_timescale_negation",
    "Haptics.c63_tail_negation"
   ],
   "note": "Proved for a timescale of 1000 and times up to the last frequency keyframe, frequencies positive and within the band. For other timescales the accumulated phase is wrong (c63_timescale_negation); after the last frequency keyframe it is counted twice (c63_tail_negation)."
  },
  {
   "property": "C64",
   "status": "partial",
   "theorems": [
    "Haptics.c64_partial",
    "Haptics.c64_negation"
   ],
   "note": "Proved for a tone with its frequency at both ends; a frequency given once is not limited (c64_negation)."
  },
  {
   "property": "C65",
   "status": "proved",
   "theorems": [
    "Haptics.c65_unsafe"
   ],
   "note": "The decoded samples are a parameter; a negative upper frequency limit leads outside of the samples (c65_unsafe)."
  },
  {
   "property": "C66",
   "status": "proved",
   "theorems": [
    "Haptics.Spiht.c66_any_stream",
    "Haptics.Spiht.c66_unsafe",
    "Haptics.Spiht.c66_zero_unsafe"
   ],
   "note": "c66_any_stream for block lengths from 16 on; c66_unsafe, c66_zero_unsafe: lengths 8, 15 and 0 are not safe."
  },
  {
   "property": "C67",
   "status": "partial",
   "theorems": [
    "Haptics.Wavelet.c67_length",
    "Haptics.Wavelet.c67_position",
    "Haptics.Wavelet.c67_length_negation",
    "Haptics.Wavelet.c67_timescale_negation",
    "Haptics.Wavelet.c67_signal"
   ],
   "note": "Proved for timescale 1000 when a block lasts a whole number of ticks (c67_signal), given C43's condition on the budget. False otherwise: 44.1 kHz (c67_length_negation) and other timescales (c67_timescale_negation)."
  },
  {
   "property": "C68",
   "status": "partial",
   "theorems": [
    "Haptics.Wavelet.c68_negation",
    "Haptics.Wavelet.c68_single_negation"
   ],
   "note": "Holds for the bands the encoder makes (c67_signal); false in general: positions are ignored (c68_negation, c68_single_negation)."
  },
  {
   "property": "C69",
   "status": "partial",
   "theorems": [
    "Haptics.Json.c69_date_negation",
    "Haptics.Json.c69_date_partial",
    "Haptics.Json.c69_uri",
    "Haptics.Json.c69_version"
   ],
   "note": "Versions: exact (c69_version). URIs: every non-empty text (c69_uri). Dates: false; any text with four digits in a row is accepted and nothing else (c69_date_negation, c69_date_partial)."
  },
  {
   "property": "C70",
   "status": "partial",
   "theorems": [
    "Haptics.Json.c70_scheme_negation",
    "Haptics.Json.c70_wavelet_negation"
   ],
   "note": "False: perceptions with a semantic scheme (c70_scheme_negation) and wavelet bands at 44.1 kHz with the default block length (c70_wavelet_negation) are rejected. What is accepted is c34_iff."
  },
  {
   "property": "C71",
   "status": "partial",
   "theorems": [
    "Haptics.Json.c71_kept",
    "Haptics.Json.c71_iff",
    "Haptics.Json.c71_timescale_negation",
    "Haptics.Json.c71_timeline_negation",
    "Haptics.Json.c71_loaded",
    "Haptics.Json.c71_id_negation",
    "Haptics.Json.c71_mesh_negation"
   ],
   "note": "c71_iff says exactly which conformant experiences come back as they were, c71_kept what comes back of any other. False as stated: timelines (c71_timeline_negation), identifiers of effects that are not references (c71_id_negation), meshes of avatars that are not custom (c71_mesh_negation) and experiences without timescale (c71_timescale_negation) are lost. Printing and parsing of JSON text by rapidjson is taken to give the tree back; the JSON schema is a parameter."
  },
  {
   "property": "C72",
   "status": "partial",
   "theorems": [
    "Haptics.Ivs.c72_ticks",
    "Haptics.Ivs.c72_exact_negation",
    "Haptics.Ivs.c72_monotone",
    "Haptics.Ivs.c72_overflow_unsafe",
    "Haptics.Ivs.c72_frequency",
    "Haptics.Ivs.c72_period_unsafe",
    "Haptics.Ivs.c72_period_negation"
   ],
   "note": "Ticks, monotonicity and frequency are proved for all inputs. Exactness is false (c72_exact_negation: 4007 ms is tick 4006 at 1000 ticks/s); overflow and period 0 are undefined behaviour; a periodic effect without period gets -1000 Hz."
  },
  {
   "property": "C73",
   "status": "partial",
   "theorems": [
    "Haptics.Ivs.c73_envelope",
    "Haptics.Ivs.c73_keyframes",
    "Haptics.Ivs.c73_zero_fade_negation",
    "Haptics.Ivs.c73_overlap_negation",
    "Haptics.Ivs.c73_long_attack_negation",
    "Haptics.Ivs.c73_missing_negation",
    "Haptics.Ivs.c73_values"
   ],
   "note": "c73_keyframes holds for every attack and fade; c73_envelope gives the whole curve when attack and fade fit into the duration. False for a fade of 0 ms, for a fade that begins before the attack is over, for attacks as long as the effect and for effects without a duration (negations)."
  },
  {
   "property": "C74",
   "status": "proved",
   "theorems": [
    "Haptics.c74_bands_needed",
    "Haptics.c74_bands_enough",
    "Haptics.c74_bands_negation",
    "Haptics.c74_distributed",
    "Haptics.c74_one_band"
   ],
   "note": "For effects whose last keyframe has a position that is not negative (all effects of C73 and C77 have). c74_bands_needed and c74_bands_enough count the bands that are made; effects that are not added in order of time may get more bands than sound at once (c74_bands_negation)."
  },
  {
   "property": "C75",
   "status": "partial",
   "theorems": [
    "Haptics.Ivs.c75_timeline",
    "Haptics.Ivs.c75_no_repeats",
    "Haptics.Ivs.c75_channels",
    "Haptics.Ivs.c75_ids_negation",
    "Haptics.Ivs.c75_signal",
    "Haptics.Ivs.c75_waveform_negation"
   ],
   "note": "Proved, with the repeat events expanded as by the code (C40 says when that is right). That identifiers differ is false (c75_ids_negation: all are 0). Waveforms of other names are accepted and then cannot be written (c75_waveform_negation)."
  },
  {
   "property": "C76",
   "status": "partial",
   "theorems": [
    "Haptics.Ahap.c76_safe",
    "Haptics.Ahap.c76_unsafe"
   ],
   "note": "False in general. Of the files with values in the ranges of the format, exactly those whose curves reach all continuous events are converted (c76_safe); all others make the encoder read outside of a curve (c76_unsafe)."
  },
  {
   "property": "C77",
   "status": "partial",
   "theorems": [
    "Haptics.Ahap.c77_keyframes",
    "Haptics.Ahap.c77_last_point_negation",
    "Haptics.Ahap.c77_end_frequency_negation",
    "Haptics.Ahap.c77_ticks",
    "Haptics.Ahap.c77_tick_negation"
   ],
   "note": "Times and amplitudes are proved for all curves in the order of time, frequencies at control points and outside of the curve. False at the last control point within an event (c77_last_point_negation), for the frequency at the end of an event (c77_end_frequency_negation) and for points and events at the same time (c77_tick_negation)."
  },
  {
   "property": "C78",
   "status": "partial",
   "theorems": [
    "Haptics.Ahap.c78_file",
    "Haptics.Ahap.c78_refused",
    "Haptics.Ahap.c78_empty_band",
    "Haptics.Ahap.c78_order_negation"
   ],
   "note": "Proved with what the code makes of transients (sharpness is not used). The order of time is false (c78_order_negation), and a file without transients gets an empty effect (c78_empty_band)."
  },
  {
   "property": "C79",
   "status": "partial",
   "theorems": [
    "Haptics.Ohm.c79_loaded",
    "Haptics.Ohm.c79_metadata",
    "Haptics.Ohm.c79_experience",
    "Haptics.Ohm.c79_version_negation",
    "Haptics.Ohm.c79_modality_negation"
   ],
   "note": "Proved for every loaded file and all writable metadata; for experiences with a numeric version and less than 32768 channels per perception. False otherwise: a version without number throws (c79_version_negation), modalities do not come back (c79_modality_negation)."
  },
  {
   "property": "C80",
   "status": "partial",
   "theorems": [
    "Haptics.Pcm.c80_channels",
    "Haptics.Pcm.c80_failure",
    "Haptics.Pcm.c80_unreadable_negation",
    "Haptics.Pcm.c80_success",
    "Haptics.Pcm.c80_nothing_negation"
   ],
   "note": "Proved for files that were loaded: c80_channels (what success means), c80_success (when it succeeds, without undefined behaviour), c80_failure. False for files that cannot be opened (c80_unreadable_negation: success, nothing encoded). Filter, evaluation and wavelet encoder are parameters here."
  },
  {
   "property": "C81",
   "status": "partial",
   "theorems": [
    "Haptics.EncoderMain.c81_written",
    "Haptics.EncoderMain.c81_output",
    "Haptics.EncoderMain.c81_content",
    "Haptics.EncoderMain.c81_signal",
    "Haptics.EncoderMain.c81_ohm",
    "Haptics.EncoderMain.c81_settings",
    "Haptics.EncoderMain.c81_bitrate",
    "Haptics.EncoderMain.c81_hjif_negation",
    "Haptics.EncoderMain.c81_hjif",
    "Haptics.EncoderMain.c81_cutoff_negation",
    "Haptics.EncoderMain.c81_spectrum_negation",
    "Haptics.EncoderMain.c81_element_negation"
   ],
   "note": "Proved for all command lines and all behaviours of the importers. Negations: HJIF input ends with code -1 (c81_hjif), cutoff and block length ignored without bit rate or budget and --bitrate ignored (c81_cutoff_negation), --disable-vectorial loses low frequencies (c81_spectrum_negation), unknown elements of OHM files are left out with success (c81_element_negation). The bit budget polynomial is in binary64, with pow correctly rounded."
  },
  {
   "property": "C82",
   "status": "partial",
   "theorems": [
    "Haptics.SynthMain.c82_signals",
    "Haptics.SynthMain.c82_duration_partial",
    "Haptics.SynthMain.c82_content",
    "Haptics.SynthMain.c82_recording",
    "Haptics.SynthMain.c82_padding_negation",
    "Haptics.SynthMain.c82_throws_negation",
    "Haptics.SynthMain.c82_run",
    "Haptics.SynthMain.c82_pad",
    "Haptics.c82_number"
   ],
   "note": "Signals, range, names and rates for all runs (the OHM file is C101), of the experience with all wavelet bands decoded (c82_content); what numbers of options and texts mean is c82_number. The duration holds without padding or at timescale 1000 only (c82_padding_negation); missing timescale or no channels ends with an exception (c82_throws_negation)."
  },
  {
   "property": "C83",
   "status": "partial",
   "theorems": [
    "Haptics.DecoderMain.c83_decodes_partial",
    "Haptics.DecoderMain.c83_sync_partial",
    "Haptics.DecoderMain.c83_refused",
    "Haptics.DecoderMain.c83_missing_negation",
    "Haptics.DecoderMain.c83_failure_negation"
   ],
   "note": "c83_decodes_partial and c83_sync_partial for the experiences of C57, with any number of sync points; c83_missing_negation and c83_failure_negation: the decoder never reports failure for an input that is missing or rejected."
  },
  {
   "property": "C84",
   "status": "partial",
   "theorems": [
    "Haptics.Wavelet.Transform.c84_reconstructs",
    "Haptics.Wavelet.Transform.c84_quantised",
    "Haptics.Wavelet.Transform.c84_length_unsafe",
    "Haptics.Wavelet.Transform.c84_levels_negation"
   ],
   "note": "Proved in binary64 arithmetic for all lengths that are at least 3 and any multiple of two to the power of the levels, all levels from 1 on (c84_reconstructs, c84_quantised). False for short or odd lengths (c84_length_unsafe) and without levels (c84_levels_negation), which the encoder would choose for blocks of 4 to 7 samples."
  },
  {
   "property": "C85",
   "status": "partial",
   "theorems": [
    "Haptics.Psycho.c85_codec",
    "Haptics.Wavelet.c85_signal"
   ],
   "note": "Composition of C84, C67, C43, C42 and C22: block length a power of two from 8 on, timescale 1000, blocks of a whole number of ticks, budget as in C43. Everything in binary64; psychohaptic model and logarithm arbitrary in c85_signal; with the psychohaptic model of C93 in c85_codec. Where these conditions fail, see the negations of C43 and C67."
  },
  {
   "property": "C86",
   "status": "partial",
   "theorems": [
    "Haptics.Psycho.c86_safe",
    "Haptics.Psycho.c86_peaks_partial",
    "Haptics.Psycho.c86_plateau_negation",
    "Haptics.Psycho.c86_missed_negation",
    "Haptics.Psycho.c86_end_negation",
    "Haptics.Psycho.c86_mask",
    "Haptics.Psycho.c86_bands",
    "Haptics.Psycho.c86_short_unsafe"
   ],
   "note": "Order, heights, bounds, termination and the mask are proved for every spectrum, and the exact set of peaks for every spectrum without two equal neighbouring bins. With plateaus the code reports wrong peaks and misses right ones (c86_plateau_negation, c86_missed_negation, c86_end_negation). Blocks of less than eight bins write out of bounds (c86_short_unsafe). Arithmetic is exact in this model; Fourier transform and logarithms are not modelled."
  },
  {
   "property": "C87",
   "status": "partial",
   "theorems": [
    "Haptics.Splines.c87_bspline",
    "Haptics.Splines.c87_bspline_safe_partial",
    "Haptics.Splines.c87_played_partial",
    "Haptics.Splines.c87_bspline_unsafe",
    "Haptics.Splines.c87_bspline_exact_unsafe",
    "Haptics.Splines.c87_akima",
    "Haptics.Splines.c87_akima_through",
    "Haptics.Splines.c87_akima_short_unsafe",
    "Haptics.Splines.c87_bezier_partial",
    "Haptics.Splines.c87_bezier_range_partial",
    "Haptics.Splines.c87_bezier_even_unsafe",
    "Haptics.Splines.c87_bezier_long_unsafe"
   ],
   "note": "Akima curves: proved for three or more keyframes; one keyframe reads out of bounds. Bezier curves: proved for an odd number of keyframes with no three spanning more than 32767 samples; with an even number the band reads past the end (c87_bezier_even_unsafe) and with long spans an int overflows (c87_bezier_long_unsafe). B-splines: range and length proved whenever the computation ends, and safety for three to seven keyframes; with nine keyframes it reads past the knots (c87_bspline_unsafe, with the running parameter rounded to doubles). Other arithmetic is exact."
  },
  {
   "property": "C88",
   "status": "partial",
   "theorems": [
    "Haptics.Playback.c88_partial",
    "Haptics.Playback.c88_negation",
    "Haptics.Playback.c88_exact_partial",
    "Haptics.Playback.c88_transformed_partial"
   ],
   "note": "Proved in binary64: every sample is the sample at its place or the one before it, from one block only, and nothing is read out of bounds; exact when the sampling frequency is a power of two. The delay of one sample does occur (8000 Hz, sample 1001): c88_negation."
  },
  {
   "property": "C89",
   "status": "partial",
   "theorems": [
    "Haptics.Recording.c89_wavelet_partial",
    "Haptics.Recording.c89_curve_partial"
   ],
   "note": "Proved in binary64 for blocks that last a whole number of ticks at 1000 ticks per second, with the sample at the same place or the one before it (the same place if the sampling frequency is a power of two). The lag is real (c88_negation), and so is the failure for other block lengths and timescales (c67_length_negation, c67_timescale_negation). The curve is any one within the range."
  },
  {
   "property": "C90",
   "status": "partial",
   "theorems": [
    "Haptics.Json.c90_loads",
    "Haptics.Json.c90_required",
    "Haptics.Json.c90_position_unsafe",
    "Haptics.Json.c90_library_unsafe",
    "Haptics.Json.c90_keyframes_unsafe",
    "Haptics.Json.c90_mask_unsafe",
    "Haptics.Json.c90_stream_unsafe",
    "Haptics.Json.c90_header_unsafe",
    "Haptics.Json.c90_names_negation",
    "Haptics.Json.c90_skipped_negation"
   ],
   "note": "c90_loads holds for every tree of the form of Shape.Formed, whatever the schema check accepts. For other trees the claim is false: six kinds of files with undefined behaviour, names that end with an exception, and elements left out silently (negations). The JSON schema files are not part of the repository, so which of them the schema check would refuse is not modelled."
  },
  {
   "property": "C91",
   "status": "proved",
   "theorems": [
    "Haptics.Filter.c91_length",
    "Haptics.Filter.c91_symmetric",
    "Haptics.Filter.c91_linear",
    "Haptics.Filter.c91_positive"
   ],
   "note": "For every linear filter with constant coefficients, given by its impulse response; the coefficients of the Butterworth filters are those of the library iir1, which is not part of the repository. Exact arithmetic."
  },
  {
   "property": "C92",
   "status": "partial",
   "theorems": [
    "Haptics.Accepted.c92_ahap",
    "Haptics.Accepted.c92_ivs",
    "Haptics.Accepted.c92_wav",
    "Haptics.Accepted.c92_ahap_negation",
    "Haptics.Accepted.c92_ivs_negation",
    "Haptics.Accepted.c92_wav_negation"
   ],
   "note": "Does not hold: seven AHAP events at once, two IVS timelines, or a WAV file of 44.1 or 48 kHz with the default settings give a file that is refused (the *_negation theorems). c92_ahap, c92_ivs and c92_wav give the exact condition. The values in the file that is made are proved to be in range from limits on the input: for IVS levels within 10000 and known waveforms (InRange), for WAV samples in [-1, 1] and no value near an overflow (Recorded); for WAV also that no block is encoded to zero bytes only (NoZeroBlock). For AHAP the equivalence needs the events in the order of time, the refusal does not."
  },
  {
   "property": "C93",
   "status": "partial",
   "theorems": [
    "Haptics.Psycho.c93_threshold_negation",
    "Haptics.Psycho.c93_total",
    "Haptics.Psycho.c93_energy",
    "Haptics.Psycho.c93_history",
    "Haptics.Psycho.c93_history_negation",
    "Haptics.Psycho.c93_fits",
    "Haptics.Psycho.c93_silent_unsafe"
   ],
   "note": "Energies, ratios and independence of history for one block length are proved for any Fourier transform and for logarithm, power and square root of given accuracy; arithmetic is exact but for the threshold. Does not hold: the threshold is 1 at all frequencies (c93_threshold_negation), another block length before changes the energies (c93_history_negation), and a silent block has energies 0 and ratios -inf, with which the wavelet encoder runs into undefined behaviour from 31 bits on (c93_silent_unsafe)."
  },
  {
   "property": "C94",
   "status": "partial",
   "theorems": [
    "Haptics.Imported.c94_ahap_partial",
    "Haptics.Imported.c94_late_negation",
    "Haptics.Imported.c94_frequency_negation",
    "Haptics.Imported.c94_order_negation"
   ],
   "note": "Does not hold: a transient after 65535 ticks is received at another time, one under a negative sharpness curve with a frequency of about 65000 Hz, one that is out of order not at all (the *_negation theorems, on the units of the stream). c94_ahap_partial shows it for the other files with curves and events in the order of time, if they are of moderate size (Ahap.Modest)."
  },
  {
   "property": "C95",
   "status": "partial",
   "theorems": [
    "Haptics.Imported.c95_ivs_partial",
    "Haptics.Imported.c95_timelines_negation",
    "Haptics.Imported.c95_period_negation",
    "Haptics.Imported.c95_long_negation"
   ],
   "note": "c95_ivs_partial: for one timeline, with launched effects that are regular, with levels in range, not longer than 65535 ticks and with a period if periodic, and within the limits of a stream (256 bands, 65535 effects, 2^24 ticks), packets of at most 1000 ticks. Does not hold for two timelines (merged into one channel), a periodic effect without period (received as 64536 Hz) or longer than 65535 ticks (cut): the *_negation theorems."
  },
  {
   "property": "C96",
   "status": "partial",
   "theorems": [
    "Haptics.Imported.c96_wav_partial",
    "Haptics.Imported.c96_blocks_exact",
    "Haptics.Imported.c96_blocks_negation",
    "Haptics.Imported.c96_curve_negation"
   ],
   "note": "c96_wav_partial: everything arrives, for recordings and settings in Wav.Streamable: with wavelets, one tick per sample and blocks as long as a packet and below 256 samples; curves below 65535 ticks. Not true otherwise: c96_blocks_negation (for every signal of two blocks or more, blocks of 256 samples or more - the default is 1024 - or fewer ticks than samples in a second: whatever the packet duration, nothing is sent or the blocks are received at other times), c96_curve_negation (16 bit times). c96_blocks_exact: for all block lengths, sampling frequencies, timescales and packet durations, exactly when the blocks are received where the encoder has them."
  },
  {
   "property": "C97",
   "status": "partial",
   "theorems": [
    "Haptics.c97_transcoded_partial",
    "Haptics.c97_sync_negation",
    "Haptics.c97_avatar_negation"
   ],
   "note": "c97_transcoded_partial: holds for conformant files that can be streamed in the sense of C57 (at most one sync point, no composite or overlapping effects, identifiers that fit). Not true in general: c97_sync_negation (a sync point at the start of a packet: avatars doubled, semantic scheme added, refused on loading), c97_avatar_negation (avatar 256 becomes 0, refused on loading)."
  },
  {
   "property": "C98",
   "status": "partial",
   "theorems": [
    "Haptics.c98_amplitude_partial",
    "Haptics.c98_amplitude_negation",
    "Haptics.c98_drift_negation",
    "Haptics.c98_frequency_negation",
    "Haptics.c98_generation_partial",
    "Haptics.c98_settles_partial",
    "Haptics.c98_phase_negation"
   ],
   "note": "c98_amplitude_partial: an amplitude that was read once is stable if and only if it is -1 or above -1/2. c98_generation_partial, c98_settles_partial: in every field of up to 16 bits (amplitudes, phases, gains) a value never increases and loses at most one step each time, and stays after at most 2^n times. Not true otherwise: c98_amplitude_negation (every other amplitude decreases each time), c98_drift_negation (and is -1 after 63 more times), c98_phase_negation (a phase that decreases 127 times), c98_frequency_negation (10 Hz, a field of 32 bits, decreases each time)."
  },
  {
   "property": "C99",
   "status": "partial",
   "theorems": [
    "Haptics.c99_discarded_partial",
    "Haptics.c99_mismatch_partial",
    "Haptics.c99_match_partial",
    "Haptics.c99_negation",
    "Haptics.c99_intact_negation"
   ],
   "note": "False of the code: c99_negation (after any CRC packet, also one that matches, dependent units are left out from the second unit after it on, and their time is not counted), c99_intact_negation (a stream with one correct CRC loses its end). Proved: a CRC that does not match makes the reader leave out dependent units (c99_mismatch_partial, c99_discarded_partial), one that matches lets it go on with the next unit (c99_match_partial). A CRC packet among the last 72 bits of a unit is not seen at all (C15)."
  },
  {
   "property": "C100",
   "status": "partial",
   "theorems": [
    "Haptics.c100_partial",
    "Haptics.c100_negation"
   ],
   "note": "The full property is false of the code: above 1000 ticks per second the last transient of a band is cut off after 22 ticks (c100_negation). Proved for effects of one keyframe that another one follows, or that are played within 22 ticks or with at most 1000 ticks per second."
  },
  {
   "property": "C101",
   "status": "partial",
   "theorems": [
    "Haptics.SynthMain.c101_name",
    "Haptics.SynthMain.c101_metadata",
    "Haptics.SynthMain.c101_beside",
    "Haptics.SynthMain.c101_encoded",
    "Haptics.SynthMain.c101_again_partial",
    "Haptics.SynthMain.c101_two_negation",
    "Haptics.SynthMain.c101_gain_negation"
   ],
   "note": "Proved: when and under which name the OHM file is written, what it holds (for all experiences whose texts and masks fit), that the encoder finds the sound file from it, and that for one perception each channel gets its own signal, description, gain and mask. False of the code (negations for all such experiences, with a complete example): with two perceptions the channels of the second get the signals of the first and extra placeholder channels appear; gains are applied twice. That the sound file cannot be opened for writing is not modelled; the samples in the sound file are the subject of C39 and C82."
  },
  {
   "property": "C102",
   "status": "partial",
   "theorems": [
    "Haptics.Sounds.c102_sounds_partial",
    "Haptics.Sounds.c102_decoder_partial",
    "Haptics.Sounds.c102_sync_partial",
    "Haptics.Sounds.c102_length_negation",
    "Haptics.Sounds.c102_channel_negation"
   ],
   "note": "Proved for all experiences that can be streamed (C57), whose amplitudes, phases and gains are in the ranges of the format, and whose channels with a sampling frequency have a number of samples: both syntheses fail alike or give the same number of signals of the same length, with every sample off by at most 1/125 per sound heard at that time, times the gain, and 0.06 for the gain itself. The same with any number of sync points, if the experience can be described more than once (c102_sync_partial, C36). Phases of base signals with jumps are not covered. False of the code: a channel with a sampling frequency and no number of samples is received with 0 samples, and if all channels are such nothing is heard (negation); a channel with nothing to play is not streamed, so that there are fewer signals (negation). B\u00e9zier curves are included if their keyframes are in order. Wavelet bands are included, without any difference in their samples, if the decoder makes the same samples of the same blocks, as the decoder of the program does (c102_decoder_partial). Missing: Akima and B-spline curves."
  },
  {
   "property": "C103",
   "status": "partial",
   "theorems": [
    "Haptics.c103_join_partial",
    "Haptics.c103_points_partial",
    "Haptics.c103_wavelet_negation",
    "Haptics.c103_point_negation"
   ],
   "note": "Proved for all experiences that can be streamed (C57), except for wavelet bands, and sent again (C36; for the last sync point even without that): whatever unit of the stream a receiver starts with, it gets the experience since the next initialization unit and the sync points from there on, or nothing if there is none; the initialization units are those of a prefix of the sync points, in order, and of all of them if at each there is something to send, though not for the first time. False of the code: a late receiver places wavelet blocks by counting from 0 (negation); a sync point that is not at the end of a packet has no initialization unit and keeps all later ones from having any (negation)."
  },
  {
   "property": "C104",
   "status": "partial",
   "theorems": [
    "Haptics.c104_rounded_partial",
    "Haptics.c104_channel_partial",
    "Haptics.c104_signals_partial",
    "Haptics.c104_succeeds_partial",
    "Haptics.c104_curve_negation"
   ],
   "note": "Proved for transient, vectorial and wavelet bands with any rounding of the operations (c104_rounded_partial), and a frequency that divides another fails only if the other does (c104_succeeds_partial); in exact arithmetic also for linear, cubic, Akima and B\u00e9zier curves when a tick is a whole number of samples, two or more, at both frequencies, and for the signals of the program. False of the code for other curves: keyframes are moved to the sample before them (negation at 8000 and 44100 Hz). Not covered: B-spline curves."
  },
  {
   "property": "C105",
   "status": "partial",
   "theorems": [
    "Haptics.c105_channel_partial",
    "Haptics.c105_after_partial",
    "Haptics.c105_signals_partial",
    "Haptics.c105_curve_negation"
   ],
   "note": "Proved in exact arithmetic for transient, vectorial and wavelet bands, for channels and for the signals of the program: silence of that length, then the samples without padding; and, for transients and vibrations, silence after the end of the effects. False of the code for curves, which 1 ms of padding delays by 1000 s (negation), and for the number of samples at time scales other than 1000 (c82_padding_negation). Effects at negative positions are excluded."
  },
  {
   "property": "C106",
   "status": "partial",
   "theorems": [
    "Haptics.c106_loss_partial",
    "Haptics.c106_early_negation",
    "Haptics.c106_wavelet_negation"
   ],
   "note": "Proved for every pattern of loss after which nothing arrives until the next initialization unit: the receiver gets exactly what happens at the times of the units that arrive, at the right times. False of the code for what arrives earlier, which is early by the time that was lost (negation), and for wavelet bands, whose blocks are placed one after the other even after an initialization unit (negation). References that start together with a packet are excluded; otherwise the conditions of C57."
  },
  {
   "property": "C107",
   "status": "partial",
   "theorems": [
    "Haptics.c107_sum_partial",
    "Haptics.c107_order_partial",
    "Haptics.c107_position",
    "Haptics.c107_clipping_negation",
    "Haptics.c107_order_negation",
    "Haptics.c107_effects_partial"
   ],
   "note": "Proved for the samples at which the bands have the same sign or do not add up to more than 1 in magnitude; for the evaluation at a single position without that condition; and that the order of the effects of a band of any type never changes what it plays (exact arithmetic, evaluations that succeed). False of the code otherwise: EvaluateChannel clips after every band, so that 1+1-1 gives 0 and 1-1+1 gives 1 (negations)."
  },
  {
   "property": "C108",
   "status": "partial",
   "theorems": [
    "Haptics.c108_channel_partial",
    "Haptics.c108_signals_partial",
    "Haptics.c108_curve_negation"
   ],
   "note": "Proved for transients and vibrations, and references to them, at program level, and for channels also with wavelet effects whose decoded samples do not depend on the position, for times that are a whole number of samples. False of the code for curves, whose position is multiplied by the sampling frequency and the time scale (negation)."
  },
  {
   "property": "C109",
   "status": "partial",
   "theorems": [
    "Haptics.c109_band_partial",
    "Haptics.c109_wavelet_partial",
    "Haptics.c109_channel_partial",
    "Haptics.c109_overlap_negation",
    "Haptics.c109_blocks_negation",
    "Haptics.c109_timescale_negation",
    "Haptics.c109_curve_negation"
   ],
   "note": "Proved for bands of vibrations, or of transients with 1000 ticks per second, that sound one at a time, for wavelet bands whose blocks do not overlap, and for channels of such bands at samples that are not clipped more than once (C107). False of the code for effects or blocks that overlap (Evaluate plays only the last), for transients with other time scales (Evaluate ends them after 22 ticks instead of 22 ms) and for curves of two points (in no signal): four negations."
  },
  {
   "property": "C110",
   "status": "partial",
   "theorems": [
    "Haptics.c110_linearize",
    "Haptics.c110_refactor_partial",
    "Haptics.c110_collision_negation"
   ],
   "note": "c110_linearize for every experience. c110_refactor_partial for every sampling frequency and padding, when libraries are numbered below their size (C31), references resolve and no wavelet effect has the signal of another effect. c110_collision_negation: with another library the identifiers collide, and a sample of 1/2 becomes 0."
  },
  {
   "property": "C111",
   "status": "partial",
   "theorems": [
    "Haptics.Wavelet.c111_signal_partial",
    "Haptics.Wavelet.c111_unsafe_negation",
    "Haptics.Wavelet.c111_early_negation",
    "Haptics.Wavelet.c111_scale_negation"
   ],
   "note": "c111_signal_partial: with as many ticks as samples per second the blocks follow each other, each the inverse transform of its coefficients but multiplied by a power of two (c111_scale_negation: a factor of 4). c111_unsafe_negation: with more ticks than samples per second every signal of more than one block is written out of bounds. c111_early_negation: with fewer, blocks overwrite each other and the end is silent."
  },
  {
   "property": "C112",
   "status": "partial",
   "theorems": [
    "Haptics.Splines.c112_coefficients",
    "Haptics.Splines.c112_keyframe_negation",
    "Haptics.Splines.c112_length_partial",
    "Haptics.Splines.c112_samples_partial",
    "Haptics.Splines.c112_codec_partial",
    "Haptics.Splines.c112_codec_negation"
   ],
   "note": "c112_coefficients: the coefficients computed are those of the natural cubic spline, for all keyframes in the order of time. c112_keyframe_negation: the samples are not taken from it. c112_samples_partial, c112_length_partial: what they are, and how many: each segment is constant. c112_codec_partial: for linear and cubic curves interpolationCodec returns what is played; c112_codec_negation: for all others, silence."
  },
  {
   "property": "C113",
   "status": "partial",
   "theorems": [
    "Haptics.c113_units",
    "Haptics.c113_boundary_partial",
    "Haptics.c113_invented_negation"
   ],
   "note": "c113_units: what is taken for units in a file that was cut at any byte: the complete units and the last one filled up with zeros. c113_boundary_partial: cut at the end of a unit, one gets exactly the experience up to then, under the conditions of c106_loss_partial. c113_invented_negation: cut within a unit, the program may divide by zero, or report success and deliver sync points that were not sent and keyframes at wrong times."
  },
  {
   "property": "C114",
   "status": "proved",
   "theorems": [
    "Haptics.c114_volume",
    "Haptics.c114_metadata",
    "Haptics.c114_louder",
    "Haptics.c114_silent"
   ],
   "note": "c114_volume: the signals are those of the effects alone times the volumes, errors included; c114_metadata, c114_louder, c114_silent follow. The signals before they are clipped and rounded for the sound file (C39); exact arithmetic."
  },
  {
   "property": "C115",
   "status": "proved",
   "theorems": [
    "Haptics.c115_prefix",
    "Haptics.c115_solo"
   ],
   "note": "c115_solo: if an experience can be played, so can each of its channels alone, and its signal is then the first part of the one it has together with others. c115_prefix: fewer samples are the first ones of more. Sampling frequency above zero and no negative padding, as the program has them (C82)."
  },
  {
   "property": "C116",
   "status": "partial",
   "theorems": [
    "Haptics.c116_duration_partial",
    "Haptics.c116_sync_partial",
    "Haptics.c116_sync_negation",
    "Haptics.c116_reference_negation",
    "Haptics.c116_wavelet_negation"
   ],
   "note": "c116_duration_partial: for experiences without wavelet bands and references, all durations at which they can be streamed. c116_sync_partial: with sync points that are timely for both durations. Negations: sync points are received with packets of 128 ticks and lost with 100 (c116_sync_negation), a reference is received with 100 and lost with 128 (c116_reference_negation), a wavelet block is lost with packets of two blocks, and the sender never ends with packets of half a block (c116_wavelet_negation)."
  },
  {
   "property": "C117",
   "status": "proved",
   "theorems": [
    "Haptics.c117_order",
    "Haptics.c117_regroup"
   ],
   "note": "c117_order: if one of two experiences with the same channels (up to order) can be played, so can the other, and each channel has the same signal. c117_regroup: with the same order of channels the signals are equal, however they are grouped into perceptions."
  },
  {
   "property": "C118",
   "status": "partial",
   "theorems": [
    "Haptics.c118_harmless_partial",
    "Haptics.c118_beyond_negation",
    "Haptics.c118_length_negation",
    "Haptics.c118_overflow_negation",
    "Haptics.c118_text_negation"
   ],
   "note": "False of the code. c118_length_negation: any file whose first unit announces 2^31 bytes or more ends the program with an exception. c118_overflow_negation: any small file whose first unit announces 2^28 bytes or more overflows an int. c118_beyond_negation: any file whose first unit begins with a time packet longer than the unit makes the reader leave the unit. c118_text_negation: metadata that end within a text are read beyond the unit. c118_harmless_partial: files of any bytes whose units are below 2^28 bytes and have at most nine bytes after the head, or begin with a packet of a type that does not exist, are read safely, with nothing received. Missing: a safe class of hostile files with packets of types that exist (files written by the program are covered by C14, C15, C97, C113)."
  },
  {
   "property": "C119",
   "status": "partial",
   "theorems": [
    "Haptics.Ohm.c119_zeros_partial",
    "Haptics.Ohm.c119_prefix_partial",
    "Haptics.Ohm.c119_cut_negation"
   ],
   "note": "Elements that are complete in what is left are loaded as from the whole file, wherever it was cut off (c119_prefix_partial). False of the code otherwise: what is missing is taken for zeros (c119_zeros_partial, for files of any bytes), so that a file that was cut off is accepted and elements that are missing are there without name, description and channels (c119_cut_negation, for every file and every number of elements left)."
  },
  {
   "property": "C120",
   "status": "partial",
   "theorems": [
    "Haptics.c120_repeat_partial",
    "Haptics.c120_unit_negation",
    "Haptics.c120_stale_negation",
    "Haptics.c120_order_negation"
   ],
   "note": "Proved for descriptions that carry the time at which they are sent: they may be repeated any number of times, or left out except the first, between any two units of a stream, and the receiver gets the experience, with a sync point for each description (c120_repeat_partial, for experiences that can be described more than once, C36). False of the code otherwise: a unit that arrives twice puts its keyframes there twice and makes what follows late (c120_unit_negation), an initialization unit that arrives again later sets back the clock (c120_stale_negation), and units in another order are played at other times (c120_order_negation)."
  },
  {
   "property": "C121",
   "status": "proved",
   "theorems": [
    "Haptics.Wavelet.c121_payload",
    "Haptics.Wavelet.c121_decode",
    "Haptics.Wavelet.c121_bands",
    "Haptics.Wavelet.c121_channels",
    "Haptics.Wavelet.c121_cut"
   ],
   "note": "c121_decode (blocks of all bands of an experience, any payloads), c121_bands (with positions), c121_payload (the same payload becomes the same samples in any block of any band with that block length, whatever the other payloads are, if the bands are decoded at all), c121_channels (channels by one encoder), c121_cut (recordings cut between blocks). The transform, its inverse and the psychohaptic model are any functions of a block. The tables of descendants of the encoder keep entries of earlier, longer blocks, but those are not looked at for block lengths that are powers of two."
  }
 ]
}