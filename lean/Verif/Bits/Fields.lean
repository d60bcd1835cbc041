/-
Field widths: /repo/source/IOHaptics/include/IOBinaryFields.h.
-/
namespace Haptics

/-- IOBinaryFields.h:45 -/
abbrev LEVEL : Nat := 8
/-- IOBinaryFields.h:47 -/
abbrev UNIT_TYPE : Nat := 6
/-- IOBinaryFields.h:48 -/
abbrev UNIT_SYNC : Nat := 2
/-- IOBinaryFields.h:49 -/
abbrev UNIT_LAYER : Nat := 4
/-- IOBinaryFields.h:50 -/
abbrev UNIT_DURATION : Nat := 24
/-- IOBinaryFields.h:51 -/
abbrev UNIT_LENGTH : Nat := 32
/-- IOBinaryFields.h:52 -/
abbrev UNIT_RESERVED : Nat := 4
/-- IOBinaryFields.h:54 -/
abbrev H_NBITS : Nat := 24
/-- IOBinaryFields.h:55 -/
abbrev H_MIHS_PACKET_TYPE : Nat := 6
/-- IOBinaryFields.h:56 -/
abbrev H_PAYLOAD_LENGTH : Nat := 17
/-- IOBinaryFields.h:57 -/
abbrev H_RESERVED : Nat := 1
/-- IOBinaryFields.h:59 -/
abbrev TIMING_TIME : Nat := 32
/-- IOBinaryFields.h:61 -/
abbrev INITTIMING_TIMESCALE : Nat := 32
/-- IOBinaryFields.h:62 -/
abbrev INITTIMING_NOMINALDURATION : Nat := 24
/-- IOBinaryFields.h:63 -/
abbrev INITTIMING_DURATIONDEVIATION : Nat := 24
/-- IOBinaryFields.h:64 -/
abbrev INITTIMING_OVERLAPPING : Nat := 1
/-- IOBinaryFields.h:66 -/
abbrev MDEXP_VERSION : Nat := 8
/-- IOBinaryFields.h:67 -/
abbrev MDEXP_PROFILE_SIZE : Nat := 8
/-- IOBinaryFields.h:68 -/
abbrev MDEXP_LEVEL : Nat := 8
/-- IOBinaryFields.h:69 -/
abbrev MDEXP_DATE : Nat := 8
/-- IOBinaryFields.h:70 -/
abbrev MDEXP_DESC_SIZE : Nat := 8
/-- IOBinaryFields.h:72 -/
abbrev MDEXP_PERC_COUNT : Nat := 8
/-- IOBinaryFields.h:73 -/
abbrev MDEXP_AVATAR_COUNT : Nat := 8
/-- IOBinaryFields.h:75 -/
abbrev AVATAR_ID : Nat := 8
/-- IOBinaryFields.h:76 -/
abbrev AVATAR_LOD : Nat := 8
/-- IOBinaryFields.h:77 -/
abbrev AVATAR_TYPE : Nat := 8
/-- IOBinaryFields.h:79 -/
abbrev AVATAR_MESH_COUNT : Nat := 8
/-- IOBinaryFields.h:81 -/
abbrev MDPERCE_ID : Nat := 8
/-- IOBinaryFields.h:82 -/
abbrev MDPERCE_PRIORITY : Nat := 8
/-- IOBinaryFields.h:83 -/
abbrev MDPERCE_DESC_SIZE : Nat := 8
/-- IOBinaryFields.h:84 -/
abbrev MDPERCE_MODALITY : Nat := 8
/-- IOBinaryFields.h:85 -/
abbrev MDPERCE_UNIT_EXP : Nat := 8
/-- IOBinaryFields.h:86 -/
abbrev MDPERCE_PERCE_UNIT_EXP : Nat := 8
/-- IOBinaryFields.h:87 -/
abbrev MDPERCE_LIBRARY_COUNT : Nat := 16
/-- IOBinaryFields.h:88 -/
abbrev MDPERCE_FLAG_SEMANTIC : Nat := 1
/-- IOBinaryFields.h:89 -/
abbrev MDPERCE_SCHEME_LENGTH : Nat := 8
/-- IOBinaryFields.h:90 -/
abbrev MDPERCE_SCHEME_CHAR : Nat := 8
/-- IOBinaryFields.h:91 -/
abbrev MDPERCE_REFDEVICE_COUNT : Nat := 8
/-- IOBinaryFields.h:92 -/
abbrev MDPERCE_CHANNEL_COUNT : Nat := 16
/-- IOBinaryFields.h:94 -/
abbrev REFDEV_ID : Nat := 8
/-- IOBinaryFields.h:96 -/
abbrev REFDEV_NAME_LENGTH : Nat := 8
/-- IOBinaryFields.h:98 -/
abbrev REFDEV_BODY_PART_MASK : Nat := 32
/-- IOBinaryFields.h:99 -/
abbrev REFDEV_OPT_FIELDS : Nat := 12
/-- IOBinaryFields.h:100 -/
abbrev REFDEV_MAX_FREQ : Nat := 32
/-- IOBinaryFields.h:101 -/
abbrev REFDEV_MIN_FREQ : Nat := 32
/-- IOBinaryFields.h:102 -/
abbrev REFDEV_RES_FREQ : Nat := 32
/-- IOBinaryFields.h:103 -/
abbrev REFDEV_MAX_AMP : Nat := 32
/-- IOBinaryFields.h:104 -/
abbrev REFDEV_IMPEDANCE : Nat := 32
/-- IOBinaryFields.h:105 -/
abbrev REFDEV_MAX_VOLT : Nat := 32
/-- IOBinaryFields.h:106 -/
abbrev REFDEV_MAX_CURR : Nat := 32
/-- IOBinaryFields.h:107 -/
abbrev REFDEV_MAX_DISP : Nat := 32
/-- IOBinaryFields.h:108 -/
abbrev REFDEV_WEIGHT : Nat := 32
/-- IOBinaryFields.h:109 -/
abbrev REFDEV_SIZE : Nat := 32
/-- IOBinaryFields.h:110 -/
abbrev REFDEV_CUSTOM : Nat := 32
/-- IOBinaryFields.h:111 -/
abbrev REFDEV_TYPE : Nat := 4
/-- IOBinaryFields.h:112 -/
abbrev REFDEV_MAX_ID : Nat := 255
/-- IOBinaryFields.h:114 -/
abbrev MDCHANNEL_ID : Nat := 16
/-- IOBinaryFields.h:115 -/
abbrev MDCHANNEL_PRIORITY : Nat := 8
/-- IOBinaryFields.h:116 -/
abbrev MDCHANNEL_DESC_LENGTH : Nat := 8
/-- IOBinaryFields.h:117 -/
abbrev MDCHANNEL_DEVICE_ID : Nat := 8
/-- IOBinaryFields.h:118 -/
abbrev MDCHANNEL_GAIN : Nat := 32
/-- IOBinaryFields.h:119 -/
abbrev MDCHANNEL_MIXING_WEIGHT : Nat := 32
/-- IOBinaryFields.h:120 -/
abbrev MDCHANNEL_BODY_PART_MASK : Nat := 32
/-- IOBinaryFields.h:121 -/
abbrev MDCHANNEL_OPT_FIELDS : Nat := 8
/-- IOBinaryFields.h:122 -/
abbrev MDCHANNEL_FREQ_SAMPLING : Nat := 32
/-- IOBinaryFields.h:123 -/
abbrev MDCHANNEL_SAMPLE_COUNT : Nat := 32
/-- IOBinaryFields.h:124 -/
abbrev MDCHANNEL_DIRECTION_MASK : Nat := 1
/-- IOBinaryFields.h:125 -/
abbrev MDCHANNEL_DIRECTION_AXIS : Nat := 8
/-- IOBinaryFields.h:126 -/
abbrev MDCHANNEL_VERT_COUNT : Nat := 16
/-- IOBinaryFields.h:127 -/
abbrev MDCHANNEL_VERT : Nat := 32
/-- IOBinaryFields.h:128 -/
abbrev MDCHANNEL_BANDS_COUNT : Nat := 8
/-- IOBinaryFields.h:129 -/
abbrev MDCHANNEL_BODY_PART_TARGET_COUNT : Nat := 8
/-- IOBinaryFields.h:130 -/
abbrev MDCHANNEL_ACTUATOR_TARGET_COUNT : Nat := 8
/-- IOBinaryFields.h:131 -/
abbrev MDCHANNEL_BODY_PART_TARGET : Nat := 8
/-- IOBinaryFields.h:133 -/
abbrev MDBAND_ID : Nat := 8
/-- IOBinaryFields.h:134 -/
abbrev MDBAND_PRIORITY : Nat := 8
/-- IOBinaryFields.h:135 -/
abbrev MDBAND_BAND_TYPE : Nat := 3
/-- IOBinaryFields.h:136 -/
abbrev MDBAND_CURVE_TYPE : Nat := 4
/-- IOBinaryFields.h:137 -/
abbrev MDBAND_WIN_LEN : Nat := 8
/-- IOBinaryFields.h:138 -/
abbrev MDBAND_BLK_LEN : Nat := 8
/-- IOBinaryFields.h:139 -/
abbrev MDBAND_LOW_FREQ : Nat := 16
/-- IOBinaryFields.h:140 -/
abbrev MDBAND_UP_FREQ : Nat := 16
/-- IOBinaryFields.h:141 -/
abbrev MDBAND_EFFECT_COUNT : Nat := 16
/-- IOBinaryFields.h:143 -/
abbrev EFFECT_ID : Nat := 16
/-- IOBinaryFields.h:144 -/
abbrev EFFECT_POSITION : Nat := 25
/-- IOBinaryFields.h:145 -/
abbrev EFFECT_FLAG_SEMANTIC : Nat := 1
/-- IOBinaryFields.h:146 -/
abbrev EFFECT_SEMANTIC_LAYER_1 : Nat := 4
/-- IOBinaryFields.h:147 -/
abbrev EFFECT_SEMANTIC_LAYER_2 : Nat := 8
/-- IOBinaryFields.h:148 -/
abbrev EFFECT_POSITION_STREAMING : Nat := 25
/-- IOBinaryFields.h:149 -/
abbrev EFFECT_PHASE : Nat := 16
/-- IOBinaryFields.h:150 -/
abbrev EFFECT_BASE_SIGNAL : Nat := 4
/-- IOBinaryFields.h:151 -/
abbrev EFFECT_TYPE : Nat := 2
/-- IOBinaryFields.h:152 -/
abbrev EFFECT_KEYFRAME_COUNT : Nat := 16
/-- IOBinaryFields.h:153 -/
abbrev EFFECT_TIMELINE_COUNT : Nat := 16
/-- IOBinaryFields.h:154 -/
abbrev EFFECT_WAVELET_SIZE : Nat := 16
/-- IOBinaryFields.h:156 -/
abbrev KEYFRAME_MASK : Nat := 3
/-- IOBinaryFields.h:158 -/
abbrev KEYFRAME_VECTORIAL_MASK : Nat := 2
/-- IOBinaryFields.h:160 -/
abbrev KEYFRAME_POSITION : Nat := 16
/-- IOBinaryFields.h:161 -/
abbrev KEYFRAME_AMPLITUDE : Nat := 8
/-- IOBinaryFields.h:162 -/
abbrev KEYFRAME_FREQUENCY : Nat := 16
/-- IOBinaryFields.h:164 -/
abbrev DB_AU_TYPE : Nat := 1
/-- IOBinaryFields.h:165 -/
abbrev DB_DURATION : Nat := 32
/-- IOBinaryFields.h:166 -/
abbrev DB_EFFECT_COUNT : Nat := 16
/-- IOBinaryFields.h:168 -/
abbrev CRC32_NB_BITS : Nat := 32
/-- IOBinaryFields.h:169 -/
abbrev CRC16_NB_BITS : Nat := 16
/-- IOBinaryFields.h:170 -/
abbrev GCRC_NB_PACKET : Nat := 8

/-- IOBinaryPrimitives.h:52 -/
abbrev VECTOR_AXIS_SIZE : Nat := 8

end Haptics
