import Verif.Json.Conformance

/-! The names of enumerations in `.hjif` files: the maps of `Types/include`.  A `std::map` is the list of its
entries; the entries of each map have different keys. -/

namespace Haptics.Json
open Haptics

/-- Perception.h:63-80. -/
def stringToPerceptionModality : List (Str × Nat) :=
  [(lit "Other", 0),
   (lit "Pressure", 1),
   (lit "Acceleration", 2),
   (lit "Velocity", 3),
   (lit "Position", 4),
   (lit "Temperature", 5),
   (lit "Vibration", 6),
   (lit "Vibrotactile", 6),
   (lit "Water", 7),
   (lit "Wind", 8),
   (lit "Kinesthetic", 9),
   (lit "Force", 9),
   (lit "Vibrotactile Texture", 10),
   (lit "Texture", 10),
   (lit "Stiffness", 11),
   (lit "Friction", 12),
   (lit "Electrotactile", 13)]

/-- Perception.h:81-95. -/
def perceptionModalityToString : List (Nat × Str) :=
  [(0, lit "Other"),
   (1, lit "Pressure"),
   (2, lit "Acceleration"),
   (3, lit "Velocity"),
   (4, lit "Position"),
   (5, lit "Temperature"),
   (6, lit "Vibrotactile"),
   (7, lit "Water"),
   (8, lit "Wind"),
   (9, lit "Force"),
   (10, lit "Vibrotactile Texture"),
   (11, lit "Stiffness"),
   (12, lit "Friction"),
   (13, lit "Electrotactile")]

/-- Avatar.h:49-53. -/
def stringToAvatarType : List (Str × Nat) :=
  [(lit "Vibration", 1),
   (lit "Pressure", 2),
   (lit "Temperature", 3),
   (lit "Custom", 0)]

/-- Avatar.h:54-58. -/
def avatarTypeToString : List (Nat × Str) :=
  [(1, lit "Vibration"),
   (2, lit "Pressure"),
   (3, lit "Temperature"),
   (0, lit "Custom")]

/-- ReferenceDevice.h:45-50. -/
def stringToActuatorType : List (Str × Nat) :=
  [(lit "Unknown", 0),
   (lit "LRA", 1),
   (lit "VCA", 2),
   (lit "ERM", 3),
   (lit "Piezo", 4)]

/-- ReferenceDevice.h:51-56. -/
def actuatorTypeToString : List (Nat × Str) :=
  [(0, lit "Unknown"),
   (1, lit "LRA"),
   (2, lit "VCA"),
   (3, lit "ERM"),
   (4, lit "Piezo")]

/-- Effect.h:53-58. -/
def stringToBaseSignal : List (Str × Nat) :=
  [(lit "Sine", 0),
   (lit "Square", 1),
   (lit "Triangle", 2),
   (lit "SawToothUp", 3),
   (lit "SawToothDown", 4)]

/-- Effect.h:59-64. -/
def baseSignalToString : List (Nat × Str) :=
  [(0, lit "Sine"),
   (1, lit "Square"),
   (2, lit "Triangle"),
   (3, lit "SawToothUp"),
   (4, lit "SawToothDown")]

/-- Effect.h:66-69. -/
def stringToEffectType : List (Str × Nat) :=
  [(lit "Basis", 0),
   (lit "Reference", 1),
   (lit "Composite", 2)]

/-- Effect.h:71-74. -/
def effectTypeToString : List (Nat × Str) :=
  [(0, lit "Basis"),
   (1, lit "Reference"),
   (2, lit "Composite")]

/-- BandType.h:49-53. -/
def stringToBandType : List (Str × Nat) :=
  [(lit "WaveletWave", 3),
   (lit "VectorialWave", 2),
   (lit "Curve", 1),
   (lit "Transient", 0)]

/-- BandType.h:54-58. -/
def bandTypeToString : List (Nat × Str) :=
  [(3, lit "WaveletWave"),
   (2, lit "VectorialWave"),
   (1, lit "Curve"),
   (0, lit "Transient")]

/-- CurveType.h:51-54. -/
def stringToCurveType : List (Str × Nat) :=
  [(lit "Unknown", 0),
   (lit "Cubic", 1),
   (lit "Linear", 2),
   (lit "Akima", 3),
   (lit "Bezier", 4),
   (lit "Bspline", 5)]

/-- CurveType.h:55-58. -/
def curveTypeToString : List (Nat × Str) :=
  [(0, lit "Unknown"),
   (1, lit "Cubic"),
   (2, lit "Linear"),
   (3, lit "Akima"),
   (4, lit "Bezier"),
   (5, lit "Bspline")]

/-- BodyPartTarget.h:92-132. -/
def stringToBodyPartTarget : List (Str × Nat) :=
  [(lit "Unknown", 0),
   (lit "All", 1),
   (lit "Top", 10),
   (lit "Down", 11),
   (lit "Right", 12),
   (lit "Left", 13),
   (lit "Front", 14),
   (lit "Back", 15),
   (lit "Arm", 20),
   (lit "Head", 21),
   (lit "Chest", 22),
   (lit "Waist", 23),
   (lit "Leg", 24),
   (lit "Upper-arm", 30),
   (lit "Forearm", 31),
   (lit "Hand", 32),
   (lit "Crane", 33),
   (lit "Neck", 34),
   (lit "Thigh", 35),
   (lit "Calf", 36),
   (lit "Foot", 37),
   (lit "Palm", 40),
   (lit "Finger", 41),
   (lit "Sole", 42),
   (lit "Toe", 43),
   (lit "Thumb", 50),
   (lit "Index", 51),
   (lit "Middle", 52),
   (lit "Ring", 53),
   (lit "Pinky", 54),
   (lit "Hallux", 55),
   (lit "Index-toe", 56),
   (lit "Middle-toe", 57),
   (lit "Ring-toe", 58),
   (lit "Pinky-toe", 59),
   (lit "First Phalanx", 60),
   (lit "Second Phalanx", 61),
   (lit "Third Phalanx", 62),
   (lit "Minus", 254),
   (lit "Plus", 255)]

/-- BodyPartTarget.h:133-173. -/
def bodyPartTargetToString : List (Nat × Str) :=
  [(0, lit "Unknown"),
   (1, lit "All"),
   (10, lit "Top"),
   (11, lit "Down"),
   (12, lit "Right"),
   (13, lit "Left"),
   (14, lit "Front"),
   (15, lit "Back"),
   (20, lit "Arm"),
   (21, lit "Head"),
   (22, lit "Chest"),
   (23, lit "Waist"),
   (24, lit "Leg"),
   (30, lit "Upper-arm"),
   (31, lit "Forearm"),
   (32, lit "Hand"),
   (33, lit "Crane"),
   (34, lit "Neck"),
   (35, lit "Thigh"),
   (36, lit "Calf"),
   (37, lit "Foot"),
   (40, lit "Palm"),
   (41, lit "Finger"),
   (42, lit "Sole"),
   (43, lit "Toe"),
   (50, lit "Thumb"),
   (51, lit "Index"),
   (52, lit "Middle"),
   (53, lit "Ring"),
   (54, lit "Pinky"),
   (55, lit "Hallux"),
   (56, lit "Index-toe"),
   (57, lit "Middle-toe"),
   (58, lit "Ring-toe"),
   (59, lit "Pinky-toe"),
   (60, lit "First Phalanx"),
   (61, lit "Second Phalanx"),
   (62, lit "Third Phalanx"),
   (254, lit "Minus"),
   (255, lit "Plus")]

end Haptics.Json
