/-
Effect semantic keywords: /repo/source/Types/include/EffectSemantic.h (enum values substituted).
-/
namespace Haptics

/-- EffectSemantic.h:123-201 `stringToEffectSemantic`, with the enum values of lines 41-121. -/
def stringToEffectSemantic : List (String × Nat) :=
  [("UX/Undefined", 0), ("UX/Click", 1), ("UX/DoubleClick", 2), ("UX/Success", 3), ("UX/Error", 4),
   ("UX/Alarm", 5), ("UX/Confirmatioon", 6), ("UX/Wrong", 7), ("UX/Ring", 8), ("UX/Message", 9),
   ("Avatar/Undefined", 256), ("Avatar/Jumping", 257), ("Avatar/Fall", 258), ("Avatar/Crawl", 259),
   ("Avatar/Swim", 260), ("Avatar/Collision", 261), ("Avatar/Grab", 262), ("Avatar/Touch", 263),
   ("Avatar/Swip", 264), ("Avatar/Footstep", 265), ("SpecialFX/Undefined", 512),
   ("SpecialFX/Washout", 513), ("SpecialFX/Noise", 514), ("WeaponCombat/Undefined", 768),
   ("WeaponCombat/Blade", 769), ("WeaponCombat/Hit", 770), ("WeaponCombat/HandThrown", 771),
   ("WeaponCombat/ElasticPropulsion", 772), ("WeaponCombat/Pneumatic", 773),
   ("WeaponCombat/Handgun", 774), ("WeaponCombat/Rifle", 775), ("WeaponCombat/Shotgun", 776),
   ("WeaponCombat/Gun", 777), ("WeaponCombat/Machinegun", 778), ("WeaponCombat/Taser", 779),
   ("WeaponCombat/ElectricShock", 780), ("WeaponCombat/Mine", 781), ("WeaponCombat/Missile", 782),
   ("WeaponCombat/Grenade", 783), ("WeaponCombat/Blast", 784), ("Ambient/Undefined", 1024),
   ("Ambient/Wind", 1025), ("Ambient/Heat", 1026), ("Ambient/Cold", 1027), ("Ambient/Rain", 1028),
   ("Ambient/Waterfall", 1029), ("Ambient/WaterDrop", 1030), ("Ambient/ElectricBuzz", 1031),
   ("Ambient/Ignition", 1032), ("Ambient/Cracks", 1033), ("Ambient/Earthquack", 1034),
   ("Ambient/Sparks", 1035), ("Ambient/Thunderbolt", 1036), ("Texture/Undefined", 1280),
   ("Texture/Rock", 1281), ("Texture/Gravel", 1282), ("Texture/Sand", 1283),
   ("Texture/Wood", 1284), ("Texture/Metal", 1285), ("Texture/Plastic", 1286),
   ("Vehicle/Undefined", 1536), ("Vehicle/Engine", 1537), ("Vehicle/Doors", 1538),
   ("Vehicle/Brake", 1539), ("Vehicle/MechanicalContraption", 1540), ("Vehicle/Drift", 1541),
   ("Vehicle/RoadFriction", 1542), ("Vehicle/RoadBump", 1543), ("Vehicle/Tires", 1544),
   ("Vehicle/AirFriction", 1545), ("Music/Undefined", 1792), ("Music/HardMaterial", 1793),
   ("Music/BouncyMaterial", 1794), ("Music/Pucking", 1795), ("Music/Bowing", 1796),
   ("Music/Striking", 1797), ("Music/BrassInstrument", 1798), ("Music/WoodWindInstrument", 1799)]

/-- EffectSemantic.h:203-281 `effectSemanticToString`. -/
def effectSemanticToString : List (Nat × String) :=
  [(0, "UX/Undefined"), (1, "UX/Click"), (2, "UX/DoubleClick"), (3, "UX/Success"), (4, "UX/Error"),
   (5, "UX/Alarm"), (6, "UX/Confirmatioon"), (7, "UX/Wrong"), (8, "UX/Ring"), (9, "UX/Message"),
   (256, "Avatar/Undefined"), (257, "Avatar/Jumping"), (258, "Avatar/Fall"), (259, "Avatar/Crawl"),
   (260, "Avatar/Swim"), (261, "Avatar/Collision"), (262, "Avatar/Grab"), (263, "Avatar/Touch"),
   (264, "Avatar/Swip"), (265, "Avatar/Footstep"), (512, "SpecialFX/Undefined"),
   (513, "SpecialFX/Washout"), (514, "SpecialFX/Noise"), (768, "WeaponCombat/Undefined"),
   (769, "WeaponCombat/Blade"), (770, "WeaponCombat/Hit"), (771, "WeaponCombat/HandThrown"),
   (772, "WeaponCombat/ElasticPropulsion"), (773, "WeaponCombat/Pneumatic"),
   (774, "WeaponCombat/Handgun"), (775, "WeaponCombat/Rifle"), (776, "WeaponCombat/Shotgun"),
   (777, "WeaponCombat/Gun"), (778, "WeaponCombat/Machinegun"), (779, "WeaponCombat/Taser"),
   (780, "WeaponCombat/ElectricShock"), (781, "WeaponCombat/Mine"), (782, "WeaponCombat/Missile"),
   (783, "WeaponCombat/Grenade"), (784, "WeaponCombat/Blast"), (1024, "Ambient/Undefined"),
   (1025, "Ambient/Wind"), (1026, "Ambient/Heat"), (1027, "Ambient/Cold"), (1028, "Ambient/Rain"),
   (1029, "Ambient/Waterfall"), (1030, "Ambient/WaterDrop"), (1031, "Ambient/ElectricBuzz"),
   (1032, "Ambient/Ignition"), (1033, "Ambient/Cracks"), (1034, "Ambient/Earthquack"),
   (1035, "Ambient/Sparks"), (1036, "Ambient/Thunderbolt"), (1280, "Texture/Undefined"),
   (1281, "Texture/Rock"), (1282, "Texture/Gravel"), (1283, "Texture/Sand"),
   (1284, "Texture/Wood"), (1285, "Texture/Metal"), (1286, "Texture/Plastic"),
   (1536, "Vehicle/Undefined"), (1537, "Vehicle/Engine"), (1538, "Vehicle/Doors"),
   (1539, "Vehicle/Brake"), (1540, "Vehicle/MechanicalContraption"), (1541, "Vehicle/Drift"),
   (1542, "Vehicle/RoadFriction"), (1543, "Vehicle/RoadBump"), (1544, "Vehicle/Tires"),
   (1545, "Vehicle/AirFriction"), (1792, "Music/Undefined"), (1793, "Music/HardMaterial"),
   (1794, "Music/BouncyMaterial"), (1795, "Music/Pucking"), (1796, "Music/Bowing"),
   (1797, "Music/Striking"), (1798, "Music/BrassInstrument"), (1799, "Music/WoodWindInstrument")]

/-- `stringToEffectSemantic.at(s)`; throws when absent. -/
def semanticCode (s : String) : Option Nat := stringToEffectSemantic.lookup s

/-- `effectSemanticToString.at(c)`; throws when absent. -/
def semanticName (c : Nat) : Option String := effectSemanticToString.lookup c

end Haptics
