import Verif.Tools.Ohm

/-! Sizes of the parts of OHM files (C119). -/

namespace Haptics.Ohm

/-- The bytes of an element: a name of 64, a description of 32, a number of 2, and for each channel a description of 32, a gain of 4 and a mask of 4. -/
def elementSize (e : ElementInfo) : Nat := 64 + 32 + 2 + e.channels.length * (32 + 4 + 4)

/-- The bytes up to the end of the first `j` elements; before them are the header of 4, the version of 2, the number of elements of 2 and the description of 32. -/
def sizeUpTo (d : Data) (j : Nat) : Nat := 4 + 2 + 2 + 32 + ((d.elements.take j).map elementSize).sum

/-- An element of which nothing is known. -/
def emptyElement : ElementInfo := { filename := [], description := [], numChannels := 0, channels := [] }

end Haptics.Ohm
