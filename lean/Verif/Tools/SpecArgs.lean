import Verif.Types.Model

/-! What is expected of command lines. -/

namespace Haptics.Args
open Haptics

/-- An option as it is given: its name and, when it takes one, its value. -/
structure Item where
  name : Str
  value : Option Str

/-- The words of an option. -/
def Item.words (i : Item) : List Str := i.name :: i.value.toList

/-- A command line. -/
def commandLine (program : Str) (items : List Item) : List Str := program :: items.flatMap Item.words

/-- No option is given twice, and neither the name of the program nor a value is the name of an option (`names`). -/
structure Plain (names : List Str) (program : Str) (items : List Item) : Prop where
  known : ∀ i ∈ items, i.name ∈ names
  distinct : (items.map Item.name).Nodup
  program : program ∉ names
  values : ∀ i ∈ items, ∀ v, i.value = some v → v ∉ names

end Haptics.Args
