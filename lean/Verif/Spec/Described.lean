import Verif.Model.Create
/-! # Specification: plugin descriptions that fit the libraries -/

namespace Verif

/-- The plugin descriptions are right: the library of each class can be opened and registers the class with one of the macros; a class is
the same one in all libraries. -/
structure Libs.Described (L : Libs) : Prop where
  opens : ∀ c ∈ L.items, L.opens (L.lib c) = true
  has : ∀ c ∈ L.items, ∃ m ∈ L.macros (L.lib c), m.cls = c
  same : ∀ l l' m m', m ∈ L.macros l → m' ∈ L.macros l' → m.cls = m'.cls → m.type = m'.type

/-- the data type that the macro is used with; `none` for the old macro without one -/
def Macro.datatype : Macro → Option String
  | .item d _ => some d
  | .plugin _ d _ => some d
  | .plugin1 _ _ => none

/-- The class is the only one that is registered for its type, and always with its data type. -/
structure Libs.Sole (L : Libs) (c : String) : Prop where
  named : ∀ l, ∀ m ∈ L.macros l, m.cls = c → m.datatype ≠ none
  only : ∀ l l' m m', m ∈ L.macros l → m' ∈ L.macros l' → m.cls = c → m.type = m'.type → m'.cls = c

end Verif
