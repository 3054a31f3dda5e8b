import Verif.Model.Basic
import Verif.Model.AMap
/-!
# Utilities: type names (src/util/Demangle.cpp), graph manager (src/util/EnvireManager.cpp), item metadata
(src/items/ItemMetadata.cpp)

Strings are lists of characters where their content matters.
-/

namespace Verif

/-- `boost::replace_all_copy(input, search, format)` (trusted, Boost string algorithms): goes through the input from the left; where
`search` starts, it is replaced and the search goes on behind it.  `fuel` is at least the length of the input.  An empty `search`
changes nothing. -/
def replaceAll (search format : List Char) : Nat → List Char → List Char
  | 0, s => s
  | _, [] => []
  | n + 1, c :: s =>
    if search ≠ [] ∧ search.isPrefixOf (c :: s) then format ++ replaceAll search format n ((c :: s).drop search.length)
    else c :: replaceAll search format n s

/-- `escapeAngleBraces` (src/util/Demangle.cpp:54-60) -/
def escapeAngleBraces (input : List Char) : List Char :=
  let a := replaceAll ['<'] ['\\', '<'] input.length input
  let b := replaceAll ['>'] ['\\', '>'] a.length a
  b

/-- `EnvireManager::graphs` (src/util/EnvireManager.hpp:36) and the address that the next `new` gives (trusted: `new` never returns
an address in use; the map keeps all graphs alive).  A null pointer is `none`. -/
structure Manager where
  graphs : AMap String (Option Nat)
  fresh : Nat
  deriving DecidableEq, Repr

namespace Manager

/-- the static member at program start (src/util/EnvireManager.cpp:17) -/
def init : Manager := ⟨[], 0⟩

/-- `EnvireManager::getInstance` (src/util/EnvireManager.cpp:27-35); `graphs[name]` inserts a null pointer for a new name. -/
def getInstance (name : String) (m : Manager) : Option Nat × Manager :=
  let m := { m with graphs := m.graphs.insertNew name none }
  match (m.graphs.get name).getD none with
  | some p => (some p, m)
  | none => (some m.fresh, ⟨m.graphs.set name (some m.fresh), m.fresh + 1⟩)

/-- several calls; the returned pointers -/
def calls : List String → Manager → List (Option Nat) × Manager
  | [], m => ([], m)
  | n :: ns, m => let (p, m) := getInstance n m; let (ps, m) := calls ns m; (p :: ps, m)

end Manager

/-- `ItemMetadata` (src/items/ItemMetadata.hpp:38-47) -/
structure ItemMetadata where
  className : String
  embeddedTypename : String
  deriving DecidableEq, Repr

/-- `ItemMetadataMapping::mapping` (src/items/ItemMetadata.hpp:68-70).  The mutex is not modelled: one thread. -/
abbrev MetaMap := AMap TypeIdx ItemMetadata

namespace MetaMap

/-- `addMapping` (src/items/ItemMetadata.cpp:38-45), called by `MetadataInitializer` (src/items/ItemMetadata.hpp:76-85) -/
def addMapping (t : TypeIdx) (d : ItemMetadata) (m : MetaMap) : MetaMap := m.set t d

/-- `MetadataInitializer(type, embeddedTypename, className)` (src/items/ItemMetadata.hpp:76-85) -/
def initializer (t : TypeIdx) (embeddedTypename className : String) (m : MetaMap) : MetaMap :=
  addMapping t ⟨className, embeddedTypename⟩ m

/-- `getMetadata` (src/items/ItemMetadata.cpp:47-54); `at` throws `std::out_of_range`.  The returned reference is modelled as the
value at that moment. -/
def getMetadata (t : TypeIdx) (m : MetaMap) : Res MetaMap ItemMetadata :=
  match m.get t with
  | none => .throw .outOfRange m
  | some d => .ok d m

/-- `containsMetadata` (src/items/ItemMetadata.cpp:56-61) -/
def containsMetadata (t : TypeIdx) (m : MetaMap) : Bool := (m.get t).isSome

end MetaMap
end Verif
