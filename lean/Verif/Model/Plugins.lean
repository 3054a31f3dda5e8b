import Verif.Model.Archive
/-!
# Plugin libraries, item metadata and serialization handles (src/plugin/ClassLoader.cpp, src/serialization/Serialization.cpp,
src/items/ItemMetadata.cpp, src/plugin/Plugin.hpp)

Trusted (package plugin_manager, not in the repository): `getAvailableClasses`, `hasClassOfType` and `loadLibrary`.  A library that is
loaded for the first time runs its static initialisers, i.e. the registrations of its macros; loading it again does nothing;
opening a library either always works or never (`opens`).
-/

namespace Verif

/-- what a static initialiser registers: `MetadataInitializer` (ItemMetadata.hpp:76-85) or `SerializationRegistration`
(SerializationRegistration.hpp:102-111) -/
inductive Reg
  | metadata (t : TypeIdx) (cls embedded : String)
  | handle (cls : String) (h : Nat)
  deriving DecidableEq, Repr

/-- The plugins of the system: the item classes of the plugin descriptions, the library of each class, whether it can be opened, and what
it registers. -/
structure PlugEnv where
  items : List String
  lib : String → Nat
  opens : Nat → Bool
  regs : Nat → List Reg

/-- `ItemMetadataMapping::mapping` (className and embeddedTypename by type), the handle map, and the libraries loaded so far -/
structure Plug where
  mapping : AMap TypeIdx (String × String)
  handles : AMap String Nat
  loaded : List Nat
  deriving DecidableEq, Repr

namespace Plug

/-- `ItemMetadataMapping::addMapping` (ItemMetadata.cpp:38-45), `Serialization::registerHandle` (Serialization.cpp:104-108): both
overwrite. -/
def register (r : Reg) (s : Plug) : Plug :=
  match r with
  | .metadata t c e => { s with mapping := s.mapping.set t (c, e) }
  | .handle c h => { s with handles := s.handles.set c h }

/-- the registrations of a library -/
def registerAll (rs : List Reg) (s : Plug) : Plug := rs.foldl (fun s r => register r s) s

/-- `loadLibrary` (plugin_manager, trusted) -/
def loadLibrary (env : PlugEnv) (c : String) (s : Plug) : Bool × Plug :=
  if env.lib c ∈ s.loaded then (true, s)
  else if env.opens (env.lib c) then (true, { registerAll (env.regs (env.lib c)) s with loaded := s.loaded ++ [env.lib c] })
  else (false, s)

/-- `ClassLoader::hasEnvireItem` (ClassLoader.cpp:56-59) -/
def hasEnvireItem (env : PlugEnv) (c : String) : Bool := env.items.contains c

/-- `ClassLoader::loadEnvireItemLibrary` (ClassLoader.cpp:85-90) = `Serialization::loadPluginLibrary` (Serialization.cpp:128-139),
compiled with plugin support -/
def loadEnvireItemLibrary (env : PlugEnv) (c : String) (s : Plug) : Bool × Plug :=
  if hasEnvireItem env c then loadLibrary env c s else (false, s)

/-- the loop of `loadAllEnvireItemLibraries` (ClassLoader.cpp:95-103); `f`: load_fails -/
def loadLoop (env : PlugEnv) : List String → Bool → Plug → Bool × Plug
  | [], f, s => (f, s)
  | c :: cs, f, s =>
    let r := loadLibrary env c s
    if !r.1 then loadLoop env cs true r.2 else loadLoop env cs f r.2

/-- `ClassLoader::loadAllEnvireItemLibraries` (ClassLoader.cpp:92-105) = `Serialization::loadAllPluginLibraries`
(Serialization.cpp:141-150) -/
def loadAll (env : PlugEnv) (s : Plug) : Bool × Plug := loadLoop env env.items false s

/-- `Item::getClassName` (Item.hpp:180-188) by the type of the item -/
def className (s : Plug) (t : TypeIdx) : Option String := (s.mapping.get t).map Prod.fst
/-- `Item::getEmbeddedTypeName` (Item.hpp:190-198) -/
def embeddedTypeName (s : Plug) (t : TypeIdx) : Option String := (s.mapping.get t).map Prod.snd
/-- `ItemBase::getClassName()` (ItemBase.cpp:55-61) -/
def classNameOr (s : Plug) (t : TypeIdx) : String := (s.className t).getD "UnknownItem"
/-- `Serialization::hasHandle` (Serialization.cpp:110-114) -/
def hasHandle (s : Plug) (c : String) : Bool := (s.handles.get c).isSome
/-- `Serialization::getHandle` (Serialization.cpp:116-126) -/
def getHandle (s : Plug) (c : String) : Option Nat := s.handles.get c

/-- the second half of `Serialization::isSerializable` (Serialization.cpp:77-95) -/
def handleFor (env : PlugEnv) (c : String) (s : Plug) : Bool × Plug :=
  if s.hasHandle c then (true, s)
  else
    let r := loadEnvireItemLibrary env c s
    if !r.1 then (false, r.2)
    else if r.2.hasHandle c then (true, r.2) else (false, r.2)

/-- `Serialization::isSerializable` (Serialization.cpp:58-96) by the type of the item -/
def isSerializable (env : PlugEnv) (t : TypeIdx) (s : Plug) : Bool × Plug :=
  match s.className t with
  | some c => handleFor env c s
  | none =>
    let s1 := (loadAll env s).2
    match s1.className t with
    | none => (false, s1)
    | some c => handleFor env c s1

/-- `Serialization::save` (Serialization.hpp:62-87) up to the choice of the handle: the class name that is written to the header and the
handle that writes the item -/
def saveWith (env : PlugEnv) (t : TypeIdx) (s : Plug) : Option (String × Nat) × Plug :=
  let r := isSerializable env t s
  if r.1 then
    match r.2.className t with
    | none => (none, r.2)
    | some c =>
      match r.2.getHandle c with
      | none => (none, r.2)
      | some h => (some (c, h), r.2)
  else (none, r.2)

/-- `Serialization::load` (Serialization.hpp:97-134) up to the choice of the handle for the class name of the header -/
def loadWith (env : PlugEnv) (c : String) (s : Plug) : Option Nat × Plug :=
  if s.hasHandle c then (s.getHandle c, s)
  else
    let r := loadEnvireItemLibrary env c s
    if r.1 then
      if r.2.hasHandle c then (r.2.getHandle c, r.2) else (none, r.2)
    else (none, r.2)

/-- calls that can change the state -/
inductive Call | load (c : String) | all | serializable (t : TypeIdx) | save (t : TypeIdx) | read (c : String)
  deriving DecidableEq, Repr

/-- one call -/
def call (env : PlugEnv) : Call → Plug → Plug
  | .load c, s => (loadEnvireItemLibrary env c s).2
  | .all, s => (loadAll env s).2
  | .serializable t, s => (isSerializable env t s).2
  | .save t, s => (saveWith env t s).2
  | .read c, s => (loadWith env c s).2

/-- a history of calls -/
def calls (env : PlugEnv) : List Call → Plug → Plug
  | [], s => s
  | k :: ks, s => calls env ks (call env k s)

end Plug
end Verif
