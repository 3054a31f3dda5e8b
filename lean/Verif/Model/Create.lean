import Verif.Model.Plugins
/-!
# Items created by name (src/plugin/ClassLoader.cpp, ClassLoader.hpp, src/plugin/Plugin.hpp)

Trusted (package plugin_manager, not in the repository): `createInstance` makes an object of the given class if a plugin description
names the class, its library can be loaded and registers the class; `getAssociatedClassOfType` is a table from the plugin descriptions.
Singleton plugins are left out: every call makes a new object.

Trusted (boost serialization): a pointer is written with the name of the class of its object, and can be read iff this class was exported
in the process (`BOOST_CLASS_EXPORT`, part of `ENVIRE_REGISTER_SERIALIZATION`); otherwise `archive_exception` is thrown, which is not a
`std::runtime_error` and is not caught by `Serialization::save/load` (Serialization.hpp:62-134).  The data of the items is left out here;
see `Model/Archive.lean`.
-/

namespace Verif

/-- one use of a registration macro in a library (Plugin.hpp:42-45 `ENVIRE_REGISTER_ITEM`, 90-93 `ENVIRE_REGISTER_PLUGIN2`, 86-88
`ENVIRE_REGISTER_PLUGIN1`); `t` is the type `Item<DataType>`, which is what `getTypeInfo` of the objects returns (Item.hpp:200-203) -/
inductive Macro
  | item (datatype : String) (t : TypeIdx)
  | plugin (cls datatype : String) (t : TypeIdx)
  | plugin1 (cls : String) (t : TypeIdx)
  deriving DecidableEq, Repr

/-- `"envire::core::Item" + "<" + embedded_type + ">"` (ClassLoader.cpp:73, ClassLoader.hpp:53), also the class name that
`ENVIRE_REGISTER_ITEM` registers -/
def itemClass (e : String) : String := "envire::core::Item" ++ "<" ++ e ++ ">"

/-- the class that is exported -/
def Macro.cls : Macro → String
  | .item d _ => itemClass d
  | .plugin c _ _ => c
  | .plugin1 c _ => c

/-- the type that the objects of the class report -/
def Macro.type : Macro → TypeIdx
  | .item _ t => t
  | .plugin _ _ t => t
  | .plugin1 _ t => t

/-- what the static initialisers of the macro register; all handles do the same (SerializationRegistration.hpp:53-81) -/
def Macro.regs : Macro → List Reg
  | .item d t => [.handle (itemClass d) 0, .metadata t (itemClass d) d]
  | .plugin c d t => [.handle c 0, .metadata t c d]
  | .plugin1 c _ => [.handle c 0]

/-- The plugins of the system: item classes of the plugin descriptions, their libraries, which can be opened, the macros in them, and the
associated item and collision classes of the descriptions. -/
structure Libs where
  items : List String
  lib : String → Nat
  opens : Nat → Bool
  macros : Nat → List Macro
  assoc : String → Option String
  collision : String → Option String

/-- the registrations -/
def Libs.env (L : Libs) : PlugEnv := ⟨L.items, L.lib, L.opens, fun l => (L.macros l).flatMap Macro.regs⟩

/-- an object: its class and the type it reports -/
structure PlugObj where
  cls : String
  type : TypeIdx
  deriving DecidableEq, Repr

/-- the class in a list of macros -/
def findClass (ms : List Macro) (c : String) : Option PlugObj := (ms.find? (fun m => m.cls = c)).map (fun m => ⟨m.cls, m.type⟩)

namespace Libs

/-- `ClassLoader::createEnvireItem` (ClassLoader.cpp:66-69) = `PluginLoader::createInstance` (trusted); `none`: false is returned -/
def createEnvireItem (L : Libs) (c : String) (s : Plug) : Option PlugObj × Plug :=
  if L.env.items.contains c then
    let r := Plug.loadLibrary L.env c s
    if r.1 then (findClass (L.macros (L.lib c)) c, r.2) else (none, r.2)
  else (none, s)

/-- result of the version with a down cast -/
inductive Cast | got (o : PlugObj) | no | downCastException
  deriving DecidableEq, Repr

/-- `ClassLoader::createEnvireItem<InheritedClass>` (ClassLoader.hpp:160-164) for the class `Item<T>` with the type `t` -/
def createEnvireItemAs (L : Libs) (t : TypeIdx) (c : String) (s : Plug) : Cast × Plug :=
  match L.createEnvireItem c s with
  | (none, s) => (.no, s)
  | (some o, s) => if o.type = t then (.got o, s) else (.downCastException, s)

/-- `ClassLoader::createEnvireItemFor` (ClassLoader.cpp:71-83) -/
def createEnvireItemFor (L : Libs) (e : String) (s : Plug) : Option PlugObj × Plug :=
  match L.createEnvireItem (itemClass e) s with
  | (some o, s) => (some o, s)
  | (none, s) =>
    match L.assoc e with
    | some c => L.createEnvireItem c s
    | none => (none, s)

/-- `ClassLoader::createCollisionObjectFor(class_name)` (ClassLoader.hpp:166-175): the class of the object -/
def createCollisionFor (L : Libs) (c : String) : Option String := L.collision c

/-- `ClassLoader::createCollisionObjectFor(item)` (ClassLoader.hpp:177-184) -/
def createCollisionForItem (L : Libs) (o : PlugObj) (s : Plug) : Option String :=
  match s.className o.type with
  | some c => L.createCollisionFor c
  | none => none

/-- the classes that boost knows in a process -/
def exported (L : Libs) (s : Plug) (c : String) : Option PlugObj := findClass (s.loaded.flatMap L.macros) c

/-- results of `save` and `load` -/
inductive Saved | wrote (header cls : String) | no | archiveException
  deriving DecidableEq, Repr
inductive Loaded | got (o : PlugObj) | no | archiveException
  deriving DecidableEq, Repr

/-- `Serialization::save` (Serialization.hpp:62-87): header with the class name, then the handle writes the pointer -/
def save (L : Libs) (o : PlugObj) (s : Plug) : Saved × Plug :=
  match Plug.saveWith L.env o.type s with
  | (none, s) => (.no, s)
  | (some (c, _), s) => if (L.exported s o.cls).isSome then (.wrote c o.cls, s) else (.archiveException, s)

/-- `Serialization::load` (Serialization.hpp:97-134) -/
def load (L : Libs) (header cls : String) (s : Plug) : Loaded × Plug :=
  match Plug.loadWith L.env header s with
  | (none, s) => (.no, s)
  | (some _, s) =>
    match L.exported s cls with
    | some o => (.got o, s)
    | none => (.archiveException, s)

/-- calls of a process -/
inductive Op
  | plug (k : Plug.Call) | create (c : String) | createFor (e : String) | save (o : PlugObj) | load (header cls : String)
  deriving DecidableEq, Repr

/-- one call -/
def op (L : Libs) : Op → Plug → Plug
  | .plug k, s => Plug.call L.env k s
  | .create c, s => (L.createEnvireItem c s).2
  | .createFor e, s => (L.createEnvireItemFor e s).2
  | .save o, s => (L.save o s).2
  | .load h c, s => (L.load h c s).2

/-- the state of a process after some calls -/
def ops (L : Libs) : List Op → Plug → Plug
  | [], s => s
  | k :: ks, s => ops L ks (op L k s)

/-- a new process -/
def fresh : Plug := ⟨[], [], []⟩

end Libs
end Verif
