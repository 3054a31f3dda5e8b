import Verif.Model.EnvireGraph
/-!
# Serialization (src/serialization/Serialization.hpp, src/items/Item.hpp, src/items/Frame.hpp, src/graph/Graph.hpp)

An archive is a list of tokens.  Reading a token of another kind than the one that was written means that the archive is read out
of step: the bytes are misinterpreted, and anything can happen (`.ub`).  Reading beyond the end throws
`boost::archive::archive_exception`, which is no `std::runtime_error`.

Trusted (not in the repository): Boost's serialization of pointers with object tracking, and the function of the package
boost_serialization that saves a `boost::directed_graph`: numbers of vertices and edges, the vertex properties in order, then
for each edge the positions of its ends and its property.  Plugin libraries are not modelled; whether a handle can be found in
the end is a parameter.
-/

namespace Verif

/-- what is written to an archive -/
inductive Tok (D E : Type)
  | size (n : Nat)
  | str (s : String)
  | time (t : Int)
  | uuid (u : Nat)
  | data (d : D)
  /-- pointer to an object that is not in the archive yet; its dynamic type -/
  | newPtr (t : TypeIdx)
  /-- pointer to the object that was saved as number `k` -/
  | oldPtr (k : Nat)
  | edge (p : E)
  deriving DecidableEq, Repr

/-- an item object with all its members: type and `SpatioTemporal` (SpatioTemporal.hpp:58-68) -/
structure SObj (D : Type) where
  type : TypeIdx
  time : Int
  uuid : Nat
  frame : FrameId
  data : D
  deriving DecidableEq, Repr

/-- the part that `EnvireGraph` uses -/
def SObj.item {D : Type} (o : SObj D) : ItemObj := ⟨o.type, o.frame⟩

/-- What the program knows about item classes: `getClassName` by type (Item.hpp:180-188) and whether there is a serialization
handle for a class name, after the attempt to load its plugin. -/
structure Registry where
  className : TypeIdx → Option String
  hasHandle : String → Bool

/-- `Serialization::isSerializable` (Serialization.cpp:58-96) by the type of the item -/
def Registry.serializable (R : Registry) (t : TypeIdx) : Bool :=
  match R.className t with
  | none => false
  | some c => R.hasHandle c

/-- an output archive: the tokens, and the objects saved through pointers so far -/
structure OArchive (D E : Type) where
  out : List (Tok D E)
  saved : List ItemId

/-- an input archive: the tokens left, and the objects created by pointers so far; a loaded item is a position in this list -/
structure IArchive (D E : Type) where
  toks : List (Tok D E)
  objs : List (SObj D)

namespace OArchive
variable {D E : Type}

/-- append tokens -/
def put (ts : List (Tok D E)) (w : OArchive D E) : OArchive D E := { w with out := w.out ++ ts }

/-- `Item::serialize` (Item.hpp:217-225), saving -/
def saveItem (o : SObj D) : List (Tok D E) := [.time o.time, .uuid o.uuid, .str o.frame, .data o.data]

/-- `ar << item` of a `boost::shared_ptr<ItemBase>` -/
def savePtr (heap : ItemId → SObj D) (i : ItemId) (w : OArchive D E) : OArchive D E :=
  if i ∈ w.saved then w.put [.oldPtr (w.saved.idxOf i)]
  else { w.put (.newPtr (heap i).type :: saveItem (heap i)) with saved := w.saved ++ [i] }

/-- `Serialization::save` (Serialization.hpp:63-88) -/
def save (R : Registry) (heap : ItemId → SObj D) (i : ItemId) (w : OArchive D E) : Bool × OArchive D E :=
  match R.className (heap i).type with
  | none => (false, w)
  | some c => if R.hasHandle c then (true, (w.put [.str c]).savePtr heap i) else (false, w)

/-- the list loop of `save(Archive&, const ItemMap&)` (Frame.hpp:197-211) -/
def saveList (R : Registry) (heap : ItemId → SObj D) : List ItemId → OArchive D E → Res (OArchive D E) Unit
  | [], w => .ok () w
  | i :: l, w =>
    let r := w.save R heap i
    if r.1 then saveList R heap l r.2 else .throw (.runtimeError "Failed to serialize an item") r.2

/-- the map loop (Frame.hpp:183-213) over the types that are saved -/
def saveTypes (R : Registry) (heap : ItemId → SObj D) : AMap TypeIdx (List ItemId) → OArchive D E → Res (OArchive D E) Unit
  | [], w => .ok () w
  | (_, l) :: m, w =>
    match saveList R heap l (w.put [.size l.length]) with
    | .ok _ w' => saveTypes R heap m w'
    | .throw x w' => .throw x w'
    | .ub r => .ub r

/-- `!list.empty() && isSerializable(list.front())` (Frame.hpp:168) -/
def savesList (R : Registry) (heap : ItemId → SObj D) (l : List ItemId) : Bool :=
  match l with
  | [] => false
  | i :: _ => R.serializable (heap i).type

/-- `save(Archive&, const ItemMap&)` (Frame.hpp:157-214), class version 1 -/
def saveMap (R : Registry) (heap : ItemId → SObj D) (m : AMap TypeIdx (List ItemId)) (w : OArchive D E) :
    Res (OArchive D E) Unit :=
  let ms := m.filter (fun p => savesList R heap p.2)
  saveTypes R heap ms (w.put [.size ms.length])

/-- `Frame::serialize` (Frame.hpp:139-145), saving -/
def saveFrame (R : Registry) (heap : ItemId → SObj D) (fr : EFrame) (w : OArchive D E) : Res (OArchive D E) Unit :=
  saveMap R heap fr.items (w.put [.str fr.id])

/-- the frames of a graph in order -/
def saveFrames (R : Registry) (heap : ItemId → SObj D) : List (VRec EFrame) → OArchive D E → Res (OArchive D E) Unit
  | [], w => .ok () w
  | r :: rs, w =>
    match saveFrame R heap r.prop w with
    | .ok _ w' => saveFrames R heap rs w'
    | .throw x w' => .throw x w'
    | .ub m => .ub m

/-- one edge: positions of the ends, property -/
def edgeToks (g : G EFrame E) (e : ERec E) : List (Tok D E) :=
  [.size ((g.verts.map VRec.id).idxOf e.src), .size ((g.verts.map VRec.id).idxOf e.tgt), .edge e.prop]

/-- `Graph::save` (Graph.hpp:1001-1006) of an `EnvireGraph` -/
def saveGraph (R : Registry) (heap : ItemId → SObj D) (g : G EFrame E) (w : OArchive D E) : Res (OArchive D E) Unit :=
  match saveFrames R heap g.verts (w.put [.size g.verts.length, .size g.edges.length]) with
  | .ok _ w' => .ok () (w'.put (g.edges.flatMap (edgeToks g)))
  | .throw x w' => .throw x w'
  | .ub m => .ub m

/-- a new archive -/
def new : OArchive D E := ⟨[], []⟩

end OArchive

namespace IArchive
variable {D E : Type}

/-- read one token with `f`; `none` = a token of another kind -/
def read {α : Type} (f : Tok D E → Option α) (a : IArchive D E) : Res (IArchive D E) α :=
  match a.toks with
  | [] => .throw (.runtimeError "archive_exception: input stream error") a
  | t :: ts =>
    match f t with
    | some x => .ok x { a with toks := ts }
    | none => .ub "archive out of step"

/-- statement after statement -/
def bind {α β : Type} (r : Res (IArchive D E) α) (f : α → IArchive D E → Res (IArchive D E) β) : Res (IArchive D E) β :=
  match r with
  | .ok x a => f x a
  | .throw x a => .throw x a
  | .ub m => .ub m

def size? : Tok D E → Option Nat | .size n => some n | _ => none
def str? : Tok D E → Option String | .str s => some s | _ => none
def time? : Tok D E → Option Int | .time t => some t | _ => none
def uuid? : Tok D E → Option Nat | .uuid u => some u | _ => none
def data? : Tok D E → Option D | .data d => some d | _ => none
def edge? : Tok D E → Option E | .edge p => some p | _ => none
/-- the type of a new object or the number of an old one -/
def ptr? : Tok D E → Option (TypeIdx ⊕ Nat) | .newPtr t => some (.inl t) | .oldPtr k => some (.inr k) | _ => none

/-- `Item::serialize` (Item.hpp:217-225), loading -/
def loadItem (t : TypeIdx) (a : IArchive D E) : Res (IArchive D E) (SObj D) :=
  bind (a.read time?) fun x a => bind (a.read uuid?) fun u a => bind (a.read str?) fun f a => bind (a.read data?) fun d a =>
    .ok ⟨t, x, u, f, d⟩ a

/-- `ar >> item` of a `boost::shared_ptr<ItemBase>` -/
def loadPtr (a : IArchive D E) : Res (IArchive D E) ItemId :=
  bind (a.read ptr?) fun p a =>
    match p with
    | .inr k => if k < a.objs.length then .ok k a else .ub "archive out of step"
    | .inl t => bind (loadItem t a) fun o a => .ok a.objs.length { a with objs := a.objs ++ [o] }

/-- `Serialization::load` (Serialization.hpp:97-136); `none` = the result is `false` -/
def load (H : String → Bool) (a : IArchive D E) : Res (IArchive D E) (Option ItemId) :=
  bind (a.read str?) fun c a =>
    if H c then bind (loadPtr a) fun i a => .ok (some i) a else .ok none a

/-- the list loop of `load(Archive&, ItemMap&)` (Frame.hpp:250-256) -/
def loadList (H : String → Bool) : Nat → IArchive D E → Res (IArchive D E) (List ItemId)
  | 0, a => .ok [] a
  | n + 1, a => bind (load H a) fun i a => bind (loadList H n a) fun l a => .ok (i.toList ++ l) a

/-- the type index of a loaded item -/
def typeOf (a : IArchive D E) (i : ItemId) : Option TypeIdx := (a.objs[i]?).map SObj.type

/-- the map loop (Frame.hpp:234-265); `m` is the map so far -/
def loadTypes (H : String → Bool) : Nat → AMap TypeIdx (List ItemId) → IArchive D E →
    Res (IArchive D E) (AMap TypeIdx (List ItemId))
  | 0, m, a => .ok m a
  | n + 1, m, a =>
    bind (a.read size?) fun k a => bind (loadList H k a) fun l a =>
      match l with
      | [] => loadTypes H n m a
      | i :: _ =>
        match a.typeOf i with
        | none => .ub "dangling item"
        | some t => loadTypes H n (m.insertNew t l) a

/-- `load(Archive&, ItemMap&)` (Frame.hpp:216-270) -/
def loadMap (H : String → Bool) (a : IArchive D E) : Res (IArchive D E) (AMap TypeIdx (List ItemId)) :=
  bind (a.read size?) fun n a => loadTypes H n [] a

/-- The same with the error message at the end (Frame.hpp:267-268): the number of types in it, `none` if nothing is logged. -/
def loadMapLog (H : String → Bool) (a : IArchive D E) : Res (IArchive D E) (AMap TypeIdx (List ItemId) × Option Nat) :=
  bind (a.read size?) fun n a => bind (loadTypes H n [] a) fun m a => .ok (m, if m.length < n then some (n - m.length) else none) a

/-- `Frame::serialize` (Frame.hpp:139-145), loading -/
def loadFrame (H : String → Bool) (a : IArchive D E) : Res (IArchive D E) EFrame :=
  bind (a.read str?) fun f a => bind (loadMap H a) fun m a => .ok ⟨f, m⟩ a

/-- `n` vertices; each is added to the unlabelled graph -/
def loadFrames (H : String → Bool) : Nat → G EFrame E → IArchive D E → Res (IArchive D E) (G EFrame E)
  | 0, g, a => .ok g a
  | n + 1, g, a => bind (loadFrame H a) fun fr a =>
    loadFrames H n { g with verts := g.verts ++ [⟨g.nextV, g.nextIdx, fr⟩], nextV := g.nextV + 1, nextIdx := g.nextIdx + 1 } a

/-- `n` edges between the vertices at the given positions -/
def loadEdges (vs : List VId) : Nat → G EFrame E → IArchive D E → Res (IArchive D E) (G EFrame E)
  | 0, g, a => .ok g a
  | n + 1, g, a => bind (a.read size?) fun u a => bind (a.read size?) fun v a => bind (a.read edge?) fun p a =>
    match vs[u]?, vs[v]? with
    | some u, some v => loadEdges vs n (g.addEdge u v p).1 a
    | _, _ => .ub "archive out of step"

/-- `Graph::load` (Graph.hpp:991-999) into an empty `EnvireGraph` -/
def loadGraph (H : String → Bool) (a : IArchive D E) : Res (IArchive D E) (G EFrame E) :=
  bind (a.read size?) fun n a => bind (a.read size?) fun m a =>
    bind (loadFrames H n G.empty a) fun g a => bind (loadEdges (g.verts.map VRec.id) m g a) fun g a =>
      .ok g.regenerateLabelMap a

/-- an archive to be read from the start -/
def new (ts : List (Tok D E)) : IArchive D E := ⟨ts, []⟩

end IArchive
end Verif
