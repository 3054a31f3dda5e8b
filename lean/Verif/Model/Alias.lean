import Verif.Model.EnvireGraph
/-!
# Frame names passed by reference

`removeFrame`, `clearFrame`, `addItemToFrame` and `removeItemFromFrame` take a `const FrameId&` (Graph.hpp:507, EnvireGraph.cpp:118, 127,
209, EnvireGraph.hpp:372).  Here the argument is a reference that is read again wherever the code reads it, because it may refer to a
string inside the graph (`getFrameId(vertex)`, Graph.hpp:467-473) or inside an item (`item->getFrame()`, Item.hpp:155).  In
`Verif.Model.EnvireGraph` the argument is a value.
-/

namespace Verif

/-- what a `const FrameId&` refers to -/
inductive NameRef
  /-- a string of the caller -/
  | own (f : FrameId)
  /-- `getFrameId(v)`: the string inside the vertex -/
  | vertex (v : VId)
  /-- `item->getFrame()`: the string inside the item -/
  | item (i : ItemId)
  deriving DecidableEq, Repr

namespace EG
variable {E : Type} [EdgeProp E]

/-- Read the string; `none` if it does not exist any more.  An item exists as long as the program outside of the graph holds a pointer
(`held`), a frame contains it, or the running function has a pointer (`tmp`). -/
def readRef (held : ItemId → Bool) (tmp : Option ItemId) : NameRef → EG E → Option FrameId
  | .own f, _ => some f
  | .vertex v, s => (s.gs.g.findV v).map (fun r => FrameProp.getId r.prop)
  | .item i, s =>
    if held i = true ∨ tmp = some i ∨ ∃ r ∈ s.gs.g.verts, ∃ p ∈ r.prop.items, i ∈ p.2 then some (s.heap i).frame else none

/-- inner loop of `clearFrame` (EnvireGraph.cpp:135-140); `removedItem` keeps the item until the end of the iteration -/
def clearListR (held : ItemId → Bool) (ref : NameRef) (v : VId) (t : TypeIdx) : List ItemId → EG E → Res (EG E) Unit
  | [], s => .ok () s
  | i :: l, s =>
    let s1 := modFrame v (EFrame.setList t l) s
    match readRef held (some i) ref s1 with
    | none => .ub "clearFrame: dangling reference"
    | some f => clearListR held ref v t l (notify (.itemRemoved f i) s1)

/-- outer loop of `clearFrame` (EnvireGraph.cpp:132-142) -/
def clearTypesR (held : ItemId → Bool) (ref : NameRef) (v : VId) : AMap TypeIdx (List ItemId) → EG E → Res (EG E) Unit
  | [], s => .ok () s
  | (t, l) :: m, s =>
    match clearListR held ref v t l s with
    | .ok _ s1 => clearTypesR held ref v m (modFrame v (EFrame.eraseType t) s1)
    | .throw x s1 => .throw x s1
    | .ub r => .ub r

/-- `EnvireGraph::clearFrame` (EnvireGraph.cpp:127-143) -/
def clearFrameR (held : ItemId → Bool) (ref : NameRef) (s : EG E) : Res (EG E) Unit :=
  match readRef held none ref s with
  | none => .ub "clearFrame: dangling reference"
  | some f =>
    match s.gs.g.vertexOf f with
    | none => .throw (.unknownFrame f) s
    | some v =>
      match s.gs.g.findV v with
      | none => .ub "operator[]: dangling descriptor"
      | some r => clearTypesR held ref v r.prop.items s

/-- `Graph::removeFrame` (Graph.hpp:506-524): the name is read for `getVertex`, and again after `remove_vertex` for `_map.find` and for
the event -/
def baseRemoveFrameR (held : ItemId → Bool) (ref : NameRef) (s : EG E) : Res (EG E) Unit :=
  match readRef held none ref s with
  | none => .ub "removeFrame: dangling reference"
  | some f =>
    match s.gs.g.vertexOf f with
    | none => .throw (.unknownFrame f) s
    | some v =>
      if s.gs.g.degree v > 0 then .throw (.frameStillConnected f) s
      else
        let s1 : EG E := { s with gs := { s.gs with g := { s.gs.g with verts := s.gs.g.verts.filter (fun r => r.id ≠ v) } } }
        match readRef held none ref s1 with
        | none => .ub "removeFrame: dangling reference"
        | some f' => .ok () (notify (.frameRemoved f') { s1 with gs := { s1.gs with g := { s1.gs.g with labels := s1.gs.g.labels.erase f' } } })

/-- `EnvireGraph::removeFrame` (EnvireGraph.cpp:209-214) -/
def removeFrameR (held : ItemId → Bool) (ref : NameRef) (s : EG E) : Res (EG E) Unit :=
  match clearFrameR held ref s with
  | .ok _ s' => baseRemoveFrameR held ref s'
  | .throw x s' => .throw x s'
  | .ub r => .ub r

/-- `EnvireGraph::addItemToFrame` (EnvireGraph.cpp:118-125).  The item is a pointer of the caller.  `setFrame` assigns the referenced
string to the member of the item, which may be the same string. -/
def addItemToFrameR (held : ItemId → Bool) (ref : NameRef) (i : ItemId) (s : EG E) : Res (EG E) Unit :=
  match readRef held (some i) ref s with
  | none => .ub "addItemToFrame: dangling reference"
  | some f =>
    match s.gs.g.vertexOf f with
    | none => .throw (.unknownFrame f) s
    | some v =>
      let s1 := modFrame v (EFrame.push (s.heap i).type i) s
      match readRef held (some i) ref s1 with
      | none => .ub "addItemToFrame: dangling reference"
      | some f1 =>
        let s2 := setItemFrame i f1 s1
        match readRef held (some i) ref s2 with
        | none => .ub "addItemToFrame: dangling reference"
        | some f2 => .ok () (notify (.itemAdded f2 i) s2)

/-- `EnvireGraph::removeItemFromFrame<T>(FrameId, ItemIterator<T>)` (EnvireGraph.hpp:370-410); `deletedItem` keeps the item until the
end.  The name is read for the event after `deletedItem->setFrame("")`. -/
def removeItemAtR (held : ItemId → Bool) (ref : NameRef) (it : ItemIt) (s : EG E) : Res (EG E) (List ItemId) :=
  match readRef held none ref s with
  | none => .ub "removeItemFromFrame: dangling reference"
  | some f =>
    match s.gs.g.vertexOf f with
    | none => .throw (.unknownFrame f) s
    | some v =>
      match (listOf it.frame it.type s).bind (fun l => l[it.pos]?) with
      | none => .ub "removeItemFromFrame: invalid iterator"
      | some i =>
        if (s.heap i).frame ≠ f then .ub "removeItemFromFrame: assert"
        else
          match listOf f it.type s with
          | none => .throw (.noItemsOfType f) s
          | some l =>
            if it.frame ≠ f then .ub "removeItemFromFrame: iterators of different lists"
            else
              let l' := l.eraseIdx it.pos
              let s1 := setItemFrame i "" (modFrame v (EFrame.setList it.type l') s)
              match readRef held (some i) ref s1 with
              | none => .ub "removeItemFromFrame: dangling reference"
              | some f' =>
                let s2 := notify (.itemRemoved f' i) s1
                let rest := l'.drop it.pos
                let s3 := if rest = [] then modFrame v (EFrame.eraseType it.type) s2 else s2
                .ok rest s3

end EG
end Verif
