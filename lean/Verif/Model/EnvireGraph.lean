import Verif.Model.Copy
/-!
# `EnvireGraph` (src/graph/EnvireGraph.hpp, src/graph/EnvireGraph.cpp) and `Frame` (src/items/Frame.hpp)

Items are pointers (numbers) into a heap of item objects.  Only the members that `EnvireGraph` uses are kept: the type index,
which never changes, and the frame name.  The edge property is arbitrary; in C++ it is `Transform`.
-/

namespace Verif

/-- `envire::core::Frame` (Frame.hpp:52-60): the name and the items by type -/
structure EFrame where
  id : FrameId
  items : AMap TypeIdx (List ItemId)
  deriving DecidableEq, Repr

/-- Frame.hpp:64-81 -/
instance : FrameProp EFrame where
  dflt := ⟨"envire::core::default_frame_id", []⟩
  setId f p := { p with id := f }
  getId p := p.id
  getId_setId _ _ := rfl

namespace EFrame

/-- `items[t].push_back(i)`: creates the list if there is none -/
def push (t : TypeIdx) (i : ItemId) (fr : EFrame) : EFrame :=
  { fr with items := fr.items.set t ((fr.items.get t).getD [] ++ [i]) }

/-- `items[t] = l` for an existing entry: what erasing from the list behind a reference does -/
def setList (t : TypeIdx) (l : List ItemId) (fr : EFrame) : EFrame := { fr with items := fr.items.set t l }

/-- `items.erase(t)` -/
def eraseType (t : TypeIdx) (fr : EFrame) : EFrame := { fr with items := fr.items.erase t }

/-- `Frame::calculateTotalItemCount` (Frame.hpp:83-91) -/
def totalItemCount (fr : EFrame) : Nat := fr.items.foldl (fun n p => n + p.2.length) 0

/-- `Frame::getItemTypes` (Frame.hpp:111-119) -/
def itemTypes (fr : EFrame) : List TypeIdx := fr.items.keys

/-- The items in the order in which `Frame::visitItems` (Frame.hpp:123-134) visits them. -/
def visit (fr : EFrame) : List ItemId := fr.items.flatMap (fun p => p.2)

end EFrame

/-- An item object: result of `getTypeIndex()` and the member behind `getFrame()`/`setFrame()` (Item.hpp:151-158, 200-203). -/
structure ItemObj where
  type : TypeIdx
  frame : FrameId
  deriving DecidableEq, Repr

/-- `graph[v]` modified in place -/
def G.modV {F E : Type} (g : G F E) (v : VId) (h : F → F) : G F E :=
  { g with verts := g.verts.map (fun r => if r.id = v then { r with prop := h r.prop } else r) }

/-- An `EnvireGraph` together with all item objects of the program. -/
structure EG (E : Type) where
  gs : GS EFrame E
  heap : ItemId → ItemObj

/-- `ItemIterator<T>` (EnvireGraph.hpp:66-68): a position in the list of one type of one frame of the graph -/
structure ItemIt where
  frame : FrameId
  type : TypeIdx
  pos : Nat
  deriving DecidableEq, Repr

namespace EG
variable {E : Type} [EdgeProp E]

/-- an empty graph in a program with the given items -/
def init (heap : ItemId → ItemObj) : EG E := ⟨GS.init, heap⟩

/-- `notify(event)` -/
def notify (ev : Event) (s : EG E) : EG E := { s with gs := GS.notify ev s.gs }

/-- change one frame property in place -/
def modFrame (v : VId) (h : EFrame → EFrame) (s : EG E) : EG E := { s with gs := { s.gs with g := s.gs.g.modV v h } }

/-- `item->setFrame(f)` (Item.hpp:151) -/
def setItemFrame (i : ItemId) (f : FrameId) (s : EG E) : EG E :=
  { s with heap := fun j => if j = i then { s.heap j with frame := f } else s.heap j }

/-- a call of the base class; it does not touch the items -/
def base {α : Type} (heap : ItemId → ItemObj) : Res (GS EFrame E) α → Res (EG E) α
  | .ok a s => .ok a ⟨s, heap⟩
  | .throw x s => .throw x ⟨s, heap⟩
  | .ub r => .ub r

/-- `EnvireGraph::addItemToFrame` (EnvireGraph.cpp:118-125) -/
def addItemToFrame (f : FrameId) (i : ItemId) (s : EG E) : Res (EG E) Unit :=
  match s.gs.g.vertexOf f with
  | none => .throw (.unknownFrame f) s
  | some v => .ok () (notify (.itemAdded f i) (setItemFrame i f (modFrame v (EFrame.push (s.heap i).type i) s)))

/-- `EnvireGraph::addItem` (EnvireGraph.cpp:113-116) -/
def addItem (i : ItemId) (s : EG E) : Res (EG E) Unit := addItemToFrame (s.heap i).frame i s

/-- inner loop of `clearFrame` (EnvireGraph.cpp:135-140): the items of type `t` -/
def clearList (f : FrameId) (v : VId) (t : TypeIdx) : List ItemId → EG E → EG E
  | [], s => s
  | i :: l, s => clearList f v t l (notify (.itemRemoved f i) (modFrame v (EFrame.setList t l) s))

/-- outer loop of `clearFrame` (EnvireGraph.cpp:132-142) -/
def clearTypes (f : FrameId) (v : VId) : AMap TypeIdx (List ItemId) → EG E → EG E
  | [], s => s
  | (t, l) :: m, s => clearTypes f v m (modFrame v (EFrame.eraseType t) (clearList f v t l s))

/-- `EnvireGraph::clearFrame` (EnvireGraph.cpp:127-143).  The frame names of the items stay. -/
def clearFrame (f : FrameId) (s : EG E) : Res (EG E) Unit :=
  match s.gs.g.vertexOf f with
  | none => .throw (.unknownFrame f) s
  | some v =>
    match s.gs.g.findV v with
    | none => .ub "operator[]: dangling descriptor"
    | some r => .ok () (clearTypes f v r.prop.items s)

/-- `EnvireGraph::removeFrame` (EnvireGraph.cpp:209-214) -/
def removeFrame (f : FrameId) (s : EG E) : Res (EG E) Unit :=
  match clearFrame f s with
  | .ok _ s' => base s'.heap (GS.removeFrame f s'.gs)
  | .throw x s' => .throw x s'
  | .ub r => .ub r

/-- `for(frame : frames) call(frame)`; stops at the first exception -/
def forFrames (call : FrameId → EG E → Res (EG E) Unit) : List FrameId → EG E → Res (EG E) Unit
  | [], s => .ok () s
  | f :: fs, s =>
    match call f s with
    | .ok _ s' => forFrames call fs s'
    | .throw x s' => .throw x s'
    | .ub r => .ub r

/-- `EnvireGraph::clear` (EnvireGraph.cpp:216-241) -/
def clear (s : EG E) : Res (EG E) Unit :=
  let frames := s.gs.g.verts.map (fun r => FrameProp.getId r.prop)
  match forFrames (fun f s => base s.heap (GS.disconnectFrame f s.gs)) frames s with
  | .ok _ s' => forFrames removeFrame frames s'
  | .throw x s' => .throw x s'
  | .ub r => .ub r

/-- `EnvireGraph::removeItemFromFrame(ItemBase::Ptr)` (EnvireGraph.cpp:244-271) -/
def removeItem (i : ItemId) (s : EG E) : Res (EG E) Unit :=
  let f := (s.heap i).frame
  let t := (s.heap i).type
  match s.gs.g.vertexOf f with
  | none => .throw (.unknownFrame f) s
  | some v =>
    match s.gs.g.findV v with
    | none => .ub "operator[]: dangling descriptor"
    | some r =>
      match r.prop.items.get t with
      | none => .throw (.noItemsOfType f) s
      | some l =>
        if i ∈ l then
          let s1 := setItemFrame i "" (modFrame v (EFrame.setList t (l.erase i)) s)
          let s2 := if (l.erase i).length = 0 then modFrame v (EFrame.eraseType t) s1 else s1
          .ok () (notify (.itemRemoved f i) s2)
        else .throw .unknownItem s

/-- The list of items an iterator runs over; `none` if there is none. -/
def listOf (f : FrameId) (t : TypeIdx) (s : EG E) : Option (List ItemId) :=
  (s.gs.g.vertexOf f).bind fun v => (s.gs.g.findV v).bind fun r => r.prop.items.get t

/-- `EnvireGraph::removeItemFromFrame<T>(FrameId, ItemIterator<T>)` (EnvireGraph.hpp:370-410).  Returns the range of the two
iterators as a list.  `(*this)[frameId]` is the vertex of the frame.  An iterator that does not point to an element, or that
belongs to the list of another frame, is undefined behaviour. -/
def removeItemAt (f : FrameId) (it : ItemIt) (s : EG E) : Res (EG E) (List ItemId) :=
  match s.gs.g.vertexOf f with
  | none => .throw (.unknownFrame f) s
  | some v =>
    match (listOf it.frame it.type s).bind (fun l => l[it.pos]?) with
    | none => .ub "removeItemFromFrame: invalid iterator"
    | some i =>
      if (s.heap i).frame ≠ f then .ub "removeItemFromFrame: assert"
      else
        match listOf f it.type s with
        | none => .throw (.noItemsOfType f) s
        | some l =>
          if it.frame ≠ f then .ub "removeItemFromFrame: iterators of different lists"
          else
            let l' := l.eraseIdx it.pos
            let s1 := setItemFrame i "" (modFrame v (EFrame.setList it.type l') s)
            let s2 := notify (.itemRemoved f i) s1
            let rest := l'.drop it.pos
            let s3 := if rest = [] then modFrame v (EFrame.eraseType it.type) s2 else s2
            .ok rest s3

/-- `EnvireGraph::getItems(FrameId, type_index)` (EnvireGraph.cpp:190-207) -/
def getItems (f : FrameId) (t : TypeIdx) (s : EG E) : Res (EG E) (List ItemId) :=
  match s.gs.g.vertexOf f with
  | none => .throw (.unknownFrame f) s
  | some v =>
    match s.gs.g.findV v with
    | none => .ub "operator[]: dangling descriptor"
    | some r =>
      match r.prop.items.get t with
      | none => .throw (.noItemsOfType f) s
      | some l => .ok l s

/-- `EnvireGraph::getItems<T>(FrameId)` (EnvireGraph.hpp:283-335); the two invalid iterators are the empty range. -/
def getItemsT (f : FrameId) (t : TypeIdx) (s : EG E) : Res (EG E) (List ItemId) :=
  match s.gs.g.vertexOf f with
  | none => .throw (.unknownFrame f) s
  | some v =>
    match s.gs.g.findV v with
    | none => .ub "operator[]: dangling descriptor"
    | some r =>
      match r.prop.items.get t with
      | none => .ok [] s
      | some l => if l = [] then .ub "getItemsInternal: assert" else .ok l s

/-- `EnvireGraph::getItem<T>(FrameId, int)` (EnvireGraph.hpp:337-368) -/
def getItem (f : FrameId) (t : TypeIdx) (k : Int) (s : EG E) : Res (EG E) ItemId :=
  match s.gs.g.vertexOf f with
  | none => .throw (.unknownFrame f) s
  | some v =>
    if k < 0 then .throw .outOfRange s
    else
      match s.gs.g.findV v with
      | none => .ub "operator[]: dangling descriptor"
      | some r =>
        match r.prop.items.get t with
        | none => .throw (.noItemsOfType f) s
        | some l =>
          if l.length = 0 then .ub "getItem: assert"
          else
            match l[k.toNat]? with
            | none => .throw .outOfRange s
            | some i => .ok i s

/-- The read-only calls that look up the frame and then read its property. -/
def readFrame {α : Type} (f : FrameId) (h : EFrame → α) (s : EG E) : Res (EG E) α :=
  match s.gs.g.vertexOf f with
  | none => .throw (.unknownFrame f) s
  | some v =>
    match s.gs.g.findV v with
    | none => .ub "operator[]: dangling descriptor"
    | some r => .ok (h r.prop) s

/-- `EnvireGraph::containsItems(FrameId, type_index)` and `containsItems<T>` (EnvireGraph.cpp:145-157, EnvireGraph.hpp:412-426) -/
def containsItems (f : FrameId) (t : TypeIdx) (s : EG E) : Res (EG E) Bool :=
  readFrame f (fun fr => (fr.items.get t).isSome) s

/-- `EnvireGraph::getItemCount<T>` (EnvireGraph.hpp:428-451) -/
def getItemCount (f : FrameId) (t : TypeIdx) (s : EG E) : Res (EG E) Nat :=
  readFrame f (fun fr => match fr.items.get t with
    | none => 0
    | some l => l.length) s

/-- `EnvireGraph::getTotalItemCount` (EnvireGraph.cpp:167-176) -/
def getTotalItemCount (f : FrameId) (s : EG E) : Res (EG E) Nat := readFrame f EFrame.totalItemCount s

/-- `EnvireGraph::getItemTypes` (EnvireGraph.cpp:178-188) -/
def getItemTypes (f : FrameId) (s : EG E) : Res (EG E) (List TypeIdx) := readFrame f EFrame.itemTypes s

/-- the items that `EnvireGraph::visitItems` (EnvireGraph.hpp:297-303) passes to the function, in order -/
def visitItems (f : FrameId) (s : EG E) : Res (EG E) (List ItemId) := readFrame f EFrame.visit s

/-- `EnvireGraph::publishCurrentState` (EnvireGraph.cpp:273-291) -/
def publishCurrentState (s : EG E) : Option (List Event) :=
  match GS.publishCurrentState s.gs with
  | none => none
  | some evs => some (evs ++ s.gs.g.verts.flatMap (fun r => r.prop.visit.map (fun i => .itemAdded r.prop.id i)))

/-- `EnvireGraph::unpublishCurrentState` (EnvireGraph.cpp:293-311) -/
def unpublishCurrentState (s : EG E) : Option (List Event) :=
  match GS.unpublishCurrentState s.gs with
  | none => none
  | some evs => some (s.gs.g.verts.flatMap (fun r => r.prop.visit.map (fun i => .itemRemoved r.prop.id i)) ++ evs)

/-- Copy constructor (EnvireGraph.cpp:39-54); the item lists hold pointers, so the items are shared. -/
def copy (s : EG E) : Option (EG E) := (GS.copy s.gs).map (fun g => ⟨g, s.heap⟩)

/-- One frame in the filtering constructor (EnvireGraph.cpp:84-106). -/
def filterFrame (list : List TypeIdx) (inclusive : Bool) (fr : EFrame) : EFrame :=
  { fr with items := fr.items.filter (fun p => if inclusive then decide (p.1 ∈ list) else !decide (p.1 ∈ list)) }

/-- Filtering constructor (EnvireGraph.cpp:57-110); `none` is the null pointer. -/
def filterCopy (list : Option (List TypeIdx)) (inclusive : Bool) (s : EG E) : Option (EG E) :=
  match s.copy with
  | none => none
  | some c =>
    match list with
    | none => some c
    | some l =>
      some { c with gs := { c.gs with g := { c.gs.g with
        verts := c.gs.g.verts.map (fun r => { r with prop := filterFrame l inclusive r.prop }) } } }

/-- vertex loop of `createStructuralCopy` (EnvireGraph.cpp:338-344); the state is the destination -/
def copyFrames : List (VRec EFrame) → EG E → Res (EG E) Unit
  | [], d => .ok () d
  | r :: rs, d =>
    match GS.addFrame (FrameProp.getId r.prop) d.gs with
    | .ok _ d' => copyFrames rs ⟨d', d.heap⟩
    | .throw x d' => .throw x ⟨d', d.heap⟩
    | .ub m => .ub m

/-- edge loop of `createStructuralCopy` (EnvireGraph.cpp:346-364).  `getTransform(src, tar)` finds the edge itself
(TransformGraph.hpp:94-110), so it returns the property of `edge(src, tar)`. -/
def copyEdges (g : G EFrame E) : List (ERec E) → EG E → Res (EG E) Unit
  | [], d => .ok () d
  | e :: es, d =>
    match g.findV e.src, g.findV e.tgt, g.edge e.src e.tgt with
    | some rs, some rt, some e' =>
      match GS.addEdge (FrameProp.getId rs.prop) (FrameProp.getId rt.prop) e'.prop d.gs with
      | .ok _ d' => copyEdges g es ⟨d', d.heap⟩
      | .throw (.edgeAlreadyExists _ _) d' => copyEdges g es ⟨d', d.heap⟩
      | .throw x d' => .throw x ⟨d', d.heap⟩
      | .ub m => .ub m
    | _, _, _ => .ub "createStructuralCopy: dangling descriptor"

/-- `EnvireGraph::createStructuralCopy` (EnvireGraph.cpp:334-365) of the graph `g` into `d` -/
def createStructuralCopy (g : G EFrame E) (d : EG E) : Res (EG E) Unit :=
  match copyFrames g.verts d with
  | .ok _ d' => copyEdges g g.edges d'
  | .throw x d' => .throw x d'
  | .ub m => .ub m

/-- The calls that change an `EnvireGraph` or the frame name of an item.  `graph (.removeFrame f)` is the override of
`EnvireGraph`. -/
inductive Cmd (E : Type)
  | graph (c : GS.Cmd EFrame E)
  | addItem (i : ItemId)
  | addItemToFrame (f : FrameId) (i : ItemId)
  | removeItem (i : ItemId)
  | removeItemAt (f : FrameId) (it : ItemIt)
  | clearFrame (f : FrameId)
  | clear
  | setItemFrame (i : ItemId) (f : FrameId)

/-- execute one call -/
def exec : Cmd E → EG E → Res (EG E) Unit
  | .graph (.removeFrame f), s => removeFrame f s
  | .graph c, s => base s.heap (GS.exec c s.gs)
  | .addItem i, s => addItem i s
  | .addItemToFrame f i, s => addItemToFrame f i s
  | .removeItem i, s => removeItem i s
  | .removeItemAt f it, s => GS.discard (removeItemAt f it s)
  | .clearFrame f, s => clearFrame f s
  | .clear, s => clear s
  | .setItemFrame i f, s => .ok () (setItemFrame i f s)

/-- A history; the caller catches every exception.  `none` = undefined behaviour. -/
def run : List (Cmd E) → EG E → Option (EG E)
  | [], s => some s
  | c :: cs, s =>
    match exec c s with
    | .ok _ s' => run cs s'
    | .throw _ s' => run cs s'
    | .ub _ => none

/-- the same, with the exception of each call -/
def outcomes : List (Cmd E) → EG E → Option (List (Option Exn) × EG E)
  | [], s => some ([], s)
  | c :: cs, s =>
    match exec c s with
    | .ok _ s' => (outcomes cs s').map (fun r => (none :: r.1, r.2))
    | .throw x s' => (outcomes cs s').map (fun r => (some x :: r.1, r.2))
    | .ub _ => none

end EG
end Verif
