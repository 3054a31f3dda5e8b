import Verif.Model.Graph
/-!
# Assigning one graph to another

`Graph`, `TransformGraph` and `EnvireGraph` declare no assignment, so `b = a` is the implicit one: it assigns the base classes and
`subscribedTreeViews`.  `boost::labeled_graph::operator=` assigns the members `_graph` and `_map`.  The first makes new vertices and
edges in `b`.  The second copies the map from names to vertex descriptors, which are pointers to the vertices of `a` (`listS`,
Graph.hpp:391-394).  Only the copy constructor (Graph.hpp:402-418) makes the map anew.

Modelled: the state after `b = a`, reads and `setEdgeProperty` by name on `b`, and all calls on `a`.  Left out: calls that add or
remove frames or edges on `b`; the copied publisher (C105); the copied list of tree views.
-/

namespace Verif

/-- `a`, and `b` after `b = a`.  `verts`, `edges`: the copies that `b` stores; the id of a vertex is its position.  `labels`: the map
of `b`; its vertices are those of `a`. -/
structure AG (F E : Type) where
  a : GS F E
  alive : Bool
  verts : List (VRec F)
  edges : List (ERec E)
  labels : AMap FrameId VId

/-- what a program does after the assignment -/
inductive AssignOp (F E : Type)
  /-- a call on `a` -/
  | onA (c : GS.Cmd F E)
  /-- `b.setEdgeProperty(o, t, p)` -/
  | setB (o t : FrameId) (p : E)
  /-- the lifetime of `a` ends -/
  | destroyA

namespace AG
variable {F E : Type} [FrameProp F] [EdgeProp E]

/-- `adj_list_impl::copy_impl`: the new vertex for `v`, found in a map from old to new vertices -/
def newVertex (l : List (VRec F)) (v : VId) : Option Nat := l.findIdx? (fun r => r.id = v)

/-- the edge loop of `adj_list_impl::copy_impl`; `none`: an end point that is no vertex of the graph -/
def copyEdges (l : List (VRec F)) : Nat → List (ERec E) → Option (List (ERec E))
  | _, [] => some []
  | n, e :: es =>
    match newVertex l e.src, newVertex l e.tgt, copyEdges l (n + 1) es with
    | some u, some v, some es' => some (⟨n, u, v, e.prop⟩ :: es')
    | _, _, _ => none

/-- the vertex loop of `adj_list_impl::copy_impl`: the property with the vertex index is copied -/
def copyVerts : Nat → List (VRec F) → List (VRec F)
  | _, [] => []
  | n, r :: rs => ⟨n, r.idx, r.prop⟩ :: copyVerts (n + 1) rs

/-- `b = a` with the implicit assignment -/
def assign (s : GS F E) : Option (AG F E) :=
  match copyEdges s.g.verts 0 s.g.edges with
  | none => none
  | some es => some ⟨s, true, copyVerts 0 s.g.verts, es, s.g.labels⟩

/-- the storage behind a descriptor of `b`'s map -/
def target (w : AG F E) (v : VId) : Option (VRec F) := if w.alive then w.a.g.findV v else none

/-- `b.containsFrame(f)` (Graph.hpp:1022-1027) -/
def containsFrame (f : FrameId) (w : AG F E) : Bool := (w.labels.get f).isSome

/-- `b.getFrameProperty(f)` (Graph.hpp:928-933) -/
def getFrameProperty (f : FrameId) (w : AG F E) : Res (AG F E) F :=
  match w.labels.get f with
  | none => .throw (.unknownFrame f) w
  | some v =>
    match w.target v with
    | none => .ub "dangling descriptor"
    | some r => .ok r.prop w

/-- the part that all functions with two names have in common: `getVertex` twice (Graph.hpp:475-484), then the vertices are used -/
def withBoth {α : Type} (o t : FrameId) (k : VId → VId → AG F E → Res (AG F E) α) (w : AG F E) : Res (AG F E) α :=
  match w.labels.get o with
  | none => .throw (.unknownFrame o) w
  | some vo =>
    match w.labels.get t with
    | none => .throw (.unknownFrame t) w
    | some vt =>
      match w.target vo, w.target vt with
      | some _, some _ => k vo vt w
      | _, _ => .ub "dangling descriptor"

/-- `b.containsEdge(o, t)` (Graph.hpp:1047-1058): `boost::edge` walks through the out-edges stored in the vertex -/
def containsEdge (o t : FrameId) : AG F E → Res (AG F E) Bool :=
  withBoth o t fun vo vt w => .ok (w.a.g.edge vo vt).isSome w

/-- `b.getEdgeProperty(o, t)` (Graph.hpp:446-465, 852-870) -/
def getEdgeProperty (o t : FrameId) : AG F E → Res (AG F E) E :=
  withBoth o t fun vo vt w =>
    match w.a.g.edge vo vt with
    | none => .throw (.unknownEdge o t) w
    | some e => .ok e.prop w

/-- `b.setEdgeProperty(o, t, p)` (Graph.hpp:873-901); the event goes to the subscribers of `b` -/
def setEdgeProperty (o t : FrameId) (p : E) : AG F E → Res (AG F E) Unit :=
  withBoth o t fun vo vt w =>
    match w.a.g.edge vo vt with
    | none => .throw (.unknownEdge o t) w
    | some e1 =>
      let g1 := w.a.g.setProp e1.id p
      match g1.edge vt vo with
      | none => .ub "setEdgeProperty: assert"
      | some e2 => .ok () { w with a := { w.a with g := g1.setProp e2.id (EdgeProp.inverse p) } }

/-- one operation -/
def step : AssignOp F E → AG F E → Res (AG F E) Unit
  | .onA c, w =>
    if w.alive then
      match GS.exec c w.a with
      | .ok _ s => .ok () { w with a := s }
      | .throw x s => .throw x { w with a := s }
      | .ub m => .ub m
    else .ub "call on a destroyed graph"
  | .setB o t p, w => setEdgeProperty o t p w
  | .destroyA, w => if w.alive then .ok () { w with alive := false } else .ub "destroyed twice"

/-- a program after the assignment; exceptions are caught, `none` = undefined behaviour -/
def run : List (AssignOp F E) → AG F E → Option (AG F E)
  | [], w => some w
  | c :: cs, w =>
    match step c w with
    | .ok _ w' => run cs w'
    | .throw _ w' => run cs w'
    | .ub _ => none

end AG
end Verif
