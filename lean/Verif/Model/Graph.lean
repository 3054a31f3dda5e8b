import Verif.Model.TreeView
/-!
# `envire::core::Graph<F,E>` (src/graph/Graph.hpp)

State: the Boost graph, the list of subscribed tree views (pointers), the heap of tree view objects, and the trace of
published events.  Each trace entry carries a snapshot of the Boost graph at the moment of the notification, because
that is what an event handler can look at.  Subscribers are passive (DESIGN.md 1.3).
-/

namespace Verif

/-- A `Graph<F,E>` object together with the tree view objects that exist in the program. -/
structure GS (F E : Type) where
  g : G F E
  subs : List Nat
  views : Nat → TreeView
  trace : List (Event × G F E)

namespace GS
variable {F E : Type} [FrameProp F] [EdgeProp E]

/-- A freshly constructed graph and no views. -/
def init : GS F E := ⟨G.empty, [], fun _ => TreeView.empty, []⟩

/-- `notify(event)` (src/events/GraphEventPublisher.cpp:76-103) for passive subscribers. -/
def notify (ev : Event) (s : GS F E) : GS F E := { s with trace := s.trace ++ [(ev, s.g)] }

/-- write a view object -/
def setView (views : Nat → TreeView) (p : Nat) (w : TreeView) : Nat → TreeView := fun q => if q = p then w else views q

/-- `Graph::add_vertex` (Graph.hpp:437-444) -/
def addVertexN (f : FrameId) (p : F) (s : GS F E) : GS F E × VId :=
  let r := s.g.addVertex f p
  (notify (.frameAdded f) { s with g := r.1 }, r.2)

/-- `Graph::addFrame` (Graph.hpp:420-435) -/
def addFrame (f : FrameId) (s : GS F E) : Res (GS F E) VId :=
  match s.g.vertexOf f with
  | none =>
    let r := addVertexN f (FrameProp.setId f FrameProp.dflt) s
    .ok r.2 r.1
  | some _ => .throw (.frameAlreadyExists f) s

/-- `Graph::emplaceFrame` (Graph.hpp:909-926); `p` is the frame property constructed from the arguments. -/
def emplaceFrame (f : FrameId) (p : F) (s : GS F E) : Res (GS F E) VId :=
  match s.g.vertexOf f with
  | none =>
    let r := addVertexN f (FrameProp.setId f p) s
    .ok r.2 r.1
  | some _ => .throw (.frameAlreadyExists f) s

/-- `Graph::getFrameId` (Graph.hpp:467-473); a descriptor that does not belong to the graph is undefined behaviour. -/
def getFrameId (v : Option VId) (s : GS F E) : Res (GS F E) FrameId :=
  match v with
  | none => .throw .nullVertex s
  | some v =>
    match s.g.findV v with
    | none => .ub "getFrameId: dangling descriptor"
    | some r => .ok (FrameProp.getId r.prop) s

/-- `Graph::getVertex` (Graph.hpp:475-484) -/
def getVertex (f : FrameId) (s : GS F E) : Res (GS F E) VId :=
  match s.g.vertexOf f with
  | none => .throw (.unknownFrame f) s
  | some v => .ok v s

/-- `Graph::containsFrame` (Graph.hpp:1022-1027) -/
def containsFrame (f : FrameId) (s : GS F E) : Bool := (s.g.vertexOf f).isSome

/-- `Graph::getFrameProperty` (Graph.hpp:928-933) -/
def getFrameProperty (f : FrameId) (s : GS F E) : Res (GS F E) F :=
  match s.g.vertexOf f with
  | none => .throw (.unknownFrame f) s
  | some v =>
    match s.g.findV v with
    | none => .ub "getFrameProperty: dangling descriptor"
    | some r => .ok r.prop s

/-- `Graph::getEdge(FrameId, FrameId)` with `Graph::getEdge(vertex_descriptor, vertex_descriptor)` (Graph.hpp:446-465). The
origin is looked up first.  The exception carries the frame names of the descriptors, which are the arguments. -/
def getEdge (o t : FrameId) (s : GS F E) : Res (GS F E) (ERec E) :=
  match s.g.vertexOf o with
  | none => .throw (.unknownFrame o) s
  | some vo =>
    match s.g.vertexOf t with
    | none => .throw (.unknownFrame t) s
    | some vt =>
      match s.g.edge vo vt with
      | none => .throw (.unknownEdge o t) s
      | some e => .ok e s

/-- `Graph::getEdgeProperty(FrameId, FrameId)` (Graph.hpp:852-870) -/
def getEdgeProperty (o t : FrameId) (s : GS F E) : Res (GS F E) E :=
  match getEdge o t s with
  | .ok e s' => .ok e.prop s'
  | .throw x s' => .throw x s'
  | .ub r => .ub r

/-- `Graph::containsEdge(FrameId, FrameId)` (Graph.hpp:1047-1058).  The evaluation order of the two `getVertex` calls is
unspecified in C++; here the origin comes first. -/
def containsEdge (o t : FrameId) (s : GS F E) : Res (GS F E) Bool :=
  match s.g.vertexOf o with
  | none => .throw (.unknownFrame o) s
  | some vo =>
    match s.g.vertexOf t with
    | none => .throw (.unknownFrame t) s
    | some vt => .ok (s.g.edge vo vt).isSome s

/-- `Graph::getVertices` (Graph.hpp:1015-1020) -/
def getVertices (s : GS F E) : List VId := s.g.verts.map VRec.id

/-- `Graph::getEdges` (Graph.hpp:1040-1045) -/
def getEdges (s : GS F E) : List (ERec E) := s.g.edges

/-- `Graph::num_vertices` (Graph.hpp:840-844) -/
def numVertices (s : GS F E) : Nat := s.g.verts.length

/-- `Graph::num_edges` (Graph.hpp:846-850) -/
def numEdges (s : GS F E) : Nat := s.g.edges.length

/-- `Graph::breadthFirstSearch` (Graph.hpp:1075-1095) on the whole graph -/
def searchEvents (g : G F E) (root : VId) : Option (List BfsEv) :=
  bfs g.outArcs (g.verts.length + 1) root

/-- `Graph::breadthFirstSearch` on a `boost::filtered_graph` that hides two edges (`EdgeFilter`, GraphVisitors.hpp:146-158) -/
def searchEventsFiltered (g : G F E) (e1 e2 : EId) (root : VId) : Option (List BfsEv) :=
  bfs (fun u => (g.outArcs u).filter (fun a => a.id ≠ e1 ∧ a.id ≠ e2)) (g.verts.length + 1) root

/-- `Graph::addEdgeToTreeView` (Graph.hpp:740-828) -/
def addEdgeToTreeView (g : G F E) (e : ERec E) (w : TreeView) : Res TreeView Unit :=
  let srcIn := w.vertexExists e.src
  let tarIn := w.vertexExists e.tgt
  if srcIn && tarIn then
    match w.edgeExists e.src e.tgt with
    | none => .ub "edgeExists: assert"
    | some true => .ok () w
    | some false => .ok () (w.addCrossEdge e.src e.tgt e.id)
  else if srcIn then attach e.src e.tgt
  else if tarIn then attach e.tgt e.src
  else .ok () w
where
  /-- Graph.hpp:793-827 -/
  attach (inView notInView : VId) : Res TreeView Unit :=
    let w1 := w.addEdge inView notInView
    if g.degree notInView > 2 then
      match g.edge inView notInView, g.edge notInView inView with
      | some e1, some e2 =>
        match searchEventsFiltered g e1.id e2.id notInView with
        | none => .ub "breadthFirstSearch: endless loop"
        | some evs => .ok () (w1.build evs)
      | _, _ => .throw (.unknownEdge "" "") w1
    else .ok () w1

/-- `Graph::addEdgeToTreeViews` (Graph.hpp:731-738) -/
def addEdgeToTreeViews (g : G F E) (e : ERec E) : List Nat → (Nat → TreeView) → Res (Nat → TreeView) Unit
  | [], vs => .ok () vs
  | p :: ps, vs =>
    match addEdgeToTreeView g e (vs p) with
    | .ok _ w => addEdgeToTreeViews g e ps (setView vs p w)
    | .throw x w => .throw x (setView vs p w)
    | .ub r => .ub r

/-- `Graph::removeEdgeFromTreeViews` (Graph.hpp:721-729) -/
def removeEdgeFromTreeViews (o t : VId) : List Nat → (Nat → TreeView) → Res (Nat → TreeView) Unit
  | [], vs => .ok () vs
  | p :: ps, vs =>
    match (vs p).edgeExists o t with
    | none => .ub "edgeExists: assert"
    | some false => removeEdgeFromTreeViews o t ps vs
    | some true =>
      match (vs p).removeEdge o t with
      | .ok _ w => removeEdgeFromTreeViews o t ps (setView vs p w)
      | .throw x w => .throw x (setView vs p w)
      | .ub r => .ub r

/-- `Graph::add_edge(vertex_descriptor, vertex_descriptor, E)` (Graph.hpp:630-657).  Descriptors that do not belong to the
graph are undefined behaviour. -/
def addEdgeD (o t : VId) (p : E) (s : GS F E) : Res (GS F E) Unit :=
  match s.g.findV o, s.g.findV t with
  | some ro, some rt =>
    match s.g.edge o t with
    | some _ => .throw (.edgeAlreadyExists (FrameProp.getId ro.prop) (FrameProp.getId rt.prop)) s
    | none =>
      let r1 := s.g.addEdge o t p
      let r2 := r1.1.addEdge t o (EdgeProp.inverse p)
      match addEdgeToTreeViews r2.1 r1.2 s.subs s.views with
      | .ok _ vs =>
        .ok () (notify (.edgeAdded (FrameProp.getId ro.prop) (FrameProp.getId rt.prop) r1.2.id)
          { s with g := r2.1, views := vs })
      | .throw x vs => .throw x { s with g := r2.1, views := vs }
      | .ub r => .ub r
  | _, _ => .ub "add_edge: dangling descriptor"

/-- Graph.hpp:668-679: create the frame if the earlier lookup `v` gave the null vertex. -/
def orCreate (f : FrameId) (v : Option VId) (s : GS F E) : GS F E × VId :=
  match v with
  | none => addVertexN f (FrameProp.setId f FrameProp.dflt) s
  | some v => (s, v)

/-- `Graph::add_edge(FrameId, FrameId, E)` (Graph.hpp:659-682): both frames are looked up first, then the missing ones are
created. -/
def addEdge (o t : FrameId) (p : E) (s : GS F E) : Res (GS F E) Unit :=
  let vo := s.g.vertexOf o
  let vt := s.g.vertexOf t
  let r1 := orCreate o vo s
  let r2 := orCreate t vt r1.1
  addEdgeD r1.2 r2.2 p r2.1

/-- `Graph::remove_edge(FrameId, FrameId, vertex_descriptor, vertex_descriptor)` (Graph.hpp:684-705) -/
def removeEdgeBoth (o t : FrameId) (vo vt : VId) (s : GS F E) : Res (GS F E) Unit :=
  match s.g.edge vo vt, s.g.edge vt vo with
  | some e1, some e2 =>
    match s.g.removeEdge e1.id with
    | none => .ub "remove_edge: no such edge"
    | some g1 =>
      let s1 := notify (.edgeRemoved o t) { s with g := g1 }
      match g1.removeEdge e2.id with
      | none => .ub "remove_edge: edge removed twice"
      | some g2 =>
        match removeEdgeFromTreeViews vo vt s1.subs s1.views with
        | .ok _ vs => .ok () { s1 with g := g2, views := vs }
        | .throw x vs => .throw x { s1 with g := g2, views := vs }
        | .ub r => .ub r
  | _, _ => .throw (.unknownEdge o t) s

/-- `Graph::remove_edge(FrameId, FrameId)` (Graph.hpp:714-719).  C++ does not specify which of the two `getVertex` calls comes
first; here the origin. -/
def removeEdge (o t : FrameId) (s : GS F E) : Res (GS F E) Unit :=
  match s.g.vertexOf o with
  | none => .throw (.unknownFrame o) s
  | some vo =>
    match s.g.vertexOf t with
    | none => .throw (.unknownFrame t) s
    | some vt => removeEdgeBoth o t vo vt s

/-- `Graph::remove_edge(vertex_descriptor, vertex_descriptor)` (Graph.hpp:707-712) -/
def removeEdgeD (vo vt : VId) (s : GS F E) : Res (GS F E) Unit :=
  match s.g.findV vo, s.g.findV vt with
  | some ro, some rt => removeEdgeBoth (FrameProp.getId ro.prop) (FrameProp.getId rt.prop) vo vt s
  | _, _ => .ub "remove_edge: dangling descriptor"

/-- The loop of `Graph::disconnectFrame` (Graph.hpp:495-503); `ub` when the fuel ends = endless loop. -/
def disconnectLoop (v : VId) : Nat → GS F E → Res (GS F E) Unit
  | n, s =>
    match s.g.outEdges v with
    | [] => .ok () s
    | e :: _ =>
      match n with
      | 0 => .ub "disconnectFrame: endless loop"
      | n + 1 =>
        match removeEdgeD v e.tgt s with
        | .ok _ s' => disconnectLoop v n s'
        | .throw x s' => .throw x s'
        | .ub r => .ub r

/-- `Graph::disconnectFrame` (Graph.hpp:486-504).  Every iteration removes at least one edge, so the number of edges is enough
fuel. -/
def disconnectFrame (f : FrameId) (s : GS F E) : Res (GS F E) Unit :=
  match s.g.vertexOf f with
  | none => .throw (.unknownFrame f) s
  | some v => disconnectLoop v s.g.edges.length s

/-- `Graph::removeFrame` (Graph.hpp:506-524) -/
def removeFrame (f : FrameId) (s : GS F E) : Res (GS F E) Unit :=
  match s.g.vertexOf f with
  | none => .throw (.unknownFrame f) s
  | some v =>
    if s.g.degree v > 0 then .throw (.frameStillConnected f) s
    else .ok () (notify (.frameRemoved f) { s with g := s.g.removeVertex v f })

/-- `Graph::setEdgeProperty(FrameId, FrameId, E)` with the descriptor overload (Graph.hpp:873-901).  A missing inverse edge
violates the assert. -/
def setEdgeProperty (o t : FrameId) (p : E) (s : GS F E) : Res (GS F E) Unit :=
  match s.g.vertexOf o with
  | none => .throw (.unknownFrame o) s
  | some vo =>
    match s.g.vertexOf t with
    | none => .throw (.unknownFrame t) s
    | some vt =>
      match s.g.edge vo vt with
      | none => .throw (.unknownEdge o t) s
      | some e1 =>
        let g1 := s.g.setProp e1.id p
        match g1.edge vt vo with
        | none => .ub "setEdgeProperty: assert"
        | some e2 =>
          .ok () (notify (.edgeModified o t e1.id e2.id) { s with g := g1.setProp e2.id (EdgeProp.inverse p) })

/-- `Graph::getFrames` (Graph.hpp:589-615).  Names of vertices on the path are read through `getFrameId`. -/
def getFrames (o t : FrameId) (s : GS F E) : Res (GS F E) (List FrameId) :=
  match s.g.vertexOf o with
  | none => .throw (.unknownFrame o) s
  | some vo =>
    match s.g.vertexOf t with
    | none => .throw (.unknownFrame t) s
    | some vt =>
      match searchEvents s.g vo with
      | none => .ub "breadthFirstSearch: endless loop"
      | some evs =>
        match searchVisitor vt [] evs with
        | none => .ok [] s
        | some none => .ub "discover_vertex: endless loop"
        | some (some tree) =>
          match (tree.dropLast).mapM (fun v => (s.g.findV v).map (fun r => FrameProp.getId r.prop)) with
          | none => .ub "getFrameId: dangling descriptor"
          | some path => .ok (if path.length > 0 then path ++ [t] else path) s

/-- `Graph::subscribeTreeView` (Graph.hpp:581-587) with `TreeView::setPublisher` (TreeView.cpp:86-90). -/
def subscribeTreeView (p : Nat) (s : GS F E) : Res (GS F E) Unit :=
  if (s.views p).publisher then .ub "setPublisher: assert"
  else .ok () { s with subs := s.subs ++ [p], views := setView s.views p { s.views p with publisher := true } }

/-- `TreeView::unsubscribe` (TreeView.cpp:104-111) with `Graph::unsubscribeTreeView` (Graph.hpp:573-579). -/
def unsubscribeView (p : Nat) (s : GS F E) : GS F E :=
  if (s.views p).publisher then
    { s with subs := s.subs.filter (· ≠ p), views := setView s.views p { s.views p with publisher := false } }
  else s

/-- `Graph::getTree(vertex_descriptor, TreeView*)` (Graph.hpp:565-571) -/
def getTreeInto (g : G F E) (root : VId) (w : TreeView) : Res TreeView Unit :=
  match searchEvents g root with
  | none => .ub "breadthFirstSearch: endless loop"
  | some evs => .ok () ((w.addRoot root).build evs)

/-- `Graph::getTree(FrameId, bool keepTreeUpdated, TreeView*)` (Graph.hpp:548-563) on the view object `p`. -/
def getTree (f : FrameId) (keep : Bool) (p : Nat) (s : GS F E) : Res (GS F E) Unit :=
  match s.g.vertexOf f with
  | none => .throw (.unknownFrame f) s
  | some v =>
    match getTreeInto s.g v (s.views p) with
    | .ub r => .ub r
    | .throw x w => .throw x { s with views := setView s.views p w }
    | .ok _ w =>
      let s1 := { s with views := setView s.views p w }
      if keep then subscribeTreeView p s1 else .ok () s1

/-- `Graph::getTree(FrameId)` returning a fresh view (Graph.hpp:526-539) -/
def getTreeFresh (f : FrameId) (s : GS F E) : Res (GS F E) TreeView :=
  match s.g.vertexOf f with
  | none => .throw (.unknownFrame f) s
  | some v =>
    match getTreeInto s.g v TreeView.empty with
    | .ub r => .ub r
    | .throw x _ => .throw x s
    | .ok _ w => .ok w s

/-- One step of the edge loop of `Graph::publishCurrentState` / `unpublishCurrentState` (Graph.hpp:948-960, 969-981): state is
(skipped edges, events).  `mk` builds the event.  `none`: the inverse edge is missing (`getEdge` throws) or a descriptor is
dangling. -/
def publishEdge (g : G F E) (mk : FrameId → FrameId → EId → Event) (st : List EId × List Event) (e : ERec E) :
    Option (List EId × List Event) :=
  if e.id ∈ st.1 then some st
  else
    match g.findV e.src, g.findV e.tgt, g.edge e.tgt e.src with
    | some rs, some rt, some inv =>
      some (st.1 ++ [inv.id], st.2 ++ [mk (FrameProp.getId rs.prop) (FrameProp.getId rt.prop) e.id])
    | _, _, _ => none

/-- Events sent to a single subscriber by `Graph::publishCurrentState` (Graph.hpp:935-961). -/
def publishCurrentState (s : GS F E) : Option (List Event) :=
  let fs := s.g.verts.map (fun r => Event.frameAdded (FrameProp.getId r.prop))
  match s.g.edges.foldlM (publishEdge s.g (fun o t e => .edgeAdded o t e)) ([], []) with
  | none => none
  | some st => some (fs ++ st.2)

/-- Events sent to a single subscriber by `Graph::unpublishCurrentState` (Graph.hpp:963-989). -/
def unpublishCurrentState (s : GS F E) : Option (List Event) :=
  let fs := s.g.verts.map (fun r => Event.frameRemoved (FrameProp.getId r.prop))
  match s.g.edges.foldlM (publishEdge s.g (fun o t _ => .edgeRemoved o t)) ([], []) with
  | none => none
  | some st => some (st.2 ++ fs)

/-- The public calls that change a graph (Graph.hpp); used to form histories. -/
inductive Cmd (F E : Type)
  | addFrame (f : FrameId)
  | emplaceFrame (f : FrameId) (p : F)
  | removeFrame (f : FrameId)
  | disconnectFrame (f : FrameId)
  | addEdge (o t : FrameId) (p : E)
  | removeEdge (o t : FrameId)
  | setEdge (o t : FrameId) (p : E)
  | getTree (f : FrameId) (keep : Bool) (view : Nat)
  | unsubscribeView (view : Nat)

/-- outcome without the returned value -/
def discard {σ α : Type} : Res σ α → Res σ Unit
  | .ok _ s => .ok () s
  | .throw e s => .throw e s
  | .ub r => .ub r

/-- execute one call -/
def exec : Cmd F E → GS F E → Res (GS F E) Unit
  | .addFrame f, s => discard (addFrame f s)
  | .emplaceFrame f p, s => discard (emplaceFrame f p s)
  | .removeFrame f, s => removeFrame f s
  | .disconnectFrame f, s => disconnectFrame f s
  | .addEdge o t p, s => addEdge o t p s
  | .removeEdge o t, s => removeEdge o t s
  | .setEdge o t p, s => setEdgeProperty o t p s
  | .getTree f k v, s => getTree f k v s
  | .unsubscribeView v, s => .ok () (unsubscribeView v s)

/-- A history: the caller catches every exception and goes on; `none` = some call had undefined behaviour. -/
def run : List (Cmd F E) → GS F E → Option (GS F E)
  | [], s => some s
  | c :: cs, s =>
    match exec c s with
    | .ok _ s' => run cs s'
    | .throw _ s' => run cs s'
    | .ub _ => none

end GS
end Verif
