import Verif.Model.Graph
/-!
# Slots of a tree view that throw (src/graph/TreeView.cpp:145-157, 233-245, src/graph/Graph.hpp)

A view emits the boost signals `edgeAdded`, `edgeRemoved` and `crossEdgeAdded` from inside the calls of the graph that keep it up to
date.  `Model/Graph.lean` records the emissions; here a connected slot may throw.  `boost::signals2` does not catch: the exception
leaves the emission, the function of the view, the loop over the subscribed views and the call of the graph.  Every function between
the call and the emission is written once more; all other lines are those of `Model/TreeView.lean` and `Model/Graph.lean`.

Simplification: the slots of one view are one function of the address of the view and of the view right after the emission (its
last entry in `signals` is the current one), so they may depend on everything that the view emitted before.  Slots do not call the
graph or the view.
-/

namespace Verif

/-- what the slots of the view with this address do with the last signal: `none` = return -/
abbrev Slots := Nat → TreeView → Option Exn

namespace TreeView

/-- an emission; the signal has been recorded already -/
def emit (sl : TreeView → Option Exn) (w : TreeView) : Res TreeView Unit :=
  match sl w with
  | none => .ok () w
  | some x => .throw x w

/-- one callback of `TreeBuilderVisitor` (GraphVisitors.hpp:104-141) with `TreeView::addEdge` and `TreeView::addCrossEdge`
(TreeView.cpp:145-157) -/
def buildStepS (sl : TreeView → Option Exn) (w : TreeView) : BfsEv → Res TreeView Unit
  | .treeEdge a => emit sl (w.addEdge a.src a.tgt)
  | .grayTarget a => emit sl (w.addCrossEdge a.src a.tgt a.id)
  | .discover _ => .ok () w
  | .blackTarget _ => .ok () w

/-- `TreeBuilderVisitor` over all callbacks of a search; an exception ends the search -/
def buildS (sl : TreeView → Option Exn) : TreeView → List BfsEv → Res TreeView Unit
  | w, [] => .ok () w
  | w, ev :: evs =>
    match buildStepS sl w ev with
    | .ok _ w1 => buildS sl w1 evs
    | .throw x w1 => .throw x w1
    | .ub r => .ub r

/-- the loop that removes the vertices (TreeView.cpp:233-245) -/
def rmVertsS (sl : TreeView → Option Exn) (w : TreeView) : List VId → Res TreeView Unit
  | [] => .ok () w
  | v :: vs =>
    match (w.relOf v).parent with
    | none => .ub "removeEdge: vertex without parent"
    | some p =>
      let w1 := { w with tree := w.tree.set p { w.relOf p with children := (w.relOf p).children.filter (· ≠ v) } }
      if (w1.relOf v).children = [] then
        match emit sl { w1 with tree := w1.tree.erase v, signals := w1.signals ++ [.edgeRemoved p v] } with
        | .ok _ w2 => rmVertsS sl w2 vs
        | .throw x w2 => .throw x w2
        | .ub r => .ub r
      else .ub "removeEdge: assert(children.size() == 0)"

/-- `TreeView::removeEdge` (TreeView.cpp:161-253) -/
def removeEdgeS (sl : TreeView → Option Exn) (w : TreeView) (o t : VId) : Res TreeView Unit :=
  let realTarget : Option VId :=
    if (w.relOf t).parent = some o then some t
    else if (w.relOf o).parent = some t then some o
    else none
  match realTarget with
  | none => .ub "removeEdge: assert(false)"
  | some rt =>
    match w.visitBfs (w.tree.length + 1) [rt] with
    | .ub m => .ub m
    | .throw e _ =>
      let ces := number 0 w.crossEdges
      match rmVisit ces ⟨ces, none, []⟩ (w.bfsCalls (w.tree.length + 1) [rt]) with
      | none => .ub "removeEdge: use of an invalidated iterator"
      | some st => .throw e { w with crossEdges := st.cur.map (·.2) }
    | .ok calls _ =>
      let ces := number 0 w.crossEdges
      match rmVisit ces ⟨ces, none, []⟩ (calls.map (·.1)) with
      | none => .ub "removeEdge: use of an invalidated iterator"
      | some st =>
        match rmVertsS sl { w with crossEdges := st.cur.map (·.2) } (calls.map (·.1)).reverse with
        | .ub m => .ub m
        | .throw e s => .throw e s
        | .ok _ w' =>
          if st.S = [] then .ok () w'
          else .throw (.runtimeError "NOT IMPLEMENTED") w'

end TreeView

namespace GS
variable {F E : Type} [FrameProp F] [EdgeProp E]

/-- Graph.hpp:793-827 -/
def attachS (sl : TreeView → Option Exn) (g : G F E) (w : TreeView) (inView notInView : VId) : Res TreeView Unit :=
  match TreeView.emit sl (w.addEdge inView notInView) with
  | .ub r => .ub r
  | .throw x w1 => .throw x w1
  | .ok _ w1 =>
    if g.degree notInView > 2 then
      match g.edge inView notInView, g.edge notInView inView with
      | some e1, some e2 =>
        match searchEventsFiltered g e1.id e2.id notInView with
        | none => .ub "breadthFirstSearch: endless loop"
        | some evs => TreeView.buildS sl w1 evs
      | _, _ => .throw (.unknownEdge "" "") w1
    else .ok () w1

/-- `Graph::addEdgeToTreeView` (Graph.hpp:740-828) -/
def addEdgeToTreeViewS (sl : TreeView → Option Exn) (g : G F E) (e : ERec E) (w : TreeView) : Res TreeView Unit :=
  if w.vertexExists e.src && w.vertexExists e.tgt then
    match w.edgeExists e.src e.tgt with
    | none => .ub "edgeExists: assert"
    | some true => .ok () w
    | some false => TreeView.emit sl (w.addCrossEdge e.src e.tgt e.id)
  else if w.vertexExists e.src then attachS sl g w e.src e.tgt
  else if w.vertexExists e.tgt then attachS sl g w e.tgt e.src
  else .ok () w

/-- `Graph::addEdgeToTreeViews` (Graph.hpp:731-738) -/
def addEdgeToTreeViewsS (sl : Slots) (g : G F E) (e : ERec E) : List Nat → (Nat → TreeView) → Res (Nat → TreeView) Unit
  | [], vs => .ok () vs
  | p :: ps, vs =>
    match addEdgeToTreeViewS (sl p) g e (vs p) with
    | .ok _ w => addEdgeToTreeViewsS sl g e ps (setView vs p w)
    | .throw x w => .throw x (setView vs p w)
    | .ub r => .ub r

/-- `Graph::removeEdgeFromTreeViews` (Graph.hpp:721-729) -/
def removeEdgeFromTreeViewsS (sl : Slots) (o t : VId) : List Nat → (Nat → TreeView) → Res (Nat → TreeView) Unit
  | [], vs => .ok () vs
  | p :: ps, vs =>
    match (vs p).edgeExists o t with
    | none => .ub "edgeExists: assert"
    | some false => removeEdgeFromTreeViewsS sl o t ps vs
    | some true =>
      match (vs p).removeEdgeS (sl p) o t with
      | .ok _ w => removeEdgeFromTreeViewsS sl o t ps (setView vs p w)
      | .throw x w => .throw x (setView vs p w)
      | .ub r => .ub r

/-- `Graph::add_edge(vertex_descriptor, vertex_descriptor, E)` (Graph.hpp:630-657): the event is published after the views have been
changed. -/
def addEdgeDS (sl : Slots) (o t : VId) (p : E) (s : GS F E) : Res (GS F E) Unit :=
  match s.g.findV o, s.g.findV t with
  | some ro, some rt =>
    match s.g.edge o t with
    | some _ => .throw (.edgeAlreadyExists (FrameProp.getId ro.prop) (FrameProp.getId rt.prop)) s
    | none =>
      let r1 := s.g.addEdge o t p
      let r2 := r1.1.addEdge t o (EdgeProp.inverse p)
      match addEdgeToTreeViewsS sl r2.1 r1.2 s.subs s.views with
      | .ok _ vs =>
        .ok () (notify (.edgeAdded (FrameProp.getId ro.prop) (FrameProp.getId rt.prop) r1.2.id)
          { s with g := r2.1, views := vs })
      | .throw x vs => .throw x { s with g := r2.1, views := vs }
      | .ub r => .ub r
  | _, _ => .ub "add_edge: dangling descriptor"

/-- `Graph::add_edge(FrameId, FrameId, E)` (Graph.hpp:659-682) -/
def addEdgeS (sl : Slots) (o t : FrameId) (p : E) (s : GS F E) : Res (GS F E) Unit :=
  let vo := s.g.vertexOf o
  let vt := s.g.vertexOf t
  let r1 := orCreate o vo s
  let r2 := orCreate t vt r1.1
  addEdgeDS sl r1.2 r2.2 p r2.1

/-- `Graph::remove_edge(FrameId, FrameId, vertex_descriptor, vertex_descriptor)` (Graph.hpp:684-705): the event is published before
the views are changed. -/
def removeEdgeBothS (sl : Slots) (o t : FrameId) (vo vt : VId) (s : GS F E) : Res (GS F E) Unit :=
  match s.g.edge vo vt, s.g.edge vt vo with
  | some e1, some e2 =>
    match s.g.removeEdge e1.id with
    | none => .ub "remove_edge: no such edge"
    | some g1 =>
      let s1 := notify (.edgeRemoved o t) { s with g := g1 }
      match g1.removeEdge e2.id with
      | none => .ub "remove_edge: edge removed twice"
      | some g2 =>
        match removeEdgeFromTreeViewsS sl vo vt s1.subs s1.views with
        | .ok _ vs => .ok () { s1 with g := g2, views := vs }
        | .throw x vs => .throw x { s1 with g := g2, views := vs }
        | .ub r => .ub r
  | _, _ => .throw (.unknownEdge o t) s

/-- `Graph::remove_edge(FrameId, FrameId)` (Graph.hpp:714-719) -/
def removeEdgeS (sl : Slots) (o t : FrameId) (s : GS F E) : Res (GS F E) Unit :=
  match s.g.vertexOf o with
  | none => .throw (.unknownFrame o) s
  | some vo =>
    match s.g.vertexOf t with
    | none => .throw (.unknownFrame t) s
    | some vt => removeEdgeBothS sl o t vo vt s

/-- `Graph::remove_edge(vertex_descriptor, vertex_descriptor)` (Graph.hpp:707-712) -/
def removeEdgeDS (sl : Slots) (vo vt : VId) (s : GS F E) : Res (GS F E) Unit :=
  match s.g.findV vo, s.g.findV vt with
  | some ro, some rt => removeEdgeBothS sl (FrameProp.getId ro.prop) (FrameProp.getId rt.prop) vo vt s
  | _, _ => .ub "remove_edge: dangling descriptor"

/-- The loop of `Graph::disconnectFrame` (Graph.hpp:495-503) -/
def disconnectLoopS (sl : Slots) (v : VId) : Nat → GS F E → Res (GS F E) Unit
  | n, s =>
    match s.g.outEdges v with
    | [] => .ok () s
    | e :: _ =>
      match n with
      | 0 => .ub "disconnectFrame: endless loop"
      | n + 1 =>
        match removeEdgeDS sl v e.tgt s with
        | .ok _ s' => disconnectLoopS sl v n s'
        | .throw x s' => .throw x s'
        | .ub r => .ub r

/-- `Graph::disconnectFrame` (Graph.hpp:486-504) -/
def disconnectFrameS (sl : Slots) (f : FrameId) (s : GS F E) : Res (GS F E) Unit :=
  match s.g.vertexOf f with
  | none => .throw (.unknownFrame f) s
  | some v => disconnectLoopS sl v s.g.edges.length s

/-- `Graph::getTree(vertex_descriptor, TreeView*)` (Graph.hpp:565-571) -/
def getTreeIntoS (sl : TreeView → Option Exn) (g : G F E) (root : VId) (w : TreeView) : Res TreeView Unit :=
  match searchEvents g root with
  | none => .ub "breadthFirstSearch: endless loop"
  | some evs => TreeView.buildS sl (w.addRoot root) evs

/-- `Graph::getTree(FrameId, bool keepTreeUpdated, TreeView*)` (Graph.hpp:548-563): an exception leaves the function before the view
is subscribed. -/
def getTreeS (sl : Slots) (f : FrameId) (keep : Bool) (p : Nat) (s : GS F E) : Res (GS F E) Unit :=
  match s.g.vertexOf f with
  | none => .throw (.unknownFrame f) s
  | some v =>
    match getTreeIntoS (sl p) s.g v (s.views p) with
    | .ub r => .ub r
    | .throw x w => .throw x { s with views := setView s.views p w }
    | .ok _ w =>
      let s1 := { s with views := setView s.views p w }
      if keep then subscribeTreeView p s1 else .ok () s1

/-- execute one call while the slots `sl` are connected -/
def execS (sl : Slots) : Cmd F E → GS F E → Res (GS F E) Unit
  | .disconnectFrame f, s => disconnectFrameS sl f s
  | .addEdge o t p, s => addEdgeS sl o t p s
  | .removeEdge o t, s => removeEdgeS sl o t s
  | .getTree f k v, s => getTreeS sl f k v s
  | c, s => exec c s

/-- a history; the caller catches every exception and goes on; `none` = some call had undefined behaviour -/
def runS (sl : Slots) : List (Cmd F E) → GS F E → Option (GS F E)
  | [], s => some s
  | c :: cs, s =>
    match execS sl c s with
    | .ok _ s' => runS sl cs s'
    | .throw _ s' => runS sl cs s'
    | .ub _ => none

end GS
end Verif
