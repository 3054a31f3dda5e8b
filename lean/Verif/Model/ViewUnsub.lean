import Verif.Model.Graph
/-!
# Slots of a tree view that unsubscribe views (src/graph/TreeView.cpp:104-111, src/graph/Graph.hpp:573-579, 721-738)

A slot that is connected to a signal of a view may call `TreeView::unsubscribe`, of its own view or of another one.  The call removes
the view from the vector `subscribedTreeViews` of the graph.  `addEdgeToTreeViews` and `removeEdgeFromTreeViews` run over this vector
with a range-for while the signals are emitted; its end iterator is computed before the first round, and `vector::erase` invalidates
it.  Going on with the loop is undefined behaviour then; an exception leaves the loop without looking at the iterators.

Simplification: slots do nothing but unsubscribe, and what they unsubscribe depends on the signals that the view has emitted so far.
None of the functions of a view reads `publisher` or the vector, so the unsubscriptions are carried out when the function of the view
has ended instead of in between.
-/

namespace Verif

/-- the views that the slots of a view (address, all its signals up to the present one) unsubscribe -/
abbrev Wishes := Nat → List ViewSignal → List Nat

namespace GS
variable {F E : Type} [FrameProp F] [EdgeProp E]

/-- what the slots of view `p` unsubscribe during a function that makes `w'` of `w` -/
def told (wi : Wishes) (p : Nat) (w w' : TreeView) : List Nat :=
  (List.range (w'.signals.length - w.signals.length)).flatMap (fun k => wi p (w'.signals.take (w.signals.length + k + 1)))

/-- several calls of `TreeView::unsubscribe` -/
def unsubscribeAll (qs : List Nat) (s : GS F E) : GS F E := qs.foldl (fun s q => unsubscribeView q s) s

/-- The loops of `addEdgeToTreeViews` and `removeEdgeFromTreeViews` (Graph.hpp:721-738) over the vector of subscribed views; `f` is
what is done with one view. -/
def overViewsU (wi : Wishes) (f : TreeView → Res TreeView Unit) : List Nat → GS F E → Res (GS F E) Unit
  | [], s => .ok () s
  | p :: ps, s =>
    match f (s.views p) with
    | .ok _ w =>
      let s1 := unsubscribeAll (told wi p (s.views p) w) { s with views := setView s.views p w }
      if s1.subs = s.subs then overViewsU wi f ps s1 else .ub "subscribedTreeViews: iterator invalidated"
    | .throw x w => .throw x (unsubscribeAll (told wi p (s.views p) w) { s with views := setView s.views p w })
    | .ub r => .ub r

/-- one round of `removeEdgeFromTreeViews` (Graph.hpp:726-727) -/
def removeEdgeFromTreeView (o t : VId) (w : TreeView) : Res TreeView Unit :=
  match w.edgeExists o t with
  | none => .ub "edgeExists: assert"
  | some false => .ok () w
  | some true => w.removeEdge o t

/-- `Graph::add_edge(vertex_descriptor, vertex_descriptor, E)` (Graph.hpp:630-657) -/
def addEdgeDU (wi : Wishes) (o t : VId) (p : E) (s : GS F E) : Res (GS F E) Unit :=
  match s.g.findV o, s.g.findV t with
  | some ro, some rt =>
    match s.g.edge o t with
    | some _ => .throw (.edgeAlreadyExists (FrameProp.getId ro.prop) (FrameProp.getId rt.prop)) s
    | none =>
      let r1 := s.g.addEdge o t p
      let r2 := r1.1.addEdge t o (EdgeProp.inverse p)
      match overViewsU wi (addEdgeToTreeView r2.1 r1.2) s.subs { s with g := r2.1 } with
      | .ok _ s1 => .ok () (notify (.edgeAdded (FrameProp.getId ro.prop) (FrameProp.getId rt.prop) r1.2.id) s1)
      | .throw x s1 => .throw x s1
      | .ub r => .ub r
  | _, _ => .ub "add_edge: dangling descriptor"

/-- `Graph::add_edge(FrameId, FrameId, E)` (Graph.hpp:659-682) -/
def addEdgeU (wi : Wishes) (o t : FrameId) (p : E) (s : GS F E) : Res (GS F E) Unit :=
  let vo := s.g.vertexOf o
  let vt := s.g.vertexOf t
  let r1 := orCreate o vo s
  let r2 := orCreate t vt r1.1
  addEdgeDU wi r1.2 r2.2 p r2.1

/-- `Graph::remove_edge(FrameId, FrameId, vertex_descriptor, vertex_descriptor)` (Graph.hpp:684-705) -/
def removeEdgeBothU (wi : Wishes) (o t : FrameId) (vo vt : VId) (s : GS F E) : Res (GS F E) Unit :=
  match s.g.edge vo vt, s.g.edge vt vo with
  | some e1, some e2 =>
    match s.g.removeEdge e1.id with
    | none => .ub "remove_edge: no such edge"
    | some g1 =>
      let s1 := notify (.edgeRemoved o t) { s with g := g1 }
      match g1.removeEdge e2.id with
      | none => .ub "remove_edge: edge removed twice"
      | some g2 => overViewsU wi (removeEdgeFromTreeView vo vt) s1.subs { s1 with g := g2 }
  | _, _ => .throw (.unknownEdge o t) s

/-- `Graph::remove_edge(FrameId, FrameId)` (Graph.hpp:714-719) -/
def removeEdgeU (wi : Wishes) (o t : FrameId) (s : GS F E) : Res (GS F E) Unit :=
  match s.g.vertexOf o with
  | none => .throw (.unknownFrame o) s
  | some vo =>
    match s.g.vertexOf t with
    | none => .throw (.unknownFrame t) s
    | some vt => removeEdgeBothU wi o t vo vt s

/-- `Graph::remove_edge(vertex_descriptor, vertex_descriptor)` (Graph.hpp:707-712) -/
def removeEdgeDU (wi : Wishes) (vo vt : VId) (s : GS F E) : Res (GS F E) Unit :=
  match s.g.findV vo, s.g.findV vt with
  | some ro, some rt => removeEdgeBothU wi (FrameProp.getId ro.prop) (FrameProp.getId rt.prop) vo vt s
  | _, _ => .ub "remove_edge: dangling descriptor"

/-- The loop of `Graph::disconnectFrame` (Graph.hpp:495-503) -/
def disconnectLoopU (wi : Wishes) (v : VId) : Nat → GS F E → Res (GS F E) Unit
  | n, s =>
    match s.g.outEdges v with
    | [] => .ok () s
    | e :: _ =>
      match n with
      | 0 => .ub "disconnectFrame: endless loop"
      | n + 1 =>
        match removeEdgeDU wi v e.tgt s with
        | .ok _ s' => disconnectLoopU wi v n s'
        | .throw x s' => .throw x s'
        | .ub r => .ub r

/-- `Graph::disconnectFrame` (Graph.hpp:486-504) -/
def disconnectFrameU (wi : Wishes) (f : FrameId) (s : GS F E) : Res (GS F E) Unit :=
  match s.g.vertexOf f with
  | none => .throw (.unknownFrame f) s
  | some v => disconnectLoopU wi v s.g.edges.length s

/-- `Graph::getTree(FrameId, bool keepTreeUpdated, TreeView*)` (Graph.hpp:548-571): the view is subscribed after it has been built; no
loop over the subscribed views is running. -/
def getTreeU (wi : Wishes) (f : FrameId) (keep : Bool) (p : Nat) (s : GS F E) : Res (GS F E) Unit :=
  match s.g.vertexOf f with
  | none => .throw (.unknownFrame f) s
  | some v =>
    match getTreeInto s.g v (s.views p) with
    | .ub r => .ub r
    | .throw x w => .throw x (unsubscribeAll (told wi p (s.views p) w) { s with views := setView s.views p w })
    | .ok _ w =>
      let s1 := unsubscribeAll (told wi p (s.views p) w) { s with views := setView s.views p w }
      if keep then subscribeTreeView p s1 else .ok () s1

/-- execute one call while the slots are connected -/
def execU (wi : Wishes) : Cmd F E → GS F E → Res (GS F E) Unit
  | .disconnectFrame f, s => disconnectFrameU wi f s
  | .addEdge o t p, s => addEdgeU wi o t p s
  | .removeEdge o t, s => removeEdgeU wi o t s
  | .getTree f k v, s => getTreeU wi f k v s
  | c, s => exec c s

/-- a history; the caller catches every exception and goes on; `none` = some call had undefined behaviour -/
def runU (wi : Wishes) : List (Cmd F E) → GS F E → Option (GS F E)
  | [], s => some s
  | c :: cs, s =>
    match execU wi c s with
    | .ok _ s' => runU wi cs s'
    | .throw _ s' => runU wi cs s'
    | .ub _ => none

end GS
end Verif
