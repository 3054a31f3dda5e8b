import Verif.Model.Graph
/-!
# Event handlers that call the graph (src/graph/Graph.hpp, src/events/GraphEventPublisher.cpp:76-103)

`Model/Graph.lean` lets the subscribers of a graph only listen.  Nothing in the code forbids that `notifyGraphEvent` calls the graph
that published the event, and `notify` is called in the middle of `add_edge` and `remove_edge`.  Here every function that publishes
is written once more with the call of `notify` as a parameter `nt`; all other lines are those of `Model/Graph.lean`.

Simplification: all subscribers together are one handler.  What several subscribers see in which order is C70.
-/

namespace Verif
namespace GS
variable {F E : Type} [FrameProp F] [EdgeProp E]

/-- a call of `notify`: the handlers may change everything and may throw -/
abbrev Notify (F E : Type) := Event → GS F E → Res (GS F E) Unit

/-- `Graph::add_vertex` (Graph.hpp:437-444) -/
def addVertexH (nt : Notify F E) (f : FrameId) (p : F) (s : GS F E) : Res (GS F E) VId :=
  let r := s.g.addVertex f p
  match nt (.frameAdded f) { s with g := r.1 } with
  | .ok _ s1 => .ok r.2 s1
  | .throw x s1 => .throw x s1
  | .ub w => .ub w

/-- `Graph::addFrame` (Graph.hpp:420-435) -/
def addFrameH (nt : Notify F E) (f : FrameId) (s : GS F E) : Res (GS F E) VId :=
  match s.g.vertexOf f with
  | none => addVertexH nt f (FrameProp.setId f FrameProp.dflt) s
  | some _ => .throw (.frameAlreadyExists f) s

/-- `Graph::emplaceFrame` (Graph.hpp:909-926) -/
def emplaceFrameH (nt : Notify F E) (f : FrameId) (p : F) (s : GS F E) : Res (GS F E) VId :=
  match s.g.vertexOf f with
  | none => addVertexH nt f (FrameProp.setId f p) s
  | some _ => .throw (.frameAlreadyExists f) s

/-- `Graph::add_edge(vertex_descriptor, vertex_descriptor, E)` (Graph.hpp:630-657) -/
def addEdgeDH (nt : Notify F E) (o t : VId) (p : E) (s : GS F E) : Res (GS F E) Unit :=
  match s.g.findV o, s.g.findV t with
  | some ro, some rt =>
    match s.g.edge o t with
    | some _ => .throw (.edgeAlreadyExists (FrameProp.getId ro.prop) (FrameProp.getId rt.prop)) s
    | none =>
      let r1 := s.g.addEdge o t p
      let r2 := r1.1.addEdge t o (EdgeProp.inverse p)
      match addEdgeToTreeViews r2.1 r1.2 s.subs s.views with
      | .ok _ vs =>
        nt (.edgeAdded (FrameProp.getId ro.prop) (FrameProp.getId rt.prop) r1.2.id) { s with g := r2.1, views := vs }
      | .throw x vs => .throw x { s with g := r2.1, views := vs }
      | .ub r => .ub r
  | _, _ => .ub "add_edge: dangling descriptor"

/-- Graph.hpp:668-679 -/
def orCreateH (nt : Notify F E) (f : FrameId) (v : Option VId) (s : GS F E) : Res (GS F E) VId :=
  match v with
  | none => addVertexH nt f (FrameProp.setId f FrameProp.dflt) s
  | some v => .ok v s

/-- `Graph::add_edge(FrameId, FrameId, E)` (Graph.hpp:659-682): both descriptors are looked up before the first handler runs. -/
def addEdgeH (nt : Notify F E) (o t : FrameId) (p : E) (s : GS F E) : Res (GS F E) Unit :=
  match orCreateH nt o (s.g.vertexOf o) s with
  | .ok vo s1 =>
    match orCreateH nt t (s.g.vertexOf t) s1 with
    | .ok vt s2 => addEdgeDH nt vo vt p s2
    | .throw x s2 => .throw x s2
    | .ub w => .ub w
  | .throw x s1 => .throw x s1
  | .ub w => .ub w

/-- `Graph::remove_edge(FrameId, FrameId, vertex_descriptor, vertex_descriptor)` (Graph.hpp:684-705): the handlers run when one of
the two edges has been removed.  The list of subscribed views is read after they have run. -/
def removeEdgeBothH (nt : Notify F E) (o t : FrameId) (vo vt : VId) (s : GS F E) : Res (GS F E) Unit :=
  match s.g.edge vo vt, s.g.edge vt vo with
  | some e1, some e2 =>
    match s.g.removeEdge e1.id with
    | none => .ub "remove_edge: no such edge"
    | some g1 =>
      match nt (.edgeRemoved o t) { s with g := g1 } with
      | .ok _ s1 =>
        match s1.g.removeEdge e2.id with
        | none => .ub "remove_edge: edge removed twice"
        | some g2 =>
          match removeEdgeFromTreeViews vo vt s1.subs s1.views with
          | .ok _ vs => .ok () { s1 with g := g2, views := vs }
          | .throw x vs => .throw x { s1 with g := g2, views := vs }
          | .ub r => .ub r
      | .throw x s1 => .throw x s1
      | .ub r => .ub r
  | _, _ => .throw (.unknownEdge o t) s

/-- `Graph::remove_edge(FrameId, FrameId)` (Graph.hpp:714-719) -/
def removeEdgeH (nt : Notify F E) (o t : FrameId) (s : GS F E) : Res (GS F E) Unit :=
  match s.g.vertexOf o with
  | none => .throw (.unknownFrame o) s
  | some vo =>
    match s.g.vertexOf t with
    | none => .throw (.unknownFrame t) s
    | some vt => removeEdgeBothH nt o t vo vt s

/-- `Graph::remove_edge(vertex_descriptor, vertex_descriptor)` (Graph.hpp:707-712) -/
def removeEdgeDH (nt : Notify F E) (vo vt : VId) (s : GS F E) : Res (GS F E) Unit :=
  match s.g.findV vo, s.g.findV vt with
  | some ro, some rt => removeEdgeBothH nt (FrameProp.getId ro.prop) (FrameProp.getId rt.prop) vo vt s
  | _, _ => .ub "remove_edge: dangling descriptor"

/-- The loop of `Graph::disconnectFrame` (Graph.hpp:495-503); the first argument bounds the number of rounds.  The descriptor must
still belong to the graph when `out_edges` is called. -/
def disconnectLoopH (nt : Notify F E) (v : VId) : Nat → GS F E → Res (GS F E) Unit
  | n, s =>
    match s.g.findV v with
    | none => .ub "out_edges: dangling descriptor"
    | some _ =>
      match s.g.outEdges v with
      | [] => .ok () s
      | e :: _ =>
        match n with
        | 0 => .ub "disconnectFrame: endless loop"
        | n + 1 =>
          match removeEdgeDH nt v e.tgt s with
          | .ok _ s' => disconnectLoopH nt v n s'
          | .throw x s' => .throw x s'
          | .ub r => .ub r

/-- `Graph::disconnectFrame` (Graph.hpp:486-504).  Handlers may add edges again, so the number of edges does not bound the rounds;
`n` more are allowed. -/
def disconnectFrameH (nt : Notify F E) (n : Nat) (f : FrameId) (s : GS F E) : Res (GS F E) Unit :=
  match s.g.vertexOf f with
  | none => .throw (.unknownFrame f) s
  | some v => disconnectLoopH nt v (s.g.edges.length + n) s

/-- `Graph::removeFrame` (Graph.hpp:506-524) -/
def removeFrameH (nt : Notify F E) (f : FrameId) (s : GS F E) : Res (GS F E) Unit :=
  match s.g.vertexOf f with
  | none => .throw (.unknownFrame f) s
  | some v =>
    if s.g.degree v > 0 then .throw (.frameStillConnected f) s
    else nt (.frameRemoved f) { s with g := s.g.removeVertex v f }

/-- `Graph::setEdgeProperty` (Graph.hpp:873-901) -/
def setEdgePropertyH (nt : Notify F E) (o t : FrameId) (p : E) (s : GS F E) : Res (GS F E) Unit :=
  match s.g.vertexOf o with
  | none => .throw (.unknownFrame o) s
  | some vo =>
    match s.g.vertexOf t with
    | none => .throw (.unknownFrame t) s
    | some vt =>
      match s.g.edge vo vt with
      | none => .throw (.unknownEdge o t) s
      | some e1 =>
        let g1 := s.g.setProp e1.id p
        match g1.edge vt vo with
        | none => .ub "setEdgeProperty: assert"
        | some e2 => nt (.edgeModified o t e1.id e2.id) { s with g := g1.setProp e2.id (EdgeProp.inverse p) }

/-- one public call with handlers -/
def execH (nt : Notify F E) (n : Nat) : Cmd F E → GS F E → Res (GS F E) Unit
  | .addFrame f, s => discard (addFrameH nt f s)
  | .emplaceFrame f p, s => discard (emplaceFrameH nt f p s)
  | .removeFrame f, s => removeFrameH nt f s
  | .disconnectFrame f, s => disconnectFrameH nt n f s
  | .addEdge o t p, s => addEdgeH nt o t p s
  | .removeEdge o t, s => removeEdgeH nt o t s
  | .setEdge o t p, s => setEdgePropertyH nt o t p s
  | .getTree f k v, s => getTree f k v s
  | .unsubscribeView v, s => .ok () (unsubscribeView v s)

/-- What a handler does next. -/
inductive HAct (F E : Type)
  /-- call the graph; `caught`: an exception of the call is caught by the handler -/
  | call (c : Cmd F E) (caught : Bool)
  /-- throw an exception of its own -/
  | fail
  /-- return -/
  | done

/-- A handler (`GraphEventSubscriber::notifyGraphEvent`): decides from the event, the number of calls it has already made and the
present state (with all events so far) what to do next. -/
abbrev Handler (F E : Type) := Event → Nat → GS F E → HAct F E

/-- The body of the handler; `call` is the execution of a call, the first number bounds the number of calls, `k` counts them. -/
def handleLoop (hd : Handler F E) (call : Cmd F E → GS F E → Res (GS F E) Unit) (ev : Event) :
    Nat → Nat → GS F E → Res (GS F E) Unit
  | n, k, s =>
    match hd ev k s with
    | .done => .ok () s
    | .fail => .throw (.runtimeError "thrown by the handler") s
    | .call c caught =>
      match n with
      | 0 => .ub "handler: no end"
      | n + 1 =>
        match call c s with
        | .ok _ s1 => handleLoop hd call ev n (k + 1) s1
        | .throw x s1 => if caught then handleLoop hd call ev n (k + 1) s1 else .throw x s1
        | .ub r => .ub r

/-- A public call of a graph whose subscribers behave like `hd`.  The number bounds the depth of the recursion, the number of calls
that one handler makes and the additional rounds of `disconnectFrame`; when it is used up the result is `ub`. -/
def hexec (hd : Handler F E) : Nat → Cmd F E → GS F E → Res (GS F E) Unit
  | 0, _, _ => .ub "handler: no end"
  | n + 1, c, s => execH (fun ev s => handleLoop hd (hexec hd n) ev n 0 (notify ev s)) n c s

/-- A history of calls from outside; exceptions are caught. -/
def hrun (hd : Handler F E) (n : Nat) : List (Cmd F E) → GS F E → Option (GS F E)
  | [], s => some s
  | c :: cs, s =>
    match hexec hd n c s with
    | .ok _ s' => hrun hd n cs s'
    | .throw _ s' => hrun hd n cs s'
    | .ub _ => none

end GS
end Verif
