import Verif.Model.Copy
/-! # Specification: the same graph with other content in frames and connections -/

namespace Verif
variable {F F' E E' : Type}

/-- A translation of frame and edge properties that respects what `Graph<F,E>` may ask of them (src/graph/Graph.hpp:44-60): the names and
the inverse. -/
structure PropMap (F F' E E' : Type) [FrameProp F] [FrameProp F'] [EdgeProp E] [EdgeProp E'] where
  frame : F → F'
  edge : E → E'
  getId : ∀ p, FrameProp.getId (frame p) = FrameProp.getId p
  setId : ∀ f p, frame (FrameProp.setId f p) = FrameProp.setId f (frame p)
  dflt : ∀ f, frame (FrameProp.setId f FrameProp.dflt) = FrameProp.setId f FrameProp.dflt
  inverse : ∀ p, edge (EdgeProp.inverse p) = EdgeProp.inverse (edge p)

variable [FrameProp F] [FrameProp F'] [EdgeProp E] [EdgeProp E'] (m : PropMap F F' E E')

/-- translate the properties of a graph -/
def G.trans (g : G F E) : G F' E' :=
  { verts := g.verts.map fun r => ⟨r.id, r.idx, m.frame r.prop⟩
    edges := g.edges.map fun e => ⟨e.id, e.src, e.tgt, m.edge e.prop⟩
    labels := g.labels, nextV := g.nextV, nextE := g.nextE, nextIdx := g.nextIdx }

/-- translate a state and the snapshots of the graph that handlers have seen -/
def GS.trans (s : GS F E) : GS F' E' :=
  { g := s.g.trans m, subs := s.subs, views := s.views, trace := s.trace.map fun x => (x.1, x.2.trans m) }

/-- translate a call -/
def GS.Cmd.trans : GS.Cmd F E → GS.Cmd F' E'
  | .addFrame f => .addFrame f
  | .emplaceFrame f p => .emplaceFrame f (m.frame p)
  | .removeFrame f => .removeFrame f
  | .disconnectFrame f => .disconnectFrame f
  | .addEdge o t p => .addEdge o t (m.edge p)
  | .removeEdge o t => .removeEdge o t
  | .setEdge o t p => .setEdge o t (m.edge p)
  | .getTree f k v => .getTree f k v
  | .unsubscribeView v => .unsubscribeView v

/-- translate an outcome; `h` translates the returned value -/
def Res.trans {α β : Type} (h : α → β) : Res (GS F E) α → Res (GS F' E') β
  | .ok a s => .ok (h a) (s.trans m)
  | .throw x s => .throw x (s.trans m)
  | .ub r => .ub r

/-- two calls are the same except for the content of frames and connections -/
inductive GS.Cmd.SameShape : GS.Cmd F E → GS.Cmd F' E' → Prop
  | addFrame (f) : SameShape (.addFrame f) (.addFrame f)
  | emplaceFrame (f p p') : SameShape (.emplaceFrame f p) (.emplaceFrame f p')
  | removeFrame (f) : SameShape (.removeFrame f) (.removeFrame f)
  | disconnectFrame (f) : SameShape (.disconnectFrame f) (.disconnectFrame f)
  | addEdge (o t p p') : SameShape (.addEdge o t p) (.addEdge o t p')
  | removeEdge (o t) : SameShape (.removeEdge o t) (.removeEdge o t)
  | setEdge (o t p p') : SameShape (.setEdge o t p) (.setEdge o t p')
  | getTree (f k v) : SameShape (.getTree f k v) (.getTree f k v)
  | unsubscribeView (v) : SameShape (.unsubscribeView v) (.unsubscribeView v)

/-- two graphs have the same frames and connections -/
structure G.SameShape (g : G F E) (g' : G F' E') : Prop where
  verts : g'.verts.map (fun r => (r.id, r.idx, FrameProp.getId r.prop)) = g.verts.map (fun r => (r.id, r.idx, FrameProp.getId r.prop))
  edges : g'.edges.map (fun e => (e.id, e.src, e.tgt)) = g.edges.map (fun e => (e.id, e.src, e.tgt))
  labels : g'.labels = g.labels

/-- two states have the same frames, connections, views and published events -/
structure GS.SameShape (s : GS F E) (s' : GS F' E') : Prop where
  g : s.g.SameShape s'.g
  subs : s'.subs = s.subs
  views : s'.views = s.views
  trace : s'.trace.map Prod.fst = s.trace.map Prod.fst

/-- two calls end in the same way -/
inductive GS.SameShapeO : Res (GS F E) Unit → Res (GS F' E') Unit → Prop
  | ok {s s'} : GS.SameShape s s' → SameShapeO (.ok () s) (.ok () s')
  | throw {x s s'} : GS.SameShape s s' → SameShapeO (.throw x s) (.throw x s')
  | ub {r} : SameShapeO (.ub r) (.ub r)

end Verif
