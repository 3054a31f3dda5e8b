import Verif.Model.Basic
import Verif.Model.AMap
/-!
# The Boost graph below `envire::core::Graph`

`GraphBase<F,E> = boost::labeled_graph<boost::directed_graph<F,E,Environment>, FrameId>` (src/graph/GraphTypes.hpp).
Models the Boost functions that Graph.hpp calls; their behaviour is part of the trusted base (DESIGN.md 1.2).
-/

namespace Verif

/-- A vertex of the Boost graph: descriptor, `vertex_index` and property. -/
structure VRec (F : Type) where
  id : VId
  idx : Nat
  prop : F
  deriving DecidableEq, Repr

/-- An edge of the Boost graph: descriptor, end points and property. -/
structure ERec (E : Type) where
  id : EId
  src : VId
  tgt : VId
  prop : E
  deriving DecidableEq, Repr

/-- The state of the labelled graph.  `verts`, `edges`: the Boost vertex and edge lists in order; the out-edge list of
`u` is the sublist of `edges` with source `u`.  `labels`: the member `_map`.  `nextV`, `nextE`: next fresh descriptors.
`nextIdx`: `max_vertex_index` of `boost::directed_graph`. -/
structure G (F E : Type) where
  verts : List (VRec F)
  edges : List (ERec E)
  labels : AMap FrameId VId
  nextV : Nat
  nextE : Nat
  nextIdx : Nat
  deriving DecidableEq

namespace G
variable {F E : Type}

/-- default constructed graph -/
def empty : G F E := ⟨[], [], [], 0, 0, 0⟩

/-- `labeled_graph::vertex(label)`; `none` = null vertex. -/
def vertexOf (g : G F E) (f : FrameId) : Option VId := g.labels.get f

/-- access to a vertex through its descriptor; `none` = the descriptor does not belong to the graph -/
def findV (g : G F E) (v : VId) : Option (VRec F) := g.verts.find? (fun r => r.id = v)

/-- `labeled_graph::add_vertex(label, prop)`: returns the old vertex if the label is in use. -/
def addVertex (g : G F E) (f : FrameId) (p : F) : G F E × VId :=
  match g.labels.get f with
  | some v => (g, v)
  | none =>
    ({ g with
        verts := g.verts ++ [⟨g.nextV, g.nextIdx, p⟩]
        labels := g.labels ++ [(f, g.nextV)]
        nextV := g.nextV + 1
        nextIdx := g.nextIdx + 1 }, g.nextV)

/-- `boost::out_edges(u)` -/
def outEdges (g : G F E) (u : VId) : List (ERec E) := g.edges.filter (fun e => e.src = u)

/-- `boost::edge(u, v)`: first edge in the out-edge list of `u` that leads to `v`. -/
def edge (g : G F E) (u v : VId) : Option (ERec E) := (g.outEdges u).find? (fun e => e.tgt = v)

/-- `boost::add_edge(u, v, p)`: appends; parallel edges are allowed. -/
def addEdge (g : G F E) (u v : VId) (p : E) : G F E × ERec E :=
  let e : ERec E := ⟨g.nextE, u, v, p⟩
  ({ g with edges := g.edges ++ [e], nextE := g.nextE + 1 }, e)

/-- `boost::remove_edge(e)`; `none` (undefined behaviour) if the edge is not in the graph. -/
def removeEdge (g : G F E) (e : EId) : Option (G F E) :=
  if g.edges.any (fun r => r.id = e) then
    some { g with edges := g.edges.filter (fun r => r.id ≠ e) }
  else none

/-- `graph[e] = p` -/
def setProp (g : G F E) (e : EId) (p : E) : G F E :=
  { g with edges := g.edges.map (fun r => if r.id = e then { r with prop := p } else r) }

/-- `boost::degree(v)` of a bidirectional graph: in-degree plus out-degree. -/
def degree (g : G F E) (v : VId) : Nat :=
  (g.edges.filter (fun e => e.src = v)).length + (g.edges.filter (fun e => e.tgt = v)).length

/-- `boost::remove_vertex(v)` followed by `_map.erase(label)` (Graph.hpp:515-522).  Neither renumbers the vertex indices. -/
def removeVertex (g : G F E) (v : VId) (f : FrameId) : G F E :=
  { g with
      verts := g.verts.filter (fun r => r.id ≠ v)
      labels := g.labels.erase f }

/-- `graph[v] = p` -/
def setVProp (g : G F E) (v : VId) (p : F) : G F E :=
  { g with verts := g.verts.map (fun r => if r.id = v then { r with prop := p } else r) }

end G
end Verif
