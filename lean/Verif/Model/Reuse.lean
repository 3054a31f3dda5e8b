import Verif.Model.Graph
/-!
# Descriptors are addresses (src/graph/GraphTypes.hpp, src/graph/Graph.hpp)

A vertex descriptor is the address of a list node and an edge descriptor is compared by the address of its property.  The allocator may give
the memory of a removed vertex or edge to a new one.  In `Model/Boost.lean` each vertex and edge has a number that is never used again.
Here are the functions that create vertices or edges once more, with an arbitrary allocator; the other functions are those of
`Model/Graph.lean`.
-/

namespace Verif

/-- The addresses that the next vertex and the next edge get, as a function of the graph at that moment. -/
structure Alloc (F E : Type) where
  v : G F E → VId
  e : G F E → EId

namespace G
variable {F E : Type}

/-- `labeled_graph::add_vertex(label, prop)` as `G.addVertex`, the node is allocated by `al` -/
def addVertexA (al : Alloc F E) (g : G F E) (f : FrameId) (p : F) : G F E × VId :=
  match g.labels.get f with
  | some v => (g, v)
  | none =>
    ({ g with
        verts := g.verts ++ [⟨al.v g, g.nextIdx, p⟩]
        labels := g.labels ++ [(f, al.v g)]
        nextV := g.nextV + 1
        nextIdx := g.nextIdx + 1 }, al.v g)

/-- `boost::add_edge(u, v, p)` as `G.addEdge`, the edge is allocated by `al` -/
def addEdgeA (al : Alloc F E) (g : G F E) (u v : VId) (p : E) : G F E × ERec E :=
  let e : ERec E := ⟨al.e g, u, v, p⟩
  ({ g with edges := g.edges ++ [e], nextE := g.nextE + 1 }, e)

end G

namespace GS
variable {F E : Type} [FrameProp F] [EdgeProp E]

/-- `Graph::add_vertex` (Graph.hpp:437-444) -/
def addVertexA (al : Alloc F E) (f : FrameId) (p : F) (s : GS F E) : GS F E × VId :=
  let r := s.g.addVertexA al f p
  (notify (.frameAdded f) { s with g := r.1 }, r.2)

/-- `Graph::addFrame` (Graph.hpp:420-435) -/
def addFrameA (al : Alloc F E) (f : FrameId) (s : GS F E) : Res (GS F E) VId :=
  match s.g.vertexOf f with
  | none =>
    let r := addVertexA al f (FrameProp.setId f FrameProp.dflt) s
    .ok r.2 r.1
  | some _ => .throw (.frameAlreadyExists f) s

/-- `Graph::emplaceFrame` (Graph.hpp:909-926) -/
def emplaceFrameA (al : Alloc F E) (f : FrameId) (p : F) (s : GS F E) : Res (GS F E) VId :=
  match s.g.vertexOf f with
  | none =>
    let r := addVertexA al f (FrameProp.setId f p) s
    .ok r.2 r.1
  | some _ => .throw (.frameAlreadyExists f) s

/-- `Graph::add_edge(vertex_descriptor, vertex_descriptor, E)` (Graph.hpp:630-657) -/
def addEdgeDA (al : Alloc F E) (o t : VId) (p : E) (s : GS F E) : Res (GS F E) Unit :=
  match s.g.findV o, s.g.findV t with
  | some ro, some rt =>
    match s.g.edge o t with
    | some _ => .throw (.edgeAlreadyExists (FrameProp.getId ro.prop) (FrameProp.getId rt.prop)) s
    | none =>
      let r1 := s.g.addEdgeA al o t p
      let r2 := r1.1.addEdgeA al t o (EdgeProp.inverse p)
      match addEdgeToTreeViews r2.1 r1.2 s.subs s.views with
      | .ok _ vs =>
        .ok () (notify (.edgeAdded (FrameProp.getId ro.prop) (FrameProp.getId rt.prop) r1.2.id)
          { s with g := r2.1, views := vs })
      | .throw x vs => .throw x { s with g := r2.1, views := vs }
      | .ub r => .ub r
  | _, _ => .ub "add_edge: dangling descriptor"

/-- Graph.hpp:668-679: create the frame if the earlier lookup `v` gave the null vertex. -/
def orCreateA (al : Alloc F E) (f : FrameId) (v : Option VId) (s : GS F E) : GS F E × VId :=
  match v with
  | none => addVertexA al f (FrameProp.setId f FrameProp.dflt) s
  | some v => (s, v)

/-- `Graph::add_edge(FrameId, FrameId, E)` (Graph.hpp:659-682) -/
def addEdgeA (al : Alloc F E) (o t : FrameId) (p : E) (s : GS F E) : Res (GS F E) Unit :=
  let vo := s.g.vertexOf o
  let vt := s.g.vertexOf t
  let r1 := orCreateA al o vo s
  let r2 := orCreateA al t vt r1.1
  addEdgeDA al r1.2 r2.2 p r2.1

/-- execute one call -/
def execA (al : Alloc F E) : Cmd F E → GS F E → Res (GS F E) Unit
  | .addFrame f, s => discard (addFrameA al f s)
  | .emplaceFrame f p, s => discard (emplaceFrameA al f p s)
  | .addEdge o t p, s => addEdgeA al o t p s
  | c, s => exec c s

/-- A history; each call comes with the choices of the allocator. -/
def runA : List (Alloc F E × Cmd F E) → GS F E → Option (GS F E)
  | [], s => some s
  | (al, c) :: cs, s =>
    match execA al c s with
    | .ok _ s' => runA cs s'
    | .throw _ s' => runA cs s'
    | .ub _ => none

end GS
end Verif
