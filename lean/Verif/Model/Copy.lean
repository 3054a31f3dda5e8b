import Verif.Model.Graph
/-!
# Copying a graph (src/graph/Graph.hpp:402-418, 1029-1038)
-/

namespace Verif
namespace G
variable {F E : Type} [FrameProp F]

/-- The vertex loop of `boost::copy_graph`: `add_vertex` on the unlabelled `directed_graph`, then
`orig2copy[vertex_index(v)] = new vertex`, where `orig2copy` is a vector of length `n = num_vertices`.  `none`: write beyond the
end of the vector (undefined behaviour). -/
def copyVert (n : Nat) (st : G F E × AMap Nat VId) (r : VRec F) : Option (G F E × AMap Nat VId) :=
  if r.idx < n then
    some ({ st.1 with verts := st.1.verts ++ [⟨st.1.nextV, st.1.nextIdx, r.prop⟩], nextV := st.1.nextV + 1,
                      nextIdx := st.1.nextIdx + 1 },
      st.2.set r.idx st.1.nextV)
  else none

/-- The edge loop of `boost::copy_graph`; `none`: dangling end point or an entry of `orig2copy` that was never written. -/
def copyEdge (g : G F E) (m : AMap Nat VId) (h : G F E) (e : ERec E) : Option (G F E) :=
  match g.findV e.src, g.findV e.tgt with
  | some rs, some rt =>
    match m.get rs.idx, m.get rt.idx with
    | some u, some v => some (h.addEdge u v e.prop).1
    | _, _ => none
  | _, _ => none

/-- `boost::copy_graph(other, graph())`: returns at once if there are no vertices. -/
def copyGraph (g : G F E) : Option (G F E) :=
  if g.verts = [] then some G.empty
  else
    match g.verts.foldlM (copyVert g.verts.length) (G.empty, []) with
    | none => none
    | some st => g.edges.foldlM (copyEdge g st.2) st.1

/-- `Graph::regenerateLabelMap` (Graph.hpp:1029-1038) -/
def regenerateLabelMap (g : G F E) : G F E :=
  { g with labels := g.verts.foldl (fun m r => m.set (FrameProp.getId r.prop) r.id) g.labels }

end G

/-- Copy constructor `Graph::Graph(const Graph&)` (Graph.hpp:402-418).  The new object has no subscribers and no subscribed tree
views.  `none` = undefined behaviour. -/
def GS.copy {F E : Type} [FrameProp F] (s : GS F E) : Option (GS F E) :=
  match s.g.copyGraph with
  | none => none
  | some g => some ⟨g.regenerateLabelMap, [], fun _ => TreeView.empty, []⟩

end Verif
