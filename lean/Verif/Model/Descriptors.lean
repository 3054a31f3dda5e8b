import Verif.Model.TransformOps
/-!
# Calls that take an edge descriptor (src/graph/Graph.hpp)

A Boost edge descriptor consists of the two end points and a pointer to the property of the edge.  It is modelled by the record that `getEdge`
returns; the property in the record is the one of that moment and is not used here.
-/

namespace Verif.GS
variable {F E : Type} [FrameProp F] [EdgeProp E]

/-- `Graph::getSourceVertex` (Graph.hpp:617-621); `boost::source` reads the descriptor only. -/
def getSourceVertex (e : ERec E) : VId := e.src

/-- `Graph::getTargetVertex` (Graph.hpp:623-627); `boost::target` reads the descriptor only. -/
def getTargetVertex (e : ERec E) : VId := e.tgt

/-- `Graph::getEdgeProperty(edge_descriptor)` (Graph.hpp:866-870) follows the pointer. -/
def getEdgePropertyE (e : ERec E) (s : GS F E) : Res (GS F E) E :=
  match findE s.g e.id with
  | none => .ub "getEdgeProperty: dangling descriptor"
  | some r => .ok r.prop s

/-- `Graph::containsEdge(vertex_descriptor, vertex_descriptor)` (Graph.hpp:1054-1058) -/
def containsEdgeD (u v : VId) (s : GS F E) : Res (GS F E) Bool :=
  match s.g.findV u, s.g.findV v with
  | some _, some _ => .ok (s.g.edge u v).isSome s
  | _, _ => .ub "containsEdge: dangling descriptor"

end Verif.GS
