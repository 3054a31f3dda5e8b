import Verif.Model.Drawing
/-!
# Drawing a graph with other frame and edge classes (src/graph/GraphDrawing.hpp)

`frameText` is `toString()` of the frame property, `edgeText` the text of an edge property between the quotes (GraphDrawing.hpp:95-97 for
`TransformGraph`, :115 `toString()` for `Graph`).  `boost::write_graphviz` is trusted as in Model/Drawing.
-/

namespace Verif
namespace Draw
variable {F E : Type}

/-- `GenericVertexWriter::operator()` (GraphDrawing.hpp:72-80).  The text is written as it is. -/
def genericText (frameText : F → List Char) (f : F) : List Char :=
  "[shape=record, label=\"{{".toList ++ frameText f ++ ['}'] ++ "}\"".toList ++ ",style=filled,fillcolor=lightblue]".toList

/-- index of a vertex -/
def indexIn (g : G F E) (v : VId) : Nat := ((g.findV v).map VRec.idx).getD 0

/-- one vertex -/
def genericLine (frameText : F → List Char) (r : VRec F) : List Char := dec r.idx ++ genericText frameText r.prop ++ ";\n".toList

/-- one edge -/
def genericArrow (edgeText : E → List Char) (g : G F E) (e : ERec E) : List Char :=
  dec (indexIn g e.src) ++ "->".toList ++ dec (indexIn g e.tgt) ++ [' '] ++ edgeLabel edgeText e.prop ++ ";\n".toList

/-- `GraphDrawing::write(const TransformGraph<FRAME_PROP>&, std::ostream&)` and `write(const Graph<EDGE_PROP, FRAME_PROP>&, std::ostream&)`
(GraphDrawing.hpp:178-194) -/
def drawGeneric (frameText : F → List Char) (edgeText : E → List Char) (g : G F E) : List Char :=
  header ++ g.verts.flatMap (genericLine frameText) ++ g.edges.flatMap (genericArrow edgeText g) ++ "}\n".toList

end Draw
end Verif
