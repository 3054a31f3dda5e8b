import Verif.Model.EnvireGraph
import Verif.Model.Util
/-!
# Drawing a graph (src/graph/GraphDrawing.hpp)

Text is a list of characters.  Trusted (Boost, not in the repository): `boost::write_graphviz` writes the header, then each vertex with its
index, then each edge with the indices of its ends.  `typeName` is `demangleTypeName` (src/util/Demangle.cpp:32-52), `edgeText` the text of
an edge property between the quotes (GraphDrawing.hpp:94-97: time and formatted numbers; :115: `toString()`).
-/

namespace Verif
namespace Draw
variable {E : Type}

/-- a decimal digit -/
def digit (n : Nat) : Char := Char.ofNat (48 + n % 10)

/-- `out << n` -/
def dec (n : Nat) : List Char := if n < 10 then [digit n] else dec (n / 10) ++ [digit n]

/-- the loop of `EnvireGraphVertexWriter` over the items of the frame (GraphDrawing.hpp:54-59) -/
def typesText (typeName : TypeIdx → List Char) : AMap TypeIdx (List ItemId) → List Char
  | [] => []
  | (t, l) :: m => "| {".toList ++ escapeAngleBraces (typeName t) ++ ['|'] ++ dec l.length ++ ['}'] ++ typesText typeName m

/-- `EnvireGraphVertexWriter::operator()` (GraphDrawing.hpp:45-61).  The name of the frame is written as it is. -/
def frameText (typeName : TypeIdx → List Char) (fr : EFrame) : List Char :=
  "[shape=record, label=\"{{".toList ++ fr.id.toList ++ ['|'] ++ dec fr.totalItemCount ++ ['}'] ++ typesText typeName fr.items ++
    "}\"".toList ++ ",style=filled,fillcolor=lightblue]".toList

/-- `EnvireGraphEdgeWriter::operator()`, `GenericEdgeWriter::operator()` (GraphDrawing.hpp:91-100, 111-117) -/
def edgeLabel (edgeText : E → List Char) (p : E) : List Char :=
  "[label=\"".toList ++ edgeText p ++ "\"".toList ++ ",shape=ellipse,color=red,style=filled,fillcolor=lightcoral]".toList

/-- index of a vertex -/
def indexOf (g : G EFrame E) (v : VId) : Nat := ((g.findV v).map VRec.idx).getD 0

/-- one vertex -/
def vertexLine (typeName : TypeIdx → List Char) (r : VRec EFrame) : List Char := dec r.idx ++ frameText typeName r.prop ++ ";\n".toList

/-- one edge -/
def edgeLine (edgeText : E → List Char) (g : G EFrame E) (e : ERec E) : List Char :=
  dec (indexOf g e.src) ++ "->".toList ++ dec (indexOf g e.tgt) ++ [' '] ++ edgeLabel edgeText e.prop ++ ";\n".toList

/-- `write_graphviz` begins with this, then `GraphPropWriter::operator()` (GraphDrawing.hpp:127-131) -/
def header : List Char :=
  "digraph G {\n".toList ++ "graph[size=\"88,136\", ranksep=3.0, nodesep=2.0, fontname=\"Helvetica\", fontsize=8];\n".toList

/-- `GraphDrawing::write(const EnvireGraph&, std::ostream&)` (GraphDrawing.hpp:170-176) -/
def draw (typeName : TypeIdx → List Char) (edgeText : E → List Char) (g : G EFrame E) : List Char :=
  header ++ g.verts.flatMap (vertexLine typeName) ++ g.edges.flatMap (edgeLine edgeText g) ++ "}\n".toList

end Draw
end Verif
