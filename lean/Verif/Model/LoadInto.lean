import Verif.Model.Archive
import Verif.Model.Copy
/-!
# Loading into a graph that already contains data (src/graph/EnvireGraph.cpp:324-332, src/graph/Graph.hpp:991-999)

"FIXME I have no idea what happens when the graph already contains data" (EnvireGraph.hpp:228).

Trusted: the load function of the package boost_serialization adds the vertices and edges to the given `boost::directed_graph` without
clearing it, as the one of Boost does for its adjacency lists.  Simplification: a load that throws is not followed further.
-/

namespace Verif
variable {D E : Type}

/-- the items of a loaded frame are new objects; they get the numbers from `off` on -/
def EFrame.shift (off : Nat) (fr : EFrame) : EFrame := { fr with items := fr.items.map (fun p => (p.1, p.2.map (· + off))) }

namespace IArchive

/-- `n` vertices; each is added to the graph, below the labels -/
def loadFramesInto (H : String → Bool) (off : Nat) : Nat → G EFrame E → IArchive D E → Res (IArchive D E) (G EFrame E)
  | 0, g, a => .ok g a
  | n + 1, g, a => bind (loadFrame H a) fun fr a =>
    loadFramesInto H off n
      { g with verts := g.verts ++ [⟨g.nextV, g.nextIdx, fr.shift off⟩], nextV := g.nextV + 1, nextIdx := g.nextIdx + 1 } a

/-- `Graph::load` (Graph.hpp:991-999) into the graph `g` -/
def loadGraphInto (H : String → Bool) (off : Nat) (g : G EFrame E) (a : IArchive D E) : Res (IArchive D E) (G EFrame E) :=
  bind (a.read size?) fun n a => bind (a.read size?) fun m a =>
    bind (loadFramesInto H off n g a) fun g1 a =>
      bind (loadEdges ((g1.verts.drop g.verts.length).map VRec.id) m g1 a) fun g2 a =>
        .ok g2.regenerateLabelMap a

end IArchive

/-- the item objects after loading: the old ones have numbers below `off` -/
def EG.heapAfter (off : Nat) (heap : ItemId → ItemObj) (objs : List (SObj D)) : ItemId → ItemObj := fun i =>
  if i < off then heap i else ((objs[i - off]?).map SObj.item).getD (heap i)

/-- `EnvireGraph::loadFromFile` (EnvireGraph.cpp:324-332) with the content of the file; neither events nor tree views are touched -/
def EG.loadFromFile (H : String → Bool) (off : Nat) (ts : List (Tok D E)) (s : EG E) : Res (IArchive D E) (EG E) :=
  IArchive.bind (IArchive.loadGraphInto H off s.gs.g (IArchive.new ts)) fun g a =>
    .ok ⟨{ s.gs with g := g }, heapAfter off s.heap a.objs⟩ a

end Verif
