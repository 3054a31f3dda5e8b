import Verif.Model.ItemReenter
/-!
# Visitors that call the graph (`Graph::visitVertices`, `EnvireGraph::visitItems`)

The vertices are kept in a `std::list` (`boost::directed_graph`): new ones are appended, an iterator stays valid until its own vertex is
removed.  The items of a frame are kept in vectors in an `unordered_map`.

A visitor is described by the calls that it makes for a vertex, as a function of the vertices it was called for before, the vertex and the
present state, and by whether it throws afterwards.  It catches the exceptions of the calls.  As in `Model/Reenter.lean` a number bounds
the length of the run, so that visits without end can be described.

Simplification: if the visitor of the items changes the items of the visited frame, the outcome is counted as undefined, although some of
the iterators would stay valid.
-/

namespace Verif
namespace GS
variable {F E : Type} [FrameProp F] [EdgeProp E]

/-- the calls that a visitor makes, and whether it throws afterwards -/
abbrev Visitor (F E : Type) := List VId → VId → GS F E → List (Cmd F E) × Bool

/-- `++vert` for an iterator that points to `v`: `none` if the vertex is not in the list any more (undefined behaviour), otherwise the
next vertex or the end -/
def nextVertex (v : VId) : List (VRec F) → Option (Option VId)
  | [] => none
  | r :: l => if r.id = v then some (l.head?.map VRec.id) else nextVertex v l

/-- the loop of `visitVertices` (Graph.hpp:1102-1104) from vertex `v` on; the result is the list of the visited vertices -/
def visitFrom (vis : Visitor F E) : Nat → List VId → VId → GS F E → Res (GS F E) (List VId)
  | 0, _, _, _ => .ub "visitVertices: no end"
  | n + 1, seen, v, s =>
    match run (vis seen v s).1 s with
    | none => .ub "visitVertices: the visitor"
    | some s1 =>
      if (vis seen v s).2 then .throw (.runtimeError "thrown by the visitor") s1
      else
        match nextVertex v s1.g.verts with
        | none => .ub "visitVertices: iterator of a removed vertex"
        | some none => .ok (seen ++ [v]) s1
        | some (some w) => visitFrom vis n (seen ++ [v]) w s1

/-- `Graph::visitVertices` (Graph.hpp:1097-1106) -/
def visitVertices (vis : Visitor F E) (n : Nat) (s : GS F E) : Res (GS F E) (List VId) :=
  match s.g.verts with
  | [] => .ok [] s
  | r :: _ => visitFrom vis n [] r.id s

end GS

namespace EG
variable {E : Type} [EdgeProp E]

/-- the calls that a visitor of items makes, and whether it throws afterwards -/
abbrev ItemVisitor (E : Type) := List ItemId → ItemId → EG E → List (Cmd E) × Bool

/-- the loops of `Frame::visitItems` (Frame.hpp:124-134) over the items that are left, in vertex `v` -/
def visitRest (vis : ItemVisitor E) (f : FrameId) (v : VId) : List ItemId → List ItemId → EG E → Res (EG E) (List ItemId)
  | seen, [], s => .ok seen s
  | seen, i :: l, s =>
    match run (vis seen i s).1 s with
    | none => .ub "visitItems: the visitor"
    | some s1 =>
      if (vis seen i s).2 then .throw (.runtimeError "thrown by the visitor") s1
      else if touched f s s1 ∨ itemsAt v s1 ≠ itemsAt v s then .ub "visitItems: invalidated iterator"
      else visitRest vis f v (seen ++ [i]) l s1

/-- `EnvireGraph::visitItems` (EnvireGraph.hpp:297-303); the result is the list of the visited items -/
def visitItemsWith (vis : ItemVisitor E) (f : FrameId) (s : EG E) : Res (EG E) (List ItemId) :=
  match s.gs.g.vertexOf f with
  | none => .throw (.unknownFrame f) s
  | some v =>
    match s.gs.g.findV v with
    | none => .ub "operator[]: dangling descriptor"
    | some r => visitRest vis f v [] r.prop.visit s

end EG
end Verif
