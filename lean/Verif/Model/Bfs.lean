import Verif.Model.Boost
/-!
# `boost::breadth_first_search` and the path-search visitor

Graph.hpp:1075-1095 (`breadthFirstSearch`) calls `boost::breadth_first_search` with an `unordered_map` as colour map: a
vertex that is not in the map has the value-initialised colour, which is white.
-/

namespace Verif

/-- An edge without its property, as the visitors see it. -/
structure Arc where
  id : EId
  src : VId
  tgt : VId
  deriving DecidableEq, Repr

/-- forget the property -/
def ERec.arc {E : Type} (e : ERec E) : Arc := ⟨e.id, e.src, e.tgt⟩

/-- the out-edges of a vertex as arcs -/
def G.outArcs {F E : Type} (g : G F E) (u : VId) : List Arc := (g.outEdges u).map ERec.arc

/-- `boost::default_color_type` -/
inductive Color
  | white | gray | black
  deriving DecidableEq, Repr

/-- The visitor callbacks of `boost::breadth_first_search` that the visitors of the library implement. -/
inductive BfsEv
  | discover (v : VId)
  | treeEdge (a : Arc)
  | grayTarget (a : Arc)
  | blackTarget (a : Arc)
  deriving DecidableEq, Repr

/-- State of the search: colour map, FIFO buffer, callbacks made so far. -/
structure BfsSt where
  color : VId → Color
  queue : List VId
  evs : List BfsEv

/-- Treatment of one out-edge by `boost::breadth_first_visit`. -/
def bfsArc (s : BfsSt) (a : Arc) : BfsSt :=
  match s.color a.tgt with
  | .white =>
    { color := fun x => if x = a.tgt then .gray else s.color x
      queue := s.queue ++ [a.tgt]
      evs := s.evs ++ [.treeEdge a, .discover a.tgt] }
  | .gray => { s with evs := s.evs ++ [.grayTarget a] }
  | .black => { s with evs := s.evs ++ [.blackTarget a] }

/-- All out-edges of one vertex, in order. -/
def bfsScan (s : BfsSt) (as : List Arc) : BfsSt := as.foldl bfsArc s

/-- Main loop: pop a vertex, treat its out-edges, colour it black.  `none`: out of fuel. -/
def bfsLoop (out : VId → List Arc) : Nat → BfsSt → Option BfsSt
  | fuel, s =>
    match s.queue with
    | [] => some s
    | u :: q =>
      match fuel with
      | 0 => none
      | n + 1 =>
        let s1 := bfsScan { s with queue := q } (out u)
        bfsLoop out n { s1 with color := fun x => if x = u then .black else s1.color x }

/-- Start: everything white, root gray, discovered and pushed. -/
def bfsInit (root : VId) : BfsSt :=
  { color := fun x => if x = root then .gray else .white
    queue := [root]
    evs := [.discover root] }

/-- The callbacks of a complete breadth first search (`none`: endless loop). -/
def bfs (out : VId → List Arc) (fuel : Nat) (root : VId) : Option (List BfsEv) :=
  (bfsLoop out fuel (bfsInit root)).map (·.evs)

/-- The loop in `GraphBFSVisitor::discover_vertex` (src/graph/GraphVisitors.hpp:67-80): follow the parents and push them
to the front.  `none`: endless loop. -/
def walkParents (parent : AMap VId VId) : Nat → VId → List VId → Option (List VId)
  | 0, _, _ => none
  | n + 1, v, tree =>
    match parent.get v with
    | none => some (v :: tree)
    | some p => walkParents parent n p (v :: tree)

/-- `GraphBFSVisitor` (src/graph/GraphVisitors.hpp:51-99) run over the callbacks: result of the search.
`none` = the search ended without FoundFrameException; `some none` = endless loop; `some (some tree)` = found. -/
def searchVisitor (target : VId) : AMap VId VId → List BfsEv → Option (Option (List VId))
  | _, [] => none
  | parent, .discover v :: evs =>
    if target = v then some (walkParents parent (parent.length + 1) v [])
    else searchVisitor target parent evs
  | parent, .treeEdge a :: evs => searchVisitor target (parent.insertNew a.tgt a.src) evs
  | parent, .grayTarget _ :: evs => searchVisitor target parent evs
  | parent, .blackTarget _ :: evs => searchVisitor target parent evs

end Verif
