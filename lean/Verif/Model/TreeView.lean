import Verif.Model.Bfs
/-!
# `envire::core::TreeView` (src/graph/TreeView.hpp, src/graph/TreeView.cpp) and `TreeBuilderVisitor`
-/

namespace Verif

/-- `VertexRelation` (src/graph/TreeView.hpp): parent (null = `none`) and set of children.  The children are an
`unordered_set` in C++; here a duplicate-free list in insertion order. -/
structure VRel where
  parent : Option VId
  children : List VId
  deriving DecidableEq, Repr

/-- `TreeView::CrossEdge` -/
structure CrossEdge where
  origin : VId
  target : VId
  edge : EId
  deriving DecidableEq, Repr

/-- Emissions of the boost signals `edgeAdded`, `edgeRemoved` and `crossEdgeAdded` of a view. -/
inductive ViewSignal
  | edgeAdded (o t : VId)
  | edgeRemoved (p n : VId)
  | crossEdgeAdded (c : CrossEdge)
  deriving DecidableEq, Repr

/-- A `TreeView` object.  `publisher`: is the pointer `publisher` set.  `signals`: everything that was emitted so far
(the connected slots are outside of the model). -/
structure TreeView where
  tree : AMap VId VRel
  crossEdges : List CrossEdge
  root : Option VId
  publisher : Bool
  signals : List ViewSignal
  deriving DecidableEq, Repr

namespace TreeView

/-- default constructed view -/
def empty : TreeView := ⟨[], [], none, false, []⟩

/-- `tree[v]` of an unordered_map: inserts a value-initialised relation if `v` is absent. -/
def relOf (w : TreeView) (v : VId) : VRel := (w.tree.get v).getD ⟨none, []⟩

/-- `std::unordered_set::insert` -/
def setInsert (l : List VId) (v : VId) : List VId := if v ∈ l then l else l ++ [v]

/-- `TreeView::vertexExists` (TreeView.cpp:140-143) -/
def vertexExists (w : TreeView) (v : VId) : Bool := (w.tree.get v).isSome

/-- `TreeView::edgeExists` (TreeView.cpp:113-138), including its asserts. `none` = assertion failure. -/
def edgeExists (w : TreeView) (a b : VId) : Option Bool :=
  match w.tree.get a, w.tree.get b with
  | some ra, some rb =>
    if ra.parent = some b then
      if a ∈ rb.children then some true else none
    else if rb.parent = some a then
      if b ∈ ra.children then some true else none
    else some false
  | _, _ => some false

/-- `TreeView::addCrossEdge` (TreeView.cpp:145-151) -/
def addCrossEdge (w : TreeView) (o t : VId) (e : EId) : TreeView :=
  { w with crossEdges := w.crossEdges ++ [⟨o, t, e⟩]
           signals := w.signals ++ [.crossEdgeAdded ⟨o, t, e⟩] }

/-- `TreeView::addEdge` (TreeView.cpp:152-157) -/
def addEdge (w : TreeView) (o t : VId) : TreeView :=
  let w1 := { w with tree := w.tree.set o { w.relOf o with children := setInsert (w.relOf o).children t } }
  let w2 := { w1 with tree := w1.tree.set t { w1.relOf t with parent := some o } }
  { w2 with signals := w2.signals ++ [.edgeAdded o t] }

/-- `TreeView::addRoot` (TreeView.cpp:255-259) -/
def addRoot (w : TreeView) (r : VId) : TreeView :=
  { w with tree := w.tree.set r { w.relOf r with parent := none }, root := some r }

/-- `TreeView::clear` (TreeView.cpp:97-102) -/
def clear (w : TreeView) : TreeView := { w with tree := [], crossEdges := [], root := none }

/-- `TreeView::isRoot` (TreeView.cpp:92-95) -/
def isRoot (w : TreeView) (v : VId) : Bool := w.root = some v

/-- `TreeView::hasRoot` (TreeView.cpp:75-84) -/
def hasRoot (w : TreeView) : Bool := w.root.isSome

/-- `TreeView::getParent` (TreeView.cpp:261-272) -/
def getParent (w : TreeView) (v : Option VId) : Res TreeView (Option VId) :=
  match v with
  | none => .throw (.runtimeError "null vertex") w
  | some v =>
    match w.tree.get v with
    | none => .throw (.runtimeError "not in the tree") w
    | some r => .ok r.parent w

/-- `TreeView::isParent` (TreeView.cpp:274-277); `tree.at` throws out_of_range. -/
def isParent (w : TreeView) (p c : VId) : Res TreeView Bool :=
  match w.tree.get c with
  | none => .throw .outOfRange w
  | some r => .ok (r.parent = some p) w

/-- One callback of `TreeBuilderVisitor` (src/graph/GraphVisitors.hpp:104-141). -/
def buildStep (w : TreeView) : BfsEv → TreeView
  | .treeEdge a => w.addEdge a.src a.tgt
  | .grayTarget a => w.addCrossEdge a.src a.tgt a.id
  | .discover _ => w
  | .blackTarget _ => w

/-- `TreeBuilderVisitor` over all callbacks of a search. -/
def build (w : TreeView) (evs : List BfsEv) : TreeView := evs.foldl buildStep w

/-- `TreeView::visitDfs` (TreeView.hpp:121-131): the calls of `f(node, parent)` in order.  `f` is assumed not to change the
view.  Recursion depth is bounded by fuel; `ub` = endless recursion. `tree.at` throws out_of_range for unknown nodes. -/
def visitDfs (w : TreeView) : Nat → VId → Res TreeView (List (VId × Option VId))
  | 0, _ => .ub "visitDfs: endless recursion"
  | n + 1, v =>
    match w.tree.get v with
    | none => .throw .outOfRange w
    | some r => go n r.children [(v, r.parent)]
where
  /-- the loop over the children -/
  go (n : Nat) : List VId → List (VId × Option VId) → Res TreeView (List (VId × Option VId))
    | [], acc => .ok acc w
    | c :: cs, acc =>
      match visitDfs w n c with
      | .ok l _ => go n cs (acc ++ l)
      | .throw e s => .throw e s
      | .ub r => .ub r

/-- `TreeView::visitBfs` (TreeView.hpp:135-156): the calls of `f(node, parent)` in order, for an `f` that neither throws nor
changes the map `tree`.  First argument: fuel, second: `nodesToVisit`.  An exception of `getParent` is replaced by another
runtime_error; the calls made before it are not part of the result (see `bfsCalls`). -/
def visitBfs (w : TreeView) : Nat → List VId → Res TreeView (List (VId × Option VId))
  | _, [] => .ok [] w
  | 0, _ :: _ => .ub "visitBfs: endless loop"
  | n + 1, v :: q =>
    match w.tree.get v with
    | none => .throw (.runtimeError "visitBfs") w
    | some r =>
      match visitBfs w n (q ++ r.children) with
      | .ok l _ => .ok ((v, r.parent) :: l) w
      | .throw e s => .throw e s
      | .ub m => .ub m

/-- The vertices for which `TreeView::visitBfs` (TreeView.hpp:135-156) calls its function before it ends or throws. -/
def bfsCalls (w : TreeView) : Nat → List VId → List VId
  | _, [] => []
  | 0, _ :: _ => []
  | n + 1, v :: q =>
    match w.tree.get v with
    | none => []
    | some r => v :: bfsCalls w n (q ++ r.children)

/-- Bookkeeping of `TreeView::removeEdge` for one cross edge iterator (TreeView.cpp:214-228).
Iterators into the vector are modelled by `idx`, the original position of the element; `cur` is the current content of the
vector, tagged with the original positions; `bad`: iterators with original position ≥ `bad` have been invalidated by an
`erase`; `S`: the set `treeLeavingCrossEdges`.  Comparing (find) with an invalid iterator is undefined. -/
structure RmSt where
  cur : List (Nat × CrossEdge)
  bad : Option Nat
  S : List Nat

/-- is the iterator still valid -/
def RmSt.valid (st : RmSt) (i : Nat) : Bool :=
  match st.bad with
  | none => true
  | some b => i < b

/-- one iteration of the inner loop (TreeView.cpp:214-228); `none` = undefined behaviour -/
def rmCross (st : RmSt) (i : Nat) : Option RmSt :=
  if st.valid i ∧ st.S.all st.valid then
    if i ∈ st.S then
      some { cur := st.cur.filter (fun p => p.1 ≠ i)
             bad := some (match st.bad with | none => i | some b => min b i)
             S := st.S.filter (fun j => j ≠ i) }
    else some { st with S := st.S ++ [i] }
  else none

/-- `equal_range(node)` of the multimap `vertexToCrossEdge` (TreeView.cpp:181-186): positions of the incident cross edges, a
self loop is entered twice. -/
def incident (ces : List (Nat × CrossEdge)) (v : VId) : List Nat :=
  ces.flatMap (fun p => (if p.2.origin = v then [p.1] else []) ++ (if p.2.target = v then [p.1] else []))

/-- the visitor lambda (TreeView.cpp:210-229) for all visited vertices -/
def rmVisit (ces : List (Nat × CrossEdge)) : RmSt → List VId → Option RmSt
  | st, [] => some st
  | st, v :: vs =>
    match (incident ces v).foldlM rmCross st with
    | none => none
    | some st' => rmVisit ces st' vs

/-- the loop that removes the vertices (TreeView.cpp:233-245); the list is already in reverse order.  A null parent would
create an entry for the null vertex; treated as `ub`. -/
def rmVerts (w : TreeView) : List VId → Res TreeView Unit
  | [] => .ok () w
  | v :: vs =>
    match (w.relOf v).parent with
    | none => .ub "removeEdge: vertex without parent"
    | some p =>
      let w1 := { w with tree := w.tree.set p { w.relOf p with children := (w.relOf p).children.filter (· ≠ v) } }
      if (w1.relOf v).children = [] then
        rmVerts { w1 with tree := w1.tree.erase v, signals := w1.signals ++ [.edgeRemoved p v] } vs
      else .ub "removeEdge: assert(children.size() == 0)"

/-- number the elements of a list -/
def number {α : Type} : Nat → List α → List (Nat × α)
  | _, [] => []
  | n, a :: as => (n, a) :: number (n + 1) as

/-- `TreeView::removeEdge` (TreeView.cpp:161-253).  If `visitBfs` throws, cross edges that were closed before are already erased. -/
def removeEdge (w : TreeView) (o t : VId) : Res TreeView Unit :=
  let realTarget : Option VId :=
    if (w.relOf t).parent = some o then some t
    else if (w.relOf o).parent = some t then some o
    else none
  match realTarget with
  | none => .ub "removeEdge: assert(false)"
  | some rt =>
    match w.visitBfs (w.tree.length + 1) [rt] with
    | .ub m => .ub m
    | .throw e _ =>
      let ces := number 0 w.crossEdges
      match rmVisit ces ⟨ces, none, []⟩ (w.bfsCalls (w.tree.length + 1) [rt]) with
      | none => .ub "removeEdge: use of an invalidated iterator"
      | some st => .throw e { w with crossEdges := st.cur.map (·.2) }
    | .ok calls _ =>
      let ces := number 0 w.crossEdges
      match rmVisit ces ⟨ces, none, []⟩ (calls.map (·.1)) with
      | none => .ub "removeEdge: use of an invalidated iterator"
      | some st =>
        match rmVerts { w with crossEdges := st.cur.map (·.2) } (calls.map (·.1)).reverse with
        | .ub m => .ub m
        | .throw e s => .throw e s
        | .ok _ w' =>
          if st.S = [] then .ok () w'
          else .throw (.runtimeError "NOT IMPLEMENTED") w'

end TreeView
end Verif
