import Verif.Model.Graph
/-!
# Moving, copying and destroying tree view objects (src/graph/TreeView.cpp:34-73)

`VS`: a graph with its views, and the callbacks connected to the three signals of each view.  `heard` (ghost): the calls of callbacks
made by each view.  The log `signals` of the emissions of a view moves along with the view, so that `new emissions` make sense.
-/

namespace Verif

/-- callbacks connected to `edgeAdded`, `edgeRemoved` and `crossEdgeAdded` (TreeView.hpp:193-201) -/
structure VSlots where
  added : List Nat
  removed : List Nat
  cross : List Nat
  deriving DecidableEq, Repr

/-- no callbacks -/
def VSlots.none : VSlots := ⟨[], [], []⟩

/-- the callbacks an emission calls -/
def VSlots.of (l : VSlots) : ViewSignal → List Nat
  | .edgeAdded _ _ => l.added
  | .edgeRemoved _ _ => l.removed
  | .crossEdgeAdded _ => l.cross

/-- calls made by emissions -/
def VSlots.callsOf (l : VSlots) (sigs : List ViewSignal) : List (Nat × ViewSignal) := sigs.flatMap fun x => (l.of x).map fun c => (c, x)

/-- a graph, all views, their callbacks, and the calls they made -/
structure VS (F E : Type) where
  gs : GS F E
  slots : Nat → VSlots
  heard : Nat → List (Nat × ViewSignal)

namespace VS
variable {F E : Type} [FrameProp F] [EdgeProp E]

/-- the state after a graph call: all views call their callbacks for what they emitted meanwhile (callbacks are passive) -/
def emitted (s : VS F E) (t : GS F E) : VS F E :=
  ⟨t, s.slots, fun p => s.heard p ++ (s.slots p).callsOf ((t.views p).signals.drop (s.gs.views p).signals.length)⟩

/-- a graph call -/
def exec (c : GS.Cmd F E) (s : VS F E) : Res (VS F E) Unit :=
  match GS.exec c s.gs with
  | .ok _ t => .ok () (s.emitted t)
  | .throw x t => .throw x (s.emitted t)
  | .ub r => .ub r

/-- a history as in `GS.run` -/
def run : List (GS.Cmd F E) → VS F E → Option (VS F E)
  | [], s => some s
  | c :: cs, s =>
    match exec c s with
    | .ok _ s' => run cs s'
    | .throw _ s' => run cs s'
    | .ub _ => none

/-- `view->edgeAdded.connect(c)` etc. -/
def setSlots (p : Nat) (l : VSlots) (s : VS F E) : VS F E := { s with slots := fun x => if x = p then l else s.slots x }

/-- `TreeView(TreeView&&)` (TreeView.cpp:48-62): `q` is constructed from `p`.  `crossEdges`, `tree` are moved, `root` is copied; a subscribed
view is unsubscribed and the new one subscribed; only two of the three signals are swapped. -/
def move (p q : Nat) (s : VS F E) : VS F E :=
  let w := s.gs.views p
  { s with
    gs := { s.gs with
      subs := if w.publisher then s.gs.subs.filter (· ≠ p) ++ [q] else s.gs.subs
      views := fun x => if x = q then w else if x = p then { w with tree := [], crossEdges := [], publisher := false } else s.gs.views x }
    slots := fun x => if x = q then ⟨(s.slots p).added, [], (s.slots p).cross⟩ else if x = p then ⟨[], (s.slots p).removed, []⟩ else s.slots x
    heard := fun x => if x = q then [] else s.heard x }

/-- `operator=(const TreeView&)` (TreeView.cpp:34-46) on an existing view `q`: the pointer `publisher` is copied too; the callbacks stay. -/
def assign (p q : Nat) (s : VS F E) : VS F E :=
  { s with gs := { s.gs with views := fun x => if x = q then { s.gs.views p with signals := (s.gs.views q).signals } else s.gs.views x } }

/-- `TreeView(const TreeView&)` (TreeView.hpp:89): `q` is constructed, then assigned. -/
def copy (p q : Nat) (s : VS F E) : VS F E :=
  assign p q { s with
    gs := { s.gs with views := fun x => if x = q then TreeView.empty else s.gs.views x }
    slots := fun x => if x = q then VSlots.none else s.slots x
    heard := fun x => if x = q then [] else s.heard x }

/-- `~TreeView` (TreeView.cpp:65-73): the object `q` does not exist any more afterwards. -/
def destroy (q : Nat) (s : VS F E) : VS F E := { s with gs := GS.unsubscribeView q s.gs }

end VS
end Verif
