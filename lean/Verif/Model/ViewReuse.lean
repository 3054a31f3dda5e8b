import Verif.Model.Graph
/-!
# Using a tree view object again (src/graph/TreeView.cpp:97-102, src/graph/Graph.hpp:573-579 and 831-838)
-/

namespace Verif.GS
variable {F E : Type}

/-- `view->clear()` (TreeView.cpp:97-102); a subscribed view stays subscribed -/
def clearView (p : Nat) (s : GS F E) : GS F E := { s with views := setView s.views p (s.views p).clear }

/-- `Graph::unsubscribeTreeView(view)` (Graph.hpp:573-579) called by the user, as the documentation of `getTree` proposes
(Graph.hpp:248-249); the pointer `publisher` of the view is not changed -/
def unsubscribeTreeView (p : Nat) (s : GS F E) : GS F E := { s with subs := s.subs.filter (· ≠ p) }

/-- One round of `Graph::rebuildTreeViews` (Graph.hpp:831-838).  The root is read after `clear`; a search that starts at the null vertex is
undefined behaviour. -/
def rebuildView (p : Nat) (s : GS F E) : Res (GS F E) Unit :=
  let w := (s.views p).clear
  match w.root with
  | none => .ub "breadthFirstSearch: null vertex"
  | some r =>
    match getTreeInto s.g r w with
    | .ok _ w' => .ok () { s with views := setView s.views p w' }
    | .throw x w' => .throw x { s with views := setView s.views p w' }
    | .ub r => .ub r

/-- the loop over the views -/
def rebuildLoop : List Nat → GS F E → Res (GS F E) Unit
  | [], s => .ok () s
  | p :: ps, s =>
    match rebuildView p s with
    | .ok _ s' => rebuildLoop ps s'
    | .throw x s' => .throw x s'
    | .ub r => .ub r

/-- `Graph::rebuildTreeViews` (Graph.hpp:831-838) -/
def rebuildTreeViews (s : GS F E) : Res (GS F E) Unit := rebuildLoop s.subs s

end Verif.GS
