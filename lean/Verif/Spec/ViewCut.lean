import Verif.Spec.TreeView
/-! # Specification: which removals a tree view survives

A view survives the removal of a connection if it is no tree edge of the view, or if no cross edge leads out of the part behind it and the
cross edges inside this part are closed in the reverse order of the list of cross edges.  A cross edge is closed when the second of its
ends is visited by `visitBfs` (C25 says what it visits). -/

namespace Verif

/-- the vertices behind the tree edge between `a` and `b`, in the order in which `TreeView::visitBfs` calls its function -/
def TreeView.cutOrder (w : TreeView) (a b : VId) : List VId :=
  match w.visitBfs (w.tree.length + 1) [if w.parentOf b = some a then b else a] with
  | .ok calls _ => calls.map Prod.fst
  | _ => []

/-- the moment at which the second end of a cross edge is visited -/
def lastVisit (L : List VId) (c : CrossEdge) : Nat := max (L.idxOf c.origin) (L.idxOf c.target)

/-- no cross edge leads out of the part behind the tree edge between `a` and `b` -/
def TreeView.Sealed (w : TreeView) (a b : VId) : Prop :=
  w.TreeEdge a b → ∀ c ∈ w.crossEdges, (w.Cut a b c.origin ↔ w.Cut a b c.target)

/-- cross edges inside the part behind the tree edge are closed in the reverse order of the list -/
def TreeView.ClosedBackwards (w : TreeView) (a b : VId) : Prop :=
  w.TreeEdge a b → w.crossEdges.Pairwise (fun c c' => w.Cut a b c.origin → w.Cut a b c'.origin →
    lastVisit (w.cutOrder a b) c' < lastVisit (w.cutOrder a b) c)

end Verif
