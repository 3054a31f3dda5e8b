import Verif.Spec.TreeView
/-!
# Specification: tree views of graphs with self edges
-/

namespace Verif
variable {F E : Type}

/-- `w` is a tree view of `g` with root `root` that is correct apart from self edges, and the self edges of each vertex of the view are listed by one
or two cross edges. -/
structure IsTreeViewLoops (g : G F E) (root : VId) (w : TreeView) : Prop where
  /-- without self edges it is a correct tree view -/
  view : IsTreeView { g with edges := g.edges.filter (fun r => r.src ≠ r.tgt) } root
    { w with crossEdges := w.crossEdges.filter (fun c => c.origin ≠ c.target) }
  /-- cross edges from a vertex to itself: none, one or two -/
  loops_le : ∀ u, (w.crossEdges.filter (fun c => c.Joins u u)).length ≤ 2
  /-- there are some exactly if the vertex is in the view and has a self edge -/
  loops_pos : ∀ u, 0 < (w.crossEdges.filter (fun c => c.Joins u u)).length ↔ w.vertexExists u = true ∧ g.Adj u u

end Verif
