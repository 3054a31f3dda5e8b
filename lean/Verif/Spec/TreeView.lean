import Verif.Model.Graph
import Verif.Spec.Paths
import Mathlib.Logic.Relation
/-!
# Specification: what a correct tree view of a graph is
-/

namespace Verif
variable {F E : Type}

/-- there is an edge from `x` to `y` -/
def G.Adj (g : G F E) (x y : VId) : Prop := ∃ e ∈ g.edges, e.src = x ∧ e.tgt = y

/-- `y` can be reached from `x` -/
def G.Reach (g : G F E) (x y : VId) : Prop := Relation.ReflTransGen g.Adj x y

/-- the parent of `v` in the view, if `v` is in it and has one -/
def TreeView.parentOf (w : TreeView) (v : VId) : Option VId := (w.tree.get v).bind VRel.parent

/-- `u` and `v` are child and parent in the view -/
def TreeView.TreeEdge (w : TreeView) (u v : VId) : Prop := w.parentOf u = some v ∨ w.parentOf v = some u

/-- `x` is in the subtree of `v`: following the parents from `x` leads to `v` -/
def TreeView.Under (w : TreeView) (x v : VId) : Prop := Relation.ReflTransGen (fun a b => w.parentOf a = some b) x v

/-- `x` is in the part of the view that hangs on the tree edge between `a` and `b` -/
def TreeView.Cut (w : TreeView) (a b x : VId) : Prop :=
  (w.parentOf b = some a ∧ w.Under x b) ∨ (w.parentOf a = some b ∧ w.Under x a)

/-- the cross edge joins `u` and `v` -/
def CrossEdge.Joins (c : CrossEdge) (u v : VId) : Prop :=
  (c.origin = u ∧ c.target = v) ∨ (c.origin = v ∧ c.target = u)

instance (c : CrossEdge) (u v : VId) : Decidable (c.Joins u v) := by unfold CrossEdge.Joins; infer_instance

/-- The connection between `a` and `b` is not a cross edge of the view, and if it is a tree edge then no cross edge leads from the
subtree behind it to the rest, and at most one cross edge is inside this subtree. -/
structure TreeView.CleanCut (w : TreeView) (a b : VId) : Prop where
  no_cross : ∀ c ∈ w.crossEdges, ¬ c.Joins a b
  inside : ∀ c ∈ w.crossEdges, (w.Cut a b c.origin ↔ w.Cut a b c.target)
  one : w.crossEdges.Pairwise (fun c c' => ¬ (w.Cut a b c.origin ∧ w.Cut a b c'.origin))

/-- `w` is a correct tree view of `g` with root `root`. -/
structure IsTreeView (g : G F E) (root : VId) (w : TreeView) : Prop where
  /-- the view knows its root -/
  root_eq : w.root = some root
  /-- it contains exactly the vertices that can be reached from the root -/
  span : ∀ v, w.vertexExists v = true ↔ g.Reach root v
  /-- the root has no parent -/
  root_parent : w.parentOf root = none
  /-- every other vertex has a parent, from which an edge leads to it -/
  parent : ∀ v, w.vertexExists v = true → v ≠ root → ∃ p, w.parentOf v = some p ∧ g.Adj p v
  /-- children and parents mirror each other -/
  children : ∀ p rel, w.tree.get p = some rel → rel.children.Nodup ∧ ∀ c, c ∈ rel.children ↔ w.parentOf c = some p
  /-- following the parents never goes round in a circle -/
  rank : ∃ d : VId → Nat, ∀ v p, w.parentOf v = some p → d v = d p + 1
  /-- every listed cross edge is an edge of the graph inside the view -/
  cross_edge : ∀ c ∈ w.crossEdges, ∃ e ∈ g.edges, e.id = c.edge ∧ e.src = c.origin ∧ e.tgt = c.target ∧ g.Reach root e.src
  /-- a connection of the graph inside the view is a tree edge and not listed as cross edge ... -/
  tree_not_cross : ∀ u v, g.Adj u v → g.Reach root u → w.TreeEdge u v → w.crossEdges.filter (fun c => c.Joins u v) = []
  /-- ... or it is no tree edge and listed exactly once, in one of its directions -/
  cross_once : ∀ u v, g.Adj u v → g.Reach root u → ¬ w.TreeEdge u v →
    (w.crossEdges.filter (fun c => c.Joins u v)).length = 1

end Verif
