import Verif.Model.Graph
import Verif.Spec.ViewCut
/-! # Specification: another order of the children in the views

The children of a vertex are a `std::unordered_set` and the relations of a view an `unordered_map` (src/graph/TreeView.hpp:42, 50),
so nothing is known about the order in which a loop over them sees the elements.  Two views are shuffled copies of each other if they
agree in everything but these orders.  A history with shuffles is a history in which all views may be shuffled before each call.  (Within
one call no set is looped over again after something was inserted into it; `erase` keeps the order of the other elements.) -/

namespace Verif

/-- the same relation with the children in another order -/
structure VRel.Shuffle (r r' : VRel) : Prop where
  parent : r'.parent = r.parent
  children : r'.children.Perm r.children

/-- the same view with another order of the children and of the signals that it has sent -/
structure TreeView.Shuffle (w w' : TreeView) : Prop where
  get : ∀ v, Option.Rel VRel.Shuffle (w.tree.get v) (w'.tree.get v)
  cross : w'.crossEdges = w.crossEdges
  root : w'.root = w.root
  publisher : w'.publisher = w.publisher
  signals : w'.signals.Perm w.signals

namespace GS
variable {F E : Type} [FrameProp F] [EdgeProp E]

/-- the same graph, subscriptions and events; the views are shuffled -/
structure Shuffle (s s' : GS F E) : Prop where
  g : s'.g = s.g
  subs : s'.subs = s.subs
  trace : s'.trace = s.trace
  views : ∀ p, (s.views p).Shuffle (s'.views p)

/-- the same outcome up to the order of the children -/
inductive SameOutcome : Res (GS F E) Unit → Res (GS F E) Unit → Prop
  | ok {s s'} : Shuffle s s' → SameOutcome (.ok () s) (.ok () s')
  | throw {x s s'} : Shuffle s s' → SameOutcome (.throw x s) (.throw x s')
  | ub {m} : SameOutcome (.ub m) (.ub m)

/-- calls that remove no connection -/
def Cmd.noRemoval : Cmd F E → Prop
  | .removeEdge _ _ => False
  | .disconnectFrame _ => False
  | _ => True

/-- the call has undefined behaviour -/
def IsUB : Res (GS F E) Unit → Prop
  | .ub _ => True
  | _ => False

/-- a history in which all views may be shuffled before each call; the caller catches every exception -/
inductive RunShuffled : List (Cmd F E) → GS F E → GS F E → Prop
  | nil {s s'} : Shuffle s s' → RunShuffled [] s s'
  | ok {c cs s s1 s2 s'} : Shuffle s s1 → exec c s1 = .ok () s2 → RunShuffled cs s2 s' → RunShuffled (c :: cs) s s'
  | throw {c cs s s1 s2 s' x} : Shuffle s s1 → exec c s1 = .throw x s2 → RunShuffled cs s2 s' → RunShuffled (c :: cs) s s'

/-- some order of the children leads the history into undefined behaviour -/
inductive CanBreak : List (Cmd F E) → GS F E → Prop
  | here {c cs s s1} : Shuffle s s1 → IsUB (exec c s1) → CanBreak (c :: cs) s
  | ok {c cs s s1 s2} : Shuffle s s1 → exec c s1 = .ok () s2 → CanBreak cs s2 → CanBreak (c :: cs) s
  | throw {c cs s s1 s2 x} : Shuffle s s1 → exec c s1 = .throw x s2 → CanBreak cs s2 → CanBreak (c :: cs) s

end GS

/-- The view is in order: children and parents mirror each other, parents are in the view, following the
parents never goes round in a circle. -/
structure TreeView.Tidy (w : TreeView) : Prop where
  children : ∀ p rel, w.tree.get p = some rel → rel.children.Nodup ∧ ∀ c, c ∈ rel.children ↔ w.parentOf c = some p
  parent : ∀ v p, w.parentOf v = some p → w.vertexExists p = true
  rank : ∃ d : VId → Nat, ∀ v p, w.parentOf v = some p → d v = d p + 1

/-- Cross edges inside the part behind the tree edge between `a` and `b` are listed in strictly decreasing order of the depth of their
deeper ends. -/
def TreeView.DeepestFirst (w : TreeView) (a b : VId) : Prop :=
  w.TreeEdge a b → ∀ d : VId → Nat, (∀ v p, w.parentOf v = some p → d v = d p + 1) →
    w.crossEdges.Pairwise (fun c c' => w.Cut a b c.origin → w.Cut a b c'.origin →
      max (d c'.origin) (d c'.target) < max (d c.origin) (d c.target))

end Verif
