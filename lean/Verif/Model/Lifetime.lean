import Verif.Model.Graph
/-!
# Lifetimes of graphs and tree views

Several graphs and several tree view objects, each of which is constructed, used and destroyed at some time.  A subscribed view keeps a
pointer to its graph (`TreeView::publisher`, TreeView.hpp:216) and the graph a pointer to the view (`subscribedTreeViews`, Graph.hpp:358).
`Graph` has no destructor of its own (Graph.hpp:61-377), so its destruction changes no view.  Copying and assigning views is left out
(it breaks the pointers without any destruction: C67).
-/

namespace Verif

/-- an object before, during and after its lifetime; identities are not used again -/
inductive Life | unborn | alive | dead
  deriving DecidableEq, Repr

/-- a `Graph` object: the members of `GS` without the views -/
structure GObj (F E : Type) where
  g : G F E
  subs : List Nat
  trace : List (Event × G F E)

/-- All graphs and views of a program.  `pub`: the pointer `publisher` of each view. -/
structure LW (F E : Type) where
  graphs : Nat → GObj F E
  graphLife : Nat → Life
  views : Nat → TreeView
  viewLife : Nat → Life
  pub : Nat → Option Nat

/-- what a program can do -/
inductive LOp (F E : Type)
  | newGraph (k : Nat)
  | destroyGraph (k : Nat)
  /-- a call on the graph `k`; `unsubscribeView` is an operation of its own -/
  | call (k : Nat) (c : GS.Cmd F E)
  | newView (p : Nat)
  | destroyView (p : Nat)
  /-- `view.unsubscribe()` -/
  | unsubscribe (p : Nat)
  /-- `TreeView q(std::move(p))` -/
  | moveView (p q : Nat)

namespace LW
variable {F E : Type} [FrameProp F] [EdgeProp E]

/-- nothing exists -/
def init : LW F E := ⟨fun _ => ⟨G.empty, [], []⟩, fun _ => .unborn, fun _ => TreeView.empty, fun _ => .unborn, fun _ => none⟩

/-- the graph `k` with all views, as the functions of `GS` see it -/
def load (s : LW F E) (k : Nat) : GS F E :=
  ⟨(s.graphs k).g, (s.graphs k).subs, fun p => { s.views p with publisher := (s.pub p).isSome }, (s.graphs k).trace⟩

/-- the state after a call on graph `k` left `t`; a pointer that became set points to `k` -/
def store (s : LW F E) (k : Nat) (t : GS F E) : LW F E :=
  { s with
    graphs := fun j => if j = k then ⟨t.g, t.subs, t.trace⟩ else s.graphs j
    views := t.views
    pub := fun p => if (t.views p).publisher = true ∧ s.pub p = none then some k else s.pub p }

/-- `Graph::unsubscribeTreeView` (Graph.hpp:573-579) on graph `k` -/
def dropSub (s : LW F E) (k p : Nat) : LW F E :=
  { s with graphs := fun j => if j = k then { s.graphs j with subs := (s.graphs j).subs.filter (· ≠ p) } else s.graphs j }

/-- set the pointer of a view -/
def setPub (s : LW F E) (p : Nat) (x : Option Nat) : LW F E := { s with pub := fun q => if q = p then x else s.pub q }

/-- set the lifetime of a view -/
def setViewLife (s : LW F E) (p : Nat) (x : Life) : LW F E := { s with viewLife := fun q => if q = p then x else s.viewLife q }

/-- `TreeView::unsubscribe` (TreeView.cpp:104-111) and the body of `~TreeView` (TreeView.cpp:65-73): a virtual call on the graph -/
def leave (s : LW F E) (p : Nat) : Res (LW F E) Unit :=
  match s.pub p with
  | none => .ok () s
  | some k => if s.graphLife k = .alive then .ok () ((s.dropSub k p).setPub p none) else .ub "publisher does not exist any more"

/-- the move constructor of `TreeView` (TreeView.cpp:48-62) -/
def move (s : LW F E) (p q : Nat) : Res (LW F E) Unit :=
  let s1 := { s with views := fun x =>
    if x = q then s.views p else if x = p then { s.views p with tree := [], crossEdges := [] } else s.views x }
  match s.pub p with
  | none => .ok () s1
  | some k =>
    if s.graphLife k = .alive then
      let s2 := s1.dropSub k p
      .ok () ({ s2 with
        graphs := fun j => if j = k then { s2.graphs j with subs := (s2.graphs j).subs ++ [q] } else s2.graphs j
        pub := fun x => if x = q then some k else if x = p then none else s2.pub x })
    else .ub "publisher does not exist any more"

/-- the calls that run over the subscribed views (Graph.hpp:721-738) -/
def usesViews : GS.Cmd F E → Bool
  | .addEdge .. => true
  | .removeEdge .. => true
  | .disconnectFrame .. => true
  | _ => false

/-- the view a call gets as argument -/
def argView : GS.Cmd F E → Option Nat
  | .getTree _ _ p => some p
  | .unsubscribeView p => some p
  | _ => none

/-- one operation; using an object outside of its lifetime is undefined -/
def step (s : LW F E) : LOp F E → Res (LW F E) Unit
  | .newGraph k =>
    if s.graphLife k = .unborn then
      .ok () { s with graphs := fun j => if j = k then ⟨G.empty, [], []⟩ else s.graphs j
                      graphLife := fun j => if j = k then .alive else s.graphLife j }
    else .ub "constructed twice"
  | .destroyGraph k =>
    if s.graphLife k = .alive then .ok () { s with graphLife := fun j => if j = k then .dead else s.graphLife j }
    else .ub "destroyed twice"
  | .newView p =>
    if s.viewLife p = .unborn then
      .ok () { s.setViewLife p .alive with views := fun q => if q = p then TreeView.empty else s.views q }
    else .ub "constructed twice"
  | .destroyView p =>
    if s.viewLife p = .alive then
      match s.leave p with
      | .ok _ t => .ok () (t.setViewLife p .dead)
      | .throw x t => .throw x t
      | .ub r => .ub r
    else .ub "destroyed twice"
  | .unsubscribe p => if s.viewLife p = .alive then s.leave p else .ub "unsubscribe: destroyed view"
  | .moveView p q =>
    if s.viewLife p = .alive ∧ s.viewLife q = .unborn then
      match s.move p q with
      | .ok _ t => .ok () (t.setViewLife q .alive)
      | .throw x t => .throw x t
      | .ub r => .ub r
    else .ub "move: destroyed view"
  | .call k c =>
    match c with
    | .unsubscribeView _ => .ub "not a call of the graph"
    | c =>
      if s.graphLife k ≠ .alive then .ub "destroyed graph"
      else if (argView c).any (fun p => s.viewLife p ≠ .alive) then .ub "getTree: destroyed view"
      else if usesViews c && (s.graphs k).subs.any (fun p => s.viewLife p ≠ .alive) then .ub "subscribed view does not exist any more"
      else
        match GS.exec c (s.load k) with
        | .ok _ t => .ok () (s.store k t)
        | .throw x t => .throw x (s.store k t)
        | .ub r => .ub r

/-- A program; exceptions are caught.  The second component of the result tells for each operation whether it returned normally. -/
def run : List (LOp F E) → LW F E → Option (LW F E × List (LOp F E × Bool))
  | [], s => some (s, [])
  | o :: os, s =>
    match s.step o with
    | .ok _ t => (run os t).map fun r => (r.1, (o, true) :: r.2)
    | .throw _ t => (run os t).map fun r => (r.1, (o, false) :: r.2)
    | .ub _ => none

end LW
end Verif
