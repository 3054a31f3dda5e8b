import Verif.Model.Reuse
import Mathlib.Logic.Equiv.Basic
import Batteries.Data.List.Basic
/-! # Specification: the same up to the addresses -/

namespace Verif
open Equiv
variable {F E : Type}

/-- The allocator never gives out memory that is in use. -/
def Alloc.Sound (al : Alloc F E) : Prop := ∀ g : G F E, al.v g ∉ g.verts.map VRec.id ∧ al.e g ∉ g.edges.map ERec.id

/-- the smallest number that is not in the list -/
def firstFree (l : List Nat) : Nat := ((List.range (l.length + 1)).find? (fun n => decide (n ∉ l))).getD 0

/-- An allocator that always gives out the lowest free address, so that freed memory is used again. -/
def Alloc.lowest : Alloc F E := ⟨fun g => firstFree (g.verts.map VRec.id), fun g => firstFree (g.edges.map ERec.id)⟩

/-- the allocator of `Model/Boost.lean`, which never uses an address again -/
def Alloc.counter : Alloc F E := ⟨G.nextV, G.nextE⟩

/-! Exchange of addresses: `π` for vertices, `ρ` for edges. -/

def VRec.ren (π : Perm VId) (r : VRec F) : VRec F := { r with id := π r.id }
def ERec.ren (π : Perm VId) (ρ : Perm EId) (e : ERec E) : ERec E := ⟨ρ e.id, π e.src, π e.tgt, e.prop⟩
def G.ren (π : Perm VId) (ρ : Perm EId) (g : G F E) : G F E :=
  { g with verts := g.verts.map (VRec.ren π), edges := g.edges.map (ERec.ren π ρ), labels := g.labels.map fun p => (p.1, π p.2) }
def VRel.ren (π : Perm VId) (r : VRel) : VRel := ⟨r.parent.map π, r.children.map π⟩
def CrossEdge.ren (π : Perm VId) (ρ : Perm EId) (c : CrossEdge) : CrossEdge := ⟨π c.origin, π c.target, ρ c.edge⟩
def treeRen (π : Perm VId) (m : AMap VId VRel) : AMap VId VRel := m.map fun p => (π p.1, p.2.ren π)
def Event.ren (ρ : Perm EId) : Event → Event
  | .edgeAdded o t e => .edgeAdded o t (ρ e)
  | .edgeModified o t e i => .edgeModified o t (ρ e) (ρ i)
  | ev => ev

/-- the kind of a signal -/
def ViewSignal.kind : ViewSignal → Nat
  | .edgeAdded _ _ => 0
  | .edgeRemoved _ _ => 1
  | .crossEdgeAdded _ => 2

/-- Two view objects are the same up to the addresses.  Signals may be about vertices that do not exist any more: only their kinds and
number are compared. -/
structure TreeView.Alike (π : Perm VId) (ρ : Perm EId) (w w' : TreeView) : Prop where
  tree : w'.tree = treeRen π w.tree
  cross : w'.crossEdges = w.crossEdges.map (CrossEdge.ren π ρ)
  root : w'.root = w.root.map π
  publisher : w'.publisher = w.publisher
  signals : w'.signals.map ViewSignal.kind = w.signals.map ViewSignal.kind

/-- Two published events with the graph at that moment are the same up to the addresses. -/
def entryAlike (x y : Event × G F E) : Prop := ∃ (π : Perm VId) (ρ : Perm EId), y = (x.1.ren ρ, x.2.ren π ρ)

/-- Two states are the same up to the addresses, as far as the views in `K` are concerned. -/
structure GS.Alike (K : Nat → Prop) (π : Perm VId) (ρ : Perm EId) (s s' : GS F E) : Prop where
  g : s'.g = s.g.ren π ρ
  subs : s'.subs = s.subs
  views : ∀ p, K p → (s.views p).Alike π ρ (s'.views p)
  publisher : ∀ p, (s'.views p).publisher = (s.views p).publisher
  trace : List.Forall₂ entryAlike s.trace s'.trace

/-- Two calls end in the same way, in states that are the same up to the addresses. -/
inductive GS.AlikeO (K : Nat → Prop) : Res (GS F E) Unit → Res (GS F E) Unit → Prop
  | ok {s s' π ρ} : GS.Alike K π ρ s s' → AlikeO K (.ok () s) (.ok () s')
  | throw {x s s' π ρ} : GS.Alike K π ρ s s' → AlikeO K (.throw x s) (.throw x s')
  | ub {m} : AlikeO K (.ub m) (.ub m)

/-- two queries give the same answer or throw the same exception -/
inductive SameAnswer {σ α : Type} : Res σ α → Res σ α → Prop
  | ok (a : α) (s s' : σ) : SameAnswer (.ok a s) (.ok a s')
  | throw (x : Exn) (s s' : σ) : SameAnswer (.throw x s) (.throw x s')
  | ub (m : String) : SameAnswer (.ub m) (.ub m)

/-- Two histories end in the same way: both with undefined behaviour or in states that are the same up to the addresses. -/
inductive GS.EndAlike : Option (GS F E) → Option (GS F E) → Prop
  | none : EndAlike none none
  | some {s s' π ρ} : GS.Alike (· ∈ s.subs) π ρ s s' → EndAlike (some s) (some s')

/-- the vertices that a view object mentions -/
def TreeView.vertexIds (w : TreeView) : List VId :=
  w.tree.flatMap (fun p => p.1 :: (p.2.parent.toList ++ p.2.children)) ++ w.crossEdges.flatMap (fun c => [c.origin, c.target]) ++ w.root.toList

/-- the edges that a view object mentions -/
def TreeView.edgeIds (w : TreeView) : List EId := w.crossEdges.map CrossEdge.edge

/-- the views on which the calls build trees -/
def treeTargets : List (GS.Cmd F E) → List Nat
  | [] => []
  | .getTree _ _ p :: cs => p :: treeTargets cs
  | _ :: cs => treeTargets cs

/-- The views that still matter in the state `s` if the calls `cs` follow: those that are subscribed and those that are used again. -/
def Matters (cs : List (GS.Cmd F E)) (s : GS F E) (p : Nat) : Prop := p ∈ s.subs ∨ p ∈ treeTargets cs

/-- While nothing is removed from the graph of `s`, the allocator does not give out an address that a view object in `K` mentions. -/
def Alloc.Avoids (al : Alloc F E) (K : Nat → Prop) (s : GS F E) : Prop :=
  ∀ p, K p → ∀ g : G F E, s.g.verts.map VRec.id ⊆ g.verts.map VRec.id → s.g.edges.map ERec.id ⊆ g.edges.map ERec.id →
    al.v g ∉ (s.views p).vertexIds ∧ al.e g ∉ (s.views p).edgeIds

/-- The allocator never gives out memory that is in use, and all along the history no address that a view that matters mentions. -/
def AvoidsAll [FrameProp F] [EdgeProp E] : List (Alloc F E × GS.Cmd F E) → GS F E → Prop
  | [], _ => True
  | (al, c) :: cs, s => al.Sound ∧ al.Avoids (Matters (c :: cs.map Prod.snd) s) s ∧
      ∀ s', (GS.execA al c s = .ok () s' ∨ ∃ x, GS.execA al c s = .throw x s') → AvoidsAll cs s'

/-- the view object mentions only vertices and edges that exist -/
def TreeView.UpToDate (g : G F E) (w : TreeView) : Prop :=
  w.vertexIds ⊆ g.verts.map VRec.id ∧ w.edgeIds ⊆ g.edges.map ERec.id

/-- All along the history the root of each subscribed view is a vertex of the graph. -/
def RootsKept [FrameProp F] [EdgeProp E] : List (GS.Cmd F E) → GS F E → Prop
  | [], _ => True
  | c :: cs, s => (∀ p ∈ s.subs, ∀ v, (s.views p).root = some v → v ∈ s.g.verts.map VRec.id) ∧
      ∀ s', (GS.exec c s = .ok () s' ∨ ∃ x, GS.exec c s = .throw x s') → RootsKept cs s'

/-- All along the history, without any reuse of addresses, the views that matter mention only vertices and edges that exist. -/
def UpToDateAll [FrameProp F] [EdgeProp E] : List (GS.Cmd F E) → GS F E → Prop
  | [], _ => True
  | c :: cs, s => (∀ p, Matters (c :: cs) s p → (s.views p).UpToDate s.g) ∧
      ∀ s', (GS.exec c s = .ok () s' ∨ ∃ x, GS.exec c s = .throw x s') → UpToDateAll cs s'

end Verif
