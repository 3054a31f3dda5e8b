import Verif.Model.Lifetime
/-!
# Which graph a view is subscribed to, and which objects exist

Read off the history of a program: the operations with a note whether they returned normally.
-/

namespace Verif
variable {F E : Type}

/-- a history -/
abbrev LHist (F E : Type) := List (LOp F E × Bool)

/-- what one operation means for the subscriptions -/
def ownerStep (o : Nat → Option Nat) : LOp F E × Bool → Nat → Option Nat
  | (.call k (.getTree _ true p), true) => fun q => if q = p then some k else o q
  | (.unsubscribe p, _) => fun q => if q = p then none else o q
  | (.destroyView p, _) => fun q => if q = p then none else o q
  | (.moveView p q, _) => fun x => if x = q then o p else if x = p then none else o x
  | _ => o

/-- the graph that the view is subscribed to after the history; `none` if to none -/
def owner (h : LHist F E) : Nat → Option Nat := h.foldl ownerStep (fun _ => none)

/-- the graph was constructed -/
def GraphMade (h : LHist F E) (k : Nat) : Prop := (.newGraph k, true) ∈ h
/-- the graph was destroyed -/
def GraphGone (h : LHist F E) (k : Nat) : Prop := (.destroyGraph k, true) ∈ h
/-- the view was constructed, or constructed by moving another one -/
def ViewMade (h : LHist F E) (p : Nat) : Prop := (.newView p, true) ∈ h ∨ ∃ q, (.moveView q p, true) ∈ h
/-- the view was destroyed -/
def ViewGone (h : LHist F E) (p : Nat) : Prop := (.destroyView p, true) ∈ h

/-- The operation uses existing objects only, makes new ones only, and if it is a call of a graph, the call itself is defined in the
present state of the graph. -/
def Proper [FrameProp F] [EdgeProp E] (h : LHist F E) (s : LW F E) : LOp F E → Prop
  | .newGraph k => ¬ GraphMade h k
  | .destroyGraph k => GraphMade h k ∧ ¬ GraphGone h k
  | .newView p => ¬ ViewMade h p
  | .destroyView p => ViewMade h p ∧ ¬ ViewGone h p
  | .unsubscribe p => ViewMade h p ∧ ¬ ViewGone h p
  | .moveView p q => ViewMade h p ∧ ¬ ViewGone h p ∧ ¬ ViewMade h q
  | .call k c => GraphMade h k ∧ ¬ GraphGone h k ∧ (∀ p, c ≠ .unsubscribeView p) ∧
      (∀ f b p, c = .getTree f b p → ViewMade h p ∧ ¬ ViewGone h p) ∧ ∀ r, GS.exec c (s.load k) ≠ .ub r

/-- the operation ends the subscription of the view -/
def LOp.ends (p : Nat) : LOp F E → Prop
  | .destroyView q => q = p
  | .unsubscribe q => q = p
  | .moveView q _ => q = p
  | _ => False

/-- every operation of the program is proper when its turn comes -/
def ProperFrom [FrameProp F] [EdgeProp E] (h : LHist F E) (s : LW F E) : List (LOp F E) → Prop
  | [] => True
  | o :: os => Proper h s o ∧
    match s.step o with
    | .ok _ t => ProperFrom (h ++ [(o, true)]) t os
    | .throw _ t => ProperFrom (h ++ [(o, false)]) t os
    | .ub _ => True

/-- Every operation is proper, and no graph is destroyed while a view is subscribed to it. -/
def CarefulFrom [FrameProp F] [EdgeProp E] (h : LHist F E) (s : LW F E) : List (LOp F E) → Prop
  | [] => True
  | o :: os => Proper h s o ∧ (∀ k, o = .destroyGraph k → ∀ p, owner h p ≠ some k) ∧
    match s.step o with
    | .ok _ t => CarefulFrom (h ++ [(o, true)]) t os
    | .throw _ t => CarefulFrom (h ++ [(o, false)]) t os
    | .ub _ => True

end Verif
