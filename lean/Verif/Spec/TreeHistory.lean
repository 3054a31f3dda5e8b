import Verif.Spec.TreeView
/-! # Specification: histories that keep the graph free of cycles -/

namespace Verif.GS
variable {F E : Type} [FrameProp F] [EdgeProp E]

/-- In state `s` the call does not close a cycle: an added connection joins two different frames between which there is no path
(or it is there already and the call throws); `getTree` gets an unused view object. -/
def Cmd.noCycle (s : GS F E) : Cmd F E → Prop
  | .addEdge a b _ => a ≠ b ∧ (s.Conn a b ∨ ∀ l, ¬ IsPath s.Conn a b l)
  | .getTree _ _ q => s.views q = TreeView.empty
  | _ => True

/-- every call of the history satisfies this in the state in which it is made -/
def TreeHistory : List (Cmd F E) → GS F E → Prop
  | [], _ => True
  | c :: cs, s => c.noCycle s ∧
    match exec c s with
    | .ok _ s' => TreeHistory cs s'
    | .throw _ s' => TreeHistory cs s'
    | .ub _ => True

end Verif.GS
