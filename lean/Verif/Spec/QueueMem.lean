import Verif.Model.QueueMem
/-! # What it means that a queue looks after its memory -/

namespace Verif

/-- the events of a queue -/
def QW.events (s : QW) (q : Nat) : List Event := (s.queues q).filterMap s.cell

/-- the event exists, but no queue points to it any more: it will never be deleted -/
def Leaked (s : QW) (p : Nat) : Prop := s.cell p ≠ none ∧ ∀ q, p ∉ s.queues q

/-- the operation copies no queue -/
def QOp.plain : QOp → Prop
  | .copy _ _ => False
  | _ => True

/-- the calls of one queue -/
def QOp.calls (q : Nat) : QOp → List Queue.Cmd
  | .notify r e => if r = q then [.notify e] else []
  | .flush r => if r = q then [.flush] else []
  | _ => []

/-- The operation uses an existing queue only. -/
def QOp.Proper (os : List QOp) : QOp → Prop
  | .make q => .make q ∉ os
  | .notify q _ | .flush q | .destroy q => .make q ∈ os ∧ .destroy q ∉ os
  | .copy _ _ => False

end Verif
