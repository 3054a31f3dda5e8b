import Verif.Model.Queue
import Verif.Model.Lifetime
/-!
# The memory of event queues

`GraphEventQueue` keeps its events as plain pointers (`std::list<GraphEvent*> event_queue`, src/events/GraphEventQueue.hpp:53) to copies
that `clone` makes with `new`.  Model/Queue has the values only; here the copies have addresses and are deleted or not.

Simplifications: an address is not used again after `delete` (a program that could see the difference uses a deleted event, which the
model reports); `process` notifies the queue that is being flushed only, what other queues are told is an operation of its own;
`process` neither flushes nor destroys queues.
-/

namespace Verif

/-- All queues of a program and the events on the heap. -/
structure QW where
  /-- the events on the heap, by address -/
  cell : Nat → Option Event
  /-- the next new address -/
  next : Nat
  /-- `event_queue` of each queue -/
  queues : Nat → List Nat
  life : Nat → Life
  /-- (ghost) what each queue gave to `process` -/
  processed : Nat → List Event

/-- operations of a program -/
inductive QOp
  | make (q : Nat)
  | copy (q r : Nat)
  | notify (q : Nat) (e : Event)
  | flush (q : Nat)
  | destroy (q : Nat)
  deriving DecidableEq, Repr

namespace QW

/-- no queue, no event -/
def init : QW := ⟨fun _ => none, 0, fun _ => [], fun _ => .unborn, fun _ => []⟩

def setQueue (s : QW) (q : Nat) (l : List Nat) : QW := { s with queues := fun r => if r = q then l else s.queues r }
def setLife (s : QW) (q : Nat) (x : Life) : QW := { s with life := fun r => if r = q then x else s.life r }
def setCell (s : QW) (p : Nat) (x : Option Event) : QW := { s with cell := fun r => if r = p then x else s.cell r }
def addProcessed (s : QW) (q : Nat) (x : Event) : QW :=
  { s with processed := fun r => if r = q then s.processed q ++ [x] else s.processed r }

/-- The loop of `notifyGraphEvent` (src/events/GraphEventQueue.cpp:46-68): the remaining pointers and `skip_event`; `none` if a deleted
event is used.  The events of the erased pointers stay on the heap (line 62). -/
def scan (cell : Nat → Option Event) (e : Event) : List Nat → Bool → Option (List Nat × Bool)
  | [], skip => some ([], skip)
  | p :: ps, skip =>
    match cell p with
    | none => none
    | some x =>
      if x.mergeable e then scan cell e ps (if x.cancels e then true else skip)
      else (scan cell e ps skip).map (fun r => (p :: r.1, r.2))

/-- `GraphEventQueue::notifyGraphEvent` (src/events/GraphEventQueue.cpp:44-74) -/
def notify (q : Nat) (e : Event) (s : QW) : Res QW Unit :=
  match scan s.cell e (s.queues q) false with
  | none => .ub "notifyGraphEvent: deleted event"
  | some (l, true) => .ok () (s.setQueue q l)
  | some (l, false) => .ok () { (s.setCell s.next (some e)).setQueue q (l ++ [s.next]) with next := s.next + 1 }

/-- Events that arrive in the queue while `process` handles `cur`, its first event (as `Queue.arrive`). -/
def arrive (q : Nat) (cur : Event) : List Event → QW → Res QW Unit
  | [], s => .ok () s
  | e :: es, s =>
    if cur.mergeable e then .ub "flush: erased iterator"
    else
      match notify q e s with
      | .ok _ t => arrive q cur es t
      | .throw x t => .throw x t
      | .ub r => .ub r

/-- `GraphEventQueue::flush` (src/events/GraphEventQueue.cpp:76-88); `n` as in `Queue.flush`. -/
def flush (env : QEnv) (q : Nat) : Nat → QW → Res QW Unit
  | n, s =>
    match s.queues q with
    | [] => .ok () s
    | p :: _ =>
      match n with
      | 0 => .ub "flush: endless loop"
      | n + 1 =>
        match s.cell p with
        | none => .ub "flush: deleted event"
        | some x =>
          let done := s.processed q ++ [x]
          match arrive q x (env done).1 (s.addProcessed q x) with
          | .ub r => .ub r
          | .throw y t => .throw y t
          | .ok _ t =>
            if (env done).2 then .throw (.runtimeError "thrown by process") t
            else flush env q n ((t.setQueue q (t.queues q).tail).setCell p none)

/-- One operation.  The constructors (src/events/GraphEventQueue.cpp:31-38) make an empty list; the implicit copy constructor copies the
pointers; the destructor (src/events/GraphEventQueue.cpp:40-42) deletes no event. -/
def step (env : Nat → QEnv) (n : Nat) (s : QW) : QOp → Res QW Unit
  | .make q => if s.life q = .unborn then .ok () ((s.setLife q .alive).setQueue q []) else .ub "queue exists"
  | .copy q r =>
    if s.life q ≠ .alive then .ub "no queue"
    else if s.life r = .unborn then .ok () ((s.setLife r .alive).setQueue r (s.queues q)) else .ub "queue exists"
  | .notify q e => if s.life q = .alive then notify q e s else .ub "no queue"
  | .flush q => if s.life q = .alive then flush (env q) q n s else .ub "no queue"
  | .destroy q => if s.life q = .alive then .ok () ((s.setLife q .dead).setQueue q []) else .ub "no queue"

/-- A program that catches exceptions; `none` = undefined behaviour or an endless loop. -/
def run (env : Nat → QEnv) (n : Nat) : List QOp → QW → Option QW
  | [], s => some s
  | o :: os, s =>
    match s.step env n o with
    | .ok _ t => run env n os t
    | .throw _ t => run env n os t
    | .ub _ => none

end QW
end Verif
