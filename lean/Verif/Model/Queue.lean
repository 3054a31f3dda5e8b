import Verif.Model.Basic
/-!
# Event queue

src/events/GraphEventQueue.cpp and the `mergeable` functions of the events.  `process` is a pure virtual function of the user;
the model takes as parameter which further events arrive in the queue while it runs (it may change the graph) and whether it
throws; both may depend on everything that was processed before.
-/

namespace Verif

/-- `EdgeEvent::operator==` (src/events/EdgeEvents.hpp:66-70) -/
def sameEdge (o t o' t' : FrameId) : Bool := (o == o' && t == t') || (o == t' && t == o')

/-- `x.mergeable(e)` where `x` is in the queue: `EdgeEvent::mergeable` (src/events/EdgeEvents.hpp:40-54),
`FrameEvent::mergeable` (src/events/FrameEvents.hpp:39-48) and `GraphEvent::mergeable` (src/events/GraphEvent.hpp:57-61, used
by the item events). -/
def Event.mergeable (x e : Event) : Bool :=
  match x, e with
  | .edgeModified o t _ _, .edgeModified o' t' _ _ => sameEdge o t o' t'
  | .edgeAdded o t _, .edgeRemoved o' t' => sameEdge o t o' t'
  | .edgeModified o t _ _, .edgeRemoved o' t' => sameEdge o t o' t'
  | .edgeRemoved o t, .edgeRemoved o' t' => sameEdge o t o' t'
  | .frameAdded f, .frameRemoved g => f == g
  | _, _ => false

/-- The test for `skip_event` (src/events/GraphEventQueue.cpp:54-57). -/
def Event.cancels (x e : Event) : Bool :=
  match x, e with
  | .edgeAdded .., .edgeRemoved .. => true
  | .frameAdded .., .frameRemoved .. => true
  | .itemAdded .., .itemRemoved .. => true
  | _, _ => false

/-- The queue: `event_queue`, and (ghost) the events given to `process` so far. -/
structure Queue where
  events : List Event
  processed : List Event
  deriving DecidableEq, Repr

/-- What `process` does when `l` (the last one is the current event) was processed: the events that arrive in the queue while
it runs, and whether it throws at the end. -/
abbrev QEnv := List Event → List Event × Bool

namespace Queue

/-- a new queue -/
def init : Queue := ⟨[], []⟩

/-- The loop of `notifyGraphEvent` (src/events/GraphEventQueue.cpp:46-68): remaining list and `skip_event`. The erased events
are not deleted in the code (a leak, not modelled). -/
def scan (e : Event) : List Event → Bool → List Event × Bool
  | [], skip => ([], skip)
  | x :: xs, skip =>
    if x.mergeable e then scan e xs (if x.cancels e then true else skip)
    else ((x :: (scan e xs skip).1), (scan e xs skip).2)

/-- `notifyGraphEvent` on the list (src/events/GraphEventQueue.cpp:44-74); `clone` copies the event. -/
def insert (e : Event) (l : List Event) : List Event :=
  if (scan e l false).2 then (scan e l false).1 else (scan e l false).1 ++ [e]

/-- `GraphEventQueue::notifyGraphEvent` (src/events/GraphEventQueue.cpp:44-74) -/
def notify (e : Event) (q : Queue) : Queue := { q with events := insert e q.events }

/-- Events that arrive while `process` handles `cur`, the first element of the list.  If `cur` itself is erased, the iterator
of `flush` is invalid (`none`). -/
def arrive (cur : Event) : List Event → List Event → Option (List Event)
  | [], l => some l
  | e :: es, l => if cur.mergeable e then none else arrive cur es (insert e l)

/-- `GraphEventQueue::flush` (src/events/GraphEventQueue.cpp:76-88).  The loop runs until the queue is empty, which need not
happen if `process` causes events; the number bounds the iterations. -/
def flush (env : QEnv) : Nat → Queue → Res Queue Unit
  | n, q =>
    match q.events with
    | [] => .ok () q
    | cur :: rest =>
      match n with
      | 0 => .ub "flush: endless loop"
      | n + 1 =>
        let done := q.processed ++ [cur]
        match arrive cur (env done).1 (cur :: rest) with
        | none => .ub "flush: erased iterator"
        | some l =>
          if (env done).2 then .throw (.runtimeError "thrown by process") ⟨l, done⟩
          else flush env n ⟨l.tail, done⟩

/-- calls of the user -/
inductive Cmd
  | notify (e : Event)
  | flush
  deriving DecidableEq, Repr

/-- A program; the caller catches exceptions; `none` = undefined behaviour or an endless loop. -/
def run (env : QEnv) (n : Nat) : List Cmd → Queue → Option Queue
  | [], q => some q
  | .notify e :: cs, q => run env n cs (q.notify e)
  | .flush :: cs, q =>
    match flush env n q with
    | .ok _ q' => run env n cs q'
    | .throw _ q' => run env n cs q'
    | .ub _ => none

end Queue
end Verif
