import Verif.Model.Dispatcher
/-!
# Dispatchers whose callbacks call back

src/events/GraphEventDispatcher.cpp, as in `Model/Dispatcher`, but a callback may use the dispatcher while it is called: register callbacks,
enable or disable, wait for frames, and cause further events (by changing the graph, which notifies the dispatcher again), and it may throw.
The callbacks are in a `std::list`: the range-based `for` sees elements that are appended meanwhile, and nothing is ever removed, so a
position in the list is a valid iterator.  The recursion is bounded by a number of steps; `none` = more steps are needed.
-/

namespace Verif

/-- What a callback does when it is called with an event: calls of the dispatcher in order (`notify` = it causes an event), and whether it
throws in the end. -/
abbrev CbAct := Nat → Event → List DCmd × Bool

/-- The dispatcher and the calls of callbacks: nesting depth, callback, event. -/
structure RDisp where
  d : Disp
  log : List (Nat × Nat × Event)

namespace RDisp

mutual
/-- `notifyGraphEvent` (src/events/GraphEventDispatcher.cpp:44-98).  If the dispatcher is disabled no callback is called. -/
def notify (act : CbAct) : Nat → Nat → Event → RDisp → Option (Res RDisp Unit)
  | 0, _, _, _ => none
  | n + 1, dep, e, s =>
    if s.d.enabled then loop act n dep e 0 s
    else
      match s.d.notify e with
      | .ok _ d => some (.ok () { s with d := d })
      | .throw x d => some (.throw x { s with d := d })
      | .ub m => some (.ub m)

/-- the loops in `edgeAdded` ... `itemRemoved` (src/events/GraphEventDispatcher.cpp:130-164) from position `i` on -/
def loop (act : CbAct) : Nat → Nat → Event → Nat → RDisp → Option (Res RDisp Unit)
  | 0, _, _, _, _ => none
  | n + 1, dep, e, i, s =>
    match (s.d.callbacks e.kind)[i]? with
    | none => some (.ok () s)
    | some c =>
      match body act n dep (act c e).1 (act c e).2 { s with log := s.log ++ [(dep, c, e)] } with
      | some (.ok _ s') => loop act n dep e (i + 1) s'
      | r => r

/-- the body of a callback -/
def body (act : CbAct) : Nat → Nat → List DCmd → Bool → RDisp → Option (Res RDisp Unit)
  | 0, _, _, _, _ => none
  | _ + 1, _, [], b, s => if b then some (.throw (.runtimeError "callback") s) else some (.ok () s)
  | n + 1, dep, c :: cs, b, s =>
    match c with
    | .notify e =>
      match notify act n (dep + 1) e s with
      | some (.ok _ s') => body act n dep cs b s'
      | r => r
    | c =>
      match s.d.exec c with
      | .ok _ d => body act n dep cs b { s with d := d }
      | .throw x d => some (.throw x { s with d := d })
      | .ub m => some (.ub m)
end

end RDisp
end Verif
