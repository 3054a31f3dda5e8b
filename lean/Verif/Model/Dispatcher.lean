import Verif.Model.Basic
/-!
# Event dispatchers

src/events/GraphEventDispatcher.cpp and src/events/GraphItemEventDispatcher.hpp.  The virtual functions `edgeAdded` ... are the
ones of the base class, which call the registered callbacks.  Callbacks do not call back into the dispatcher.
-/

namespace Verif

/-- `GraphEvent::Type` (src/events/GraphEvent.hpp:38-47) -/
inductive EventKind | edgeAdded | edgeRemoved | edgeModified | itemAdded | itemRemoved | frameAdded | frameRemoved
  deriving DecidableEq, Repr

/-- `GraphEvent::getType` (src/events/GraphEvent.hpp:66) -/
def Event.kind : Event → EventKind
  | .frameAdded .. => .frameAdded
  | .frameRemoved .. => .frameRemoved
  | .edgeAdded .. => .edgeAdded
  | .edgeModified .. => .edgeModified
  | .edgeRemoved .. => .edgeRemoved
  | .itemAdded .. => .itemAdded
  | .itemRemoved .. => .itemRemoved

/-- Members of `GraphEventDispatcher` (src/events/GraphEventDispatcher.hpp:105-116).  Callbacks are numbers.
`waiting = none`: `isWaitingForFrame` was never written.  `calls` (ghost) records the calls of callbacks. -/
structure Disp where
  enabled : Bool
  waiting : Option Bool
  waitingFor : List FrameId
  callbacks : EventKind → List Nat
  calls : List (Nat × Event)

/-- calls of the user and of the publisher -/
inductive DCmd
  | addCallback (k : EventKind) (c : Nat)
  | enable (b : Bool)
  | waitForFrame (f : FrameId)
  | checkWaitingForFrames (f : FrameId)
  | notify (e : Event)
  deriving DecidableEq, Repr

namespace Disp

/-- `GraphEventDispatcher(GraphEventPublisher*)` (src/events/GraphEventDispatcher.cpp:38-39) -/
def withPublisher : Disp := ⟨true, some false, [], fun _ => [], []⟩

/-- `GraphEventDispatcher()` (src/events/GraphEventDispatcher.cpp:41-42): `isWaitingForFrame` is not initialised. -/
def dflt : Disp := ⟨true, none, [], fun _ => [], []⟩

/-- `add...Callback` (src/events/GraphEventDispatcher.cpp:107-127) -/
def addCallback (k : EventKind) (c : Nat) (d : Disp) : Disp :=
  { d with callbacks := fun k' => if k' = k then d.callbacks k' ++ [c] else d.callbacks k' }

/-- `enable` (src/events/GraphEventDispatcher.hpp:66-68) -/
def enable (b : Bool) (d : Disp) : Disp := { d with enabled := b }

/-- `waitForFrame` (src/events/GraphEventDispatcher.cpp:100-105) -/
def waitForFrame (f : FrameId) (d : Disp) : Disp :=
  { d.enable false with waiting := some true, waitingFor := d.waitingFor ++ [f] }

/-- `checkWaitingForFrames` (src/events/GraphEventDispatcher.cpp:166-182): erases the first equal entry. -/
def checkWaitingForFrames (f : FrameId) (d : Disp) : Bool × Disp :=
  let ws := d.waitingFor.erase f
  if ws.length = 0 then (true, { d with waitingFor := ws, waiting := some false })
  else (false, { d with waitingFor := ws })

/-- The loops in `edgeAdded` ... `itemRemoved` (src/events/GraphEventDispatcher.cpp:130-164). -/
def forward (e : Event) (d : Disp) : Disp := { d with calls := d.calls ++ (d.callbacks e.kind).map (fun c => (c, e)) }

/-- `notifyGraphEvent` (src/events/GraphEventDispatcher.cpp:44-98).  Reading `isWaitingForFrame` before it was written is
undefined. -/
def notify (e : Event) (d : Disp) : Res Disp Unit :=
  if d.enabled then .ok () (forward e d)
  else
    match d.waiting with
    | none => .ub "notifyGraphEvent: isWaitingForFrame is not initialised"
    | some false => .ok () d
    | some true =>
      match e with
      | .frameAdded f => if (checkWaitingForFrames f d).1 then .ok () ((checkWaitingForFrames f d).2.enable true)
          else .ok () (checkWaitingForFrames f d).2
      | _ => .ok () d

/-- one call -/
def exec (c : DCmd) (d : Disp) : Res Disp Unit :=
  match c with
  | .addCallback k c => .ok () (d.addCallback k c)
  | .enable b => .ok () (d.enable b)
  | .waitForFrame f => .ok () (d.waitForFrame f)
  | .checkWaitingForFrames f => .ok () (d.checkWaitingForFrames f).2
  | .notify e => d.notify e

/-- calls in order; `none` = undefined behaviour -/
def run : List DCmd → Disp → Option Disp
  | [], d => some d
  | c :: cs, d =>
    match d.exec c with
    | .ok _ d' => run cs d'
    | .throw _ d' => run cs d'
    | .ub _ => none

end Disp

/-- `GraphItemEventDispatcher<T>::notifyGraphEvent` (src/events/GraphItemEventDispatcher.hpp:60-86): the calls of `itemAdded` and
`itemRemoved`; `typeOf` is `item->getTypeIndex()`. -/
def typedNotify {T : Type} [DecidableEq T] (typeOf : ItemId → T) (itemType : T) (e : Event) (calls : List Event) : List Event :=
  match e with
  | .itemAdded f i => if typeOf i = itemType then calls ++ [.itemAdded f i] else calls
  | .itemRemoved f i => if typeOf i = itemType then calls ++ [.itemRemoved f i] else calls
  | _ => calls

end Verif
