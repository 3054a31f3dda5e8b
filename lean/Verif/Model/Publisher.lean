import Verif.Model.Basic
/-!
# `GraphEventPublisher` and `GraphEventSubscriber` (src/events/GraphEventPublisher.cpp, src/events/GraphEventSubscriber.cpp)

A world with any number of publishers and subscribers.  Event handlers (`notifyGraphEvent`) are programs: lists of calls on
publishers and subscribers, which may depend on everything that was delivered so far.  Every delivery makes the log longer, so
a handler given as a function of the log can behave differently at each delivery; this covers handlers with own state.
-/

namespace Verif

/-- `GraphEventSubscriber*` -/
abbrev SubId := Nat

/-- `GraphEventPublisher*` -/
abbrev PubId := Nat

/-- Members of `GraphEventPublisher` (GraphEventPublisher.hpp:45-55, 95).  `changes` is a ghost: it counts the modifications of
the vector `subscribers`; each of them invalidates at least its end iterator. -/
structure Pub where
  subscribers : List SubId
  insideNotify : Bool
  toBeSubscribed : List SubId
  toBeUnsubscribed : List SubId
  enabled : Bool
  changes : Nat
  deriving DecidableEq, Repr

/-- `GraphEventPublisher::GraphEventPublisher` (GraphEventPublisher.cpp:42-45) -/
def Pub.init : Pub := ⟨[], false, [], [], true, 0⟩

/-- All publishers, the pointer `pPublisher` of each subscriber (null = `none`), the deliveries made so far
(`notifyGraphEvent` calls), and the destroyed subscribers and publishers. -/
structure PW where
  pubs : PubId → Pub
  ptr : SubId → Option PubId
  log : List (SubId × Event)
  deadSubs : List SubId
  deadPubs : List PubId

/-- new publishers, subscribers without publisher -/
def PW.init : PW := ⟨fun _ => Pub.init, fun _ => none, [], [], []⟩

/-- Calls that a program or an event handler can make. -/
inductive Act
  /-- `s.subscribe(p, publish)` -/
  | subscribe (s : SubId) (p : PubId) (publish : Bool)
  /-- `s.unsubscribe()` -/
  | unsubscribe (s : SubId)
  /-- `p.subscribe(&s, publish)` -/
  | pubSubscribe (p : PubId) (s : SubId) (publish : Bool)
  /-- `p.unsubscribe(&s, unpublish)` -/
  | pubUnsubscribe (p : PubId) (s : SubId) (unpublish : Bool)
  /-- `p.enableEvents(b)` -/
  | enable (p : PubId) (b : Bool)
  /-- a call that makes `p` notify its subscribers about `e` -/
  | notify (p : PubId) (e : Event)
  /-- destruction of `s` -/
  | destroySub (s : SubId)
  /-- destruction of `p` -/
  | destroyPub (p : PubId)
  /-- an exception leaves the handler -/
  | fail
  deriving DecidableEq, Repr

/-- What the classes derived from the two base classes do: event handlers, and the events that `publishCurrentState` and
`unpublishCurrentState` pass to `notifySubscriber`. -/
structure PEnv where
  handler : SubId → Event → List (SubId × Event) → List Act
  current : PubId → List (SubId × Event) → List Event
  uncurrent : PubId → List (SubId × Event) → List Event

namespace PW

/-- write the members of one publisher -/
def setPub (w : PW) (p : PubId) (x : Pub) : PW := { w with pubs := fun q => if q = p then x else w.pubs q }

/-- write the pointer of one subscriber -/
def setPtr (w : PW) (s : SubId) (x : Option PubId) : PW := { w with ptr := fun t => if t = s then x else w.ptr t }

/-- statement after statement; stops at the first exception -/
def seqAll {α : Type} (f : α → PW → Res PW Unit) : List α → PW → Res PW Unit
  | [], w => .ok () w
  | a :: as, w =>
    match f a w with
    | .ok _ w' => seqAll f as w'
    | .throw x w' => .throw x w'
    | .ub r => .ub r

/-- `pSubscriber->notifyGraphEvent(e)`: a virtual call on the subscriber, which must be alive. `run` executes one call of the
handler. -/
def deliver (env : PEnv) (run : Act → PW → Res PW Unit) (s : SubId) (e : Event) (w : PW) : Res PW Unit :=
  if s ∈ w.deadSubs then .ub "notifyGraphEvent: destroyed subscriber"
  else
    let w1 := { w with log := w.log ++ [(s, e)] }
    seqAll run (env.handler s e w1.log) w1

/-- `GraphEventPublisher::notifySubscriber` (GraphEventPublisher.cpp:105-110) -/
def notifySubscriber (d : SubId → Event → PW → Res PW Unit) (p : PubId) (s : SubId) (e : Event) (w : PW) : Res PW Unit :=
  if (w.pubs p).enabled then d s e w else .ok () w

/-- `subscribers.push_back(s)` -/
def pushSub (s : SubId) (x : Pub) : Pub := { x with subscribers := x.subscribers ++ [s], changes := x.changes + 1 }

/-- `GraphEventPublisher::unsubscribeInternal` (GraphEventPublisher.cpp:122-129): erases the first occurrence. -/
def unsubInternal (s : SubId) (x : Pub) : Pub :=
  if s ∈ x.subscribers then { x with subscribers := x.subscribers.erase s, changes := x.changes + 1 } else x

/-- second part of `GraphEventPublisher::subscribe` (GraphEventPublisher.cpp:53-56) -/
def enter (s : SubId) (x : Pub) : Pub :=
  if x.insideNotify then { x with toBeSubscribed := x.toBeSubscribed ++ [s] } else pushSub s x

/-- second part of `GraphEventPublisher::unsubscribe` (GraphEventPublisher.cpp:66-73) -/
def leave (s : SubId) (x : Pub) : Pub :=
  if x.insideNotify then { x with toBeUnsubscribed := x.toBeUnsubscribed ++ [s] } else unsubInternal s x

/-- `GraphEventPublisher::subscribe` (GraphEventPublisher.cpp:47-57) -/
def pubSubscribe (env : PEnv) (d : SubId → Event → PW → Res PW Unit) (p : PubId) (s : SubId) (publish : Bool) (w : PW) :
    Res PW Unit :=
  if p ∈ w.deadPubs then .ub "subscribe: destroyed publisher"
  else
    match (if publish then seqAll (fun e => notifySubscriber d p s e) (env.current p w.log) w else .ok () w) with
    | .ok _ w' => .ok () (w'.setPub p (enter s (w'.pubs p)))
    | .throw x w' => .throw x w'
    | .ub r => .ub r

/-- `GraphEventPublisher::unsubscribe` (GraphEventPublisher.cpp:59-74) -/
def pubUnsubscribe (env : PEnv) (d : SubId → Event → PW → Res PW Unit) (p : PubId) (s : SubId) (unpublish : Bool) (w : PW) :
    Res PW Unit :=
  if p ∈ w.deadPubs then .ub "unsubscribe: destroyed publisher"
  else
    match (if unpublish then seqAll (fun e => notifySubscriber d p s e) (env.uncurrent p w.log) w else .ok () w) with
    | .ok _ w' => .ok () (w'.setPub p (leave s (w'.pubs p)))
    | .throw x w' => .throw x w'
    | .ub r => .ub r

/-- The loop of `GraphEventPublisher::notify` (GraphEventPublisher.cpp:81-84) over the subscribers that were in the vector at
the start.  A change of the vector by the called handler invalidates the iterators of the range-for loop; `c` is the value of
the change counter at the start. -/
def notifyLoop (d : SubId → Event → PW → Res PW Unit) (p : PubId) (e : Event) (c : Nat) : List SubId → PW → Res PW Unit
  | [], w => .ok () w
  | s :: ss, w =>
    match d s e w with
    | .ok _ w' => if (w'.pubs p).changes = c then notifyLoop d p e c ss w' else .ub "notify: invalidated iterator"
    | .throw x w' => .throw x w'
    | .ub r => .ub r

/-- The rest of `GraphEventPublisher::notify` (GraphEventPublisher.cpp:90-101).  `toBeUnsubscribed` is not cleared. -/
def notifyEnd (x : Pub) : Pub :=
  let x1 := x.toBeSubscribed.foldl (fun y s => pushSub s y) x
  let x2 := { x1 with toBeSubscribed := [] }
  let x3 := x2.toBeUnsubscribed.foldl (fun y s => unsubInternal s y) x2
  { x3 with insideNotify := false }

/-- `GraphEventPublisher::notify` (GraphEventPublisher.cpp:76-103) -/
def notify (d : SubId → Event → PW → Res PW Unit) (p : PubId) (e : Event) (w : PW) : Res PW Unit :=
  if p ∈ w.deadPubs then .ub "notify: destroyed publisher"
  else if (w.pubs p).enabled then
    let w1 := w.setPub p { w.pubs p with insideNotify := true }
    match notifyLoop d p e (w1.pubs p).changes (w1.pubs p).subscribers w1 with
    | .ok _ w' => .ok () (w'.setPub p (notifyEnd (w'.pubs p)))
    | .throw x w' => .throw x w'
    | .ub r => .ub r
  else .ok () w

/-- "unsubscribe if already subscribed" in `GraphEventSubscriber::subscribe` (GraphEventSubscriber.cpp:46-48) -/
def leaveOld (env : PEnv) (d : SubId → Event → PW → Res PW Unit) (s : SubId) (unpublish : Bool) (w : PW) : Res PW Unit :=
  match w.ptr s with
  | none => .ok () w
  | some q => pubUnsubscribe env d q s unpublish w

/-- `GraphEventSubscriber::subscribe` (GraphEventSubscriber.cpp:43-52) -/
def subSubscribe (env : PEnv) (d : SubId → Event → PW → Res PW Unit) (s : SubId) (p : PubId) (publish : Bool) (w : PW) :
    Res PW Unit :=
  if s ∈ w.deadSubs then .ub "subscribe: destroyed subscriber"
  else
    match leaveOld env d s publish w with
    | .ok _ w' => pubSubscribe env d p s publish (w'.setPtr s (some p))
    | .throw x w' => .throw x w'
    | .ub r => .ub r

/-- `GraphEventSubscriber::unsubscribe` (GraphEventSubscriber.cpp:54-61) -/
def subUnsubscribe (env : PEnv) (d : SubId → Event → PW → Res PW Unit) (s : SubId) (w : PW) : Res PW Unit :=
  if s ∈ w.deadSubs then .ub "unsubscribe: destroyed subscriber"
  else
    match w.ptr s with
    | none => .ok () w
    | some q =>
      match pubUnsubscribe env d q s false w with
      | .ok _ w' => .ok () (w'.setPtr s none)
      | .throw x w' => .throw x w'
      | .ub r => .ub r

/-- The loop of `GraphEventPublisher::~GraphEventPublisher` (GraphEventPublisher.cpp:112-120): `subscribers.back()->unsubscribe()`
followed by `pop_back()`, which is undefined on an empty vector.  Each iteration shortens the vector, so its length is enough
fuel. -/
def destroyLoop (env : PEnv) (d : SubId → Event → PW → Res PW Unit) (p : PubId) : Nat → PW → Res PW Unit
  | n, w =>
    match (w.pubs p).subscribers.getLast? with
    | none => .ok () w
    | some s =>
      match n with
      | 0 => .ub "~GraphEventPublisher: endless loop"
      | n + 1 =>
        match subUnsubscribe env d s w with
        | .ok _ w' =>
          if (w'.pubs p).subscribers = [] then .ub "~GraphEventPublisher: pop_back of an empty vector"
          else destroyLoop env d p n (w'.setPub p { w'.pubs p with subscribers := (w'.pubs p).subscribers.dropLast })
        | .throw x w' => .throw x w'
        | .ub r => .ub r

/-- `GraphEventPublisher::~GraphEventPublisher` (GraphEventPublisher.cpp:112-120) -/
def destroyPub (env : PEnv) (d : SubId → Event → PW → Res PW Unit) (p : PubId) (w : PW) : Res PW Unit :=
  if p ∈ w.deadPubs then .ub "destroyed twice"
  else
    match destroyLoop env d p (w.pubs p).subscribers.length w with
    | .ok _ w' => .ok () { w' with deadPubs := p :: w'.deadPubs }
    | .throw x w' => .throw x w'
    | .ub r => .ub r

/-- Execute one call.  The number bounds the nesting of calls inside handlers. -/
def act (env : PEnv) : Nat → Act → PW → Res PW Unit
  | 0, _, _ => .ub "endless recursion"
  | n + 1, a, w =>
    let d := deliver env (act env n)
    match a with
    | .subscribe s p b => subSubscribe env d s p b w
    | .unsubscribe s => subUnsubscribe env d s w
    | .pubSubscribe p s b => pubSubscribe env d p s b w
    | .pubUnsubscribe p s b => pubUnsubscribe env d p s b w
    | .enable p b => if p ∈ w.deadPubs then .ub "enableEvents: destroyed publisher"
      else .ok () (w.setPub p { w.pubs p with enabled := b })
    | .notify p e => notify d p e w
    | .destroySub s =>
      match subUnsubscribe env d s w with
      | .ok _ w' => .ok () { w' with deadSubs := s :: w'.deadSubs }
      | .throw x w' => .throw x w'
      | .ub r => .ub r
    | .destroyPub p => destroyPub env d p w
    | .fail => .throw (.runtimeError "thrown by the handler") w

/-- A program: calls in order; the caller catches every exception and goes on; `none` = undefined behaviour. -/
def run (env : PEnv) (n : Nat) : List Act → PW → Option PW
  | [], w => some w
  | a :: as, w =>
    match act env n a w with
    | .ok _ w' => run env n as w'
    | .throw _ w' => run env n as w'
    | .ub _ => none

end PW
end Verif
