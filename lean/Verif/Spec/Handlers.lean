import Verif.Spec.Events
/-!
# Specification: subscribing and unsubscribing inside event handlers

One publisher.  What it should do: an event goes to the subscribers that are there when it is raised; the subscriptions and
unsubscriptions that the handlers make are carried out afterwards (first the new ones, then the removals), and then they are
done.
-/

namespace Verif

/-- the calls about the subscriptions of the publisher `p` -/
def Act.quiet (p : PubId) : Act → Bool
  | .subscribe _ q b => q = p && !b
  | .unsubscribe _ => true
  | .pubSubscribe q _ b => q = p && !b
  | .pubUnsubscribe q _ b => q = p && !b
  | _ => false

/-- a wish of a call -/
inductive Eff
  | join (s : SubId)
  | quit (s : SubId)
  deriving DecidableEq, Repr

/-- The wishes of one call.  `pts s`: does `s` know that it is subscribed.  Subscribing again means leaving and joining. -/
def wishes (pts : SubId → Bool) : Act → List Eff
  | .subscribe s _ _ => (if pts s then [.quit s] else []) ++ [.join s]
  | .unsubscribe s => if pts s then [.quit s] else []
  | .pubSubscribe _ s _ => [.join s]
  | .pubUnsubscribe _ s _ => [.quit s]
  | _ => []

/-- what the subscribers know afterwards -/
def known (pts : SubId → Bool) : Act → (SubId → Bool)
  | .subscribe s _ _ => fun t => if t = s then true else pts t
  | .unsubscribe s => fun t => if t = s then false else pts t
  | _ => pts

/-- wishes of several calls, in order -/
def wishesAll (pts : SubId → Bool) : List Act → List Eff
  | [] => []
  | a :: as => wishes pts a ++ wishesAll (known pts a) as

/-- knowledge after several calls -/
def knownAll (pts : SubId → Bool) : List Act → (SubId → Bool)
  | [] => pts
  | a :: as => knownAll (known pts a) as

/-- new subscribers -/
def joins (l : List Eff) : List SubId := l.filterMap (fun x => match x with | .join s => some s | .quit _ => none)

/-- removed subscribers -/
def quits (l : List Eff) : List SubId := l.filterMap (fun x => match x with | .quit s => some s | .join _ => none)

/-- The calls made by the handlers of `subs` when `ev` is delivered to them one after the other. -/
def handlerCalls (env : PEnv) (ev : Event) : List (SubId × Event) → List SubId → List Act
  | _, [] => []
  | log, s :: ss => env.handler s ev (log ++ [(s, ev)]) ++ handlerCalls env ev (log ++ [(s, ev)]) ss

/-- State of the ideal publisher.  `gone`: everybody who was unsubscribed inside a handler so far.  `fine`: nobody who was in
`gone` was subscribed at the end of a later event. -/
structure Ideal where
  list : List SubId
  pts : SubId → Bool
  log : List (SubId × Event)
  gone : List SubId
  fine : Prop

/-- nobody is subscribed -/
def Ideal.init : Ideal := ⟨[], fun _ => false, [], [], True⟩

/-- carry out a wish at once -/
def Eff.now (l : List SubId) : Eff → List SubId
  | .join s => l ++ [s]
  | .quit s => l.erase s

/-- one call; everything else than `notify` is carried out at once -/
def Ideal.step (env : PEnv) (x : Ideal) : Act → Ideal
  | .notify _ ev =>
    let calls := handlerCalls env ev x.log x.list
    let ws := wishesAll x.pts calls
    { list := (quits ws).foldl List.erase (x.list ++ joins ws)
      pts := knownAll x.pts calls
      log := x.log ++ x.list.map (fun s => (s, ev))
      gone := x.gone ++ quits ws
      fine := x.fine ∧ ∀ s ∈ x.gone, s ∉ x.list ++ joins ws }
  | a => { x with list := (wishes x.pts a).foldl Eff.now x.list, pts := known x.pts a }

/-- a program -/
def Ideal.run (env : PEnv) (x : Ideal) (h : List Act) : Ideal := h.foldl (Ideal.step env) x

end Verif
