import Verif.Model.Publisher
/-!
# Specifications for publishers and subscribers

Read off the list of calls, without any publisher state.
-/

namespace Verif

/-- subscribers that only listen -/
def PEnv.Passive (env : PEnv) : Prop := ∀ s e l, env.handler s e l = []

/-- the calls of the subscriber interface, and everything else that does not change subscriptions -/
def Act.viaSubscriber : Act → Bool
  | .subscribe .. | .unsubscribe _ | .destroySub _ | .enable .. | .notify .. => true
  | _ => false

/-- is this call about the subscription of `s` -/
def Act.concerns (s : SubId) : Act → Bool
  | .subscribe t _ _ | .unsubscribe t | .destroySub t => t = s
  | _ => false

/-- The subscribers of `p` after the calls `h`, in the order of their last subscription: those whose last call that concerns
their subscription is `subscribe(p)`. -/
def subscribedTo (p : PubId) : List Act → List SubId
  | [] => []
  | a :: h =>
    match a with
    | .subscribe s q _ => if q = p ∧ ¬ h.any (Act.concerns s) then s :: subscribedTo p h else subscribedTo p h
    | _ => subscribedTo p h

/-- are the events of `p` enabled after the calls `h` -/
def eventsEnabled (p : PubId) (h : List Act) : Bool :=
  match h.reverse.find? (fun a => match a with | .enable q _ => q = p | _ => false) with
  | some (.enable _ b) => b
  | _ => true

end Verif
