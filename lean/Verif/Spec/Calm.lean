import Verif.Spec.Events
/-!
# Specification: which handlers may do what

A division of labour, stated without looking at the state of any publisher.  `P` are the publishers at which handlers raise events,
`M` the subscribers that handlers move from one publisher to another.
-/

namespace Verif

/-- What a handler may do: raise events at the publishers in `P`, change the subscriptions of all others, switch events on and off.
An exception is allowed if `P` is empty. -/
def Act.handlerOk (P : PubId → Prop) (M : SubId → Prop) : Act → Prop
  | .subscribe s p _ => M s ∧ ¬ P p
  | .unsubscribe s => M s
  | .pubSubscribe p _ _ => ¬ P p
  | .pubUnsubscribe p _ _ => ¬ P p
  | .enable _ _ => True
  | .notify p _ => P p
  | .destroySub _ => False
  | .destroyPub _ => False
  | .fail => ∀ p, ¬ P p

/-- What the program may do: everything, except to destroy something, and to subscribe those who are moved by handlers to
publishers in `P`. -/
def Act.programOk (P : PubId → Prop) (M : SubId → Prop) : Act → Prop
  | .subscribe s p _ => M s → ¬ P p
  | .destroySub _ => False
  | .destroyPub _ => False
  | _ => True

/-- `e` may be delivered by this call itself (not by the handlers it calls) -/
def Act.raises (env : PEnv) (e : Event) : Act → Prop
  | .notify _ e' => e = e'
  | .subscribe _ p b => b = true ∧ ((∃ l, e ∈ env.current p l) ∨ ∃ q l, e ∈ env.uncurrent q l)
  | .pubSubscribe p _ b => b = true ∧ ∃ l, e ∈ env.current p l
  | .pubUnsubscribe p _ b => b = true ∧ ∃ l, e ∈ env.uncurrent p l
  | _ => False

end Verif
