import Verif.Props.C33
/-! # C35: the event queue does not lose modifications and reports each edge at most once as modified -/

namespace Verif
open Queue

/-- Any batch of events (valid or not) after any earlier flush (`q0`).  A modified event is delivered exactly if it was received
and no later event of the batch modifies or removes the same connection. -/
theorem C35_last_modification_delivered (env : QEnv) (hp : env.Passive) (n : Nat) (es : List Event) (hn : es.length ≤ n) (q0 : Queue)
    (hq0 : q0.events = []) : ∃ d, Queue.run env n (es.map .notify ++ [.flush]) q0 = some ⟨[], q0.processed ++ d⟩ ∧
      ∀ a b x, x.modifies a b → (x ∈ d ↔ ∃ es1 es2, es = es1 ++ x :: es2 ∧ ∀ y ∈ es2, ¬ y.modifies a b ∧ ¬ y.removes a b) :=
  ⟨_, run_batch hp hn hq0, fun _ _ _ hx => modified_mem hx es⟩

/-- At most one modified event per connection, in either direction. -/
theorem C35_modified_once (env : QEnv) (hp : env.Passive) (n : Nat) (es : List Event) (hn : es.length ≤ n) (q0 : Queue)
    (hq0 : q0.events = []) : ∃ d, Queue.run env n (es.map .notify ++ [.flush]) q0 = some ⟨[], q0.processed ++ d⟩ ∧
      ∀ a b, (d.filter (fun e => decide (e.modifies a b))).length ≤ 1 :=
  ⟨_, run_batch hp hn hq0, fun a b => modified_once a b es⟩

/-- three modifications of one connection in both directions, and one that is removed afterwards -/
example : Queue.run demoQuiet 9 ([.edgeModified "a" "b" 0 1, .edgeModified "c" "d" 2 3, .edgeModified "b" "a" 1 0, .itemAdded "a" 1,
      .edgeRemoved "d" "c", .edgeModified "a" "b" 0 1].map .notify ++ [.flush]) ⟨[], [.frameAdded "z"]⟩ =
    some ⟨[], [.frameAdded "z"] ++ [.itemAdded "a" 1, .edgeRemoved "d" "c", .edgeModified "a" "b" 0 1]⟩ := by decide +kernel

/-- a second removal replaces the first one; an edge that was added and modified in the same batch disappears from it -/
example : Queue.run demoQuiet 9 ([.edgeRemoved "a" "b", .frameAdded "x", .edgeRemoved "b" "a", .edgeAdded "c" "d" 1, .edgeModified "c" "d" 0 1,
      .edgeRemoved "d" "c"].map .notify ++ [.flush]) Queue.init = some ⟨[], [.frameAdded "x", .edgeRemoved "b" "a"]⟩ := by decide +kernel

end Verif
