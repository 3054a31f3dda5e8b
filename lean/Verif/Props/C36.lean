import Verif.Props.C33
/-! # C36: the event queue delivers all item events in order and empties itself -/

namespace Verif
open Queue

/-- Any batch of events after any earlier flush: the queue is empty afterwards; what was delivered is a subsequence of what was
received (so the order is kept and nothing is delivered twice); all item events are delivered. -/
theorem C36_items_in_order (env : QEnv) (hp : env.Passive) (n : Nat) (es : List Event) (hn : es.length ≤ n) (q0 : Queue)
    (hq0 : q0.events = []) : ∃ d, Queue.run env n (es.map .notify ++ [.flush]) q0 = some ⟨[], q0.processed ++ d⟩ ∧
      d.Sublist es ∧ d.filter Event.isItem = es.filter Event.isItem :=
  ⟨_, run_batch hp hn hq0, queued_sublist es, queued_items es⟩

example : Queue.run demoQuiet 9 ([.itemAdded "a" 1, .frameAdded "b", .itemRemoved "a" 1, .itemAdded "a" 1, .frameRemoved "b"].map .notify ++
      [.flush]) Queue.init = some ⟨[], [.itemAdded "a" 1, .itemRemoved "a" 1, .itemAdded "a" 1]⟩ := by decide +kernel

end Verif
