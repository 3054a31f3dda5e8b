import Verif.Lemmas.Dispatcher
/-!
# C38: the dispatchers call exactly the matching callbacks

Full statement: an enabled dispatcher calls, for each event, all callbacks registered for that kind in registration order and
no others; a disabled one calls none; a typed item dispatcher forwards exactly the item events whose item has the type T.

One part fails: a disabled dispatcher that was made with the default constructor reads an uninitialised member.
-/

namespace Verif
open Disp

/-- Every history of registering, switching and events of a dispatcher that was made with a publisher: the calls are exactly
the expected ones. -/
theorem C38_calls_as_registered (h : List DCmd) (hw : ∀ c ∈ h, c.noWait = true) :
    ∃ d, Disp.run h Disp.withPublisher = some d ∧ d.calls = expectedCalls [] h := by
  obtain ⟨d, h1, h2⟩ := calls_of_history (past := []) (d := Disp.withPublisher) hw (.inl rfl) (fun _ => rfl) rfl
  exact ⟨d, h1, by simpa [Disp.withPublisher] using h2⟩

/-- the order of the registrations is the order of the calls, and what happens while the dispatcher is disabled is lost -/
example : (Disp.run [.addCallback .frameAdded 2, .addCallback .frameAdded 1, .enable false, .notify (.frameAdded "a"), .enable true,
      .notify (.frameAdded "b")] Disp.withPublisher).map Disp.calls = some [(2, .frameAdded "b"), (1, .frameAdded "b")] := rfl

/-- The kinds are the right ones: the callbacks of a kind get exactly the events about it (`expectedCalls` and C37 use `Event.kind`). -/
theorem C38_kind (e : Event) (k : EventKind) : e.kind = k ↔ e.about k := by
  cases e <;> cases k <;> simp [Event.kind, Event.about]

example : (Event.edgeModified "a" "b" 0 1).kind = .edgeModified ∧ (Event.itemRemoved "a" 3).kind = .itemRemoved ∧
    (Event.frameAdded "a").kind ≠ .frameRemoved := by decide

/-- The same for a default constructed dispatcher that is never disabled. -/
theorem C38_default_constructed_partial (h : List DCmd) (hw : ∀ c ∈ h, c.noWait = true) (hd : ∀ c ∈ h, c ≠ .enable false) :
    ∃ d, Disp.run h Disp.dflt = some d ∧ d.calls = expectedCalls [] h := by
  obtain ⟨d, h1, h2⟩ := calls_of_history (past := []) (d := Disp.dflt) hw (.inr ⟨rfl, rfl, hd⟩) (fun _ => rfl) rfl
  exact ⟨d, h1, by simpa [Disp.dflt] using h2⟩

example : (Disp.run [.addCallback .frameAdded 1, .notify (.frameAdded "a"), .enable true, .notify (.frameRemoved "a")] Disp.dflt).map
    Disp.calls = some [(1, .frameAdded "a")] := rfl

/-- A default constructed dispatcher that is disabled: undefined at the first event, whatever was registered before. -/
theorem C38_default_constructed_fails (cbs : List (EventKind × Nat)) (e : Event) :
    Disp.run (cbs.map (fun x => .addCallback x.1 x.2) ++ [.enable false, .notify e]) Disp.dflt = none := by
  have : ∀ (cbs : List (EventKind × Nat)) (d : Disp), d.waiting = none →
      Disp.run (cbs.map (fun x => .addCallback x.1 x.2) ++ [.enable false, .notify e]) d = none := by
    intro cbs
    induction cbs with
    | nil => intro d hd; simp [Disp.run, Disp.exec, Disp.notify, Disp.enable, hd]
    | cons x cbs ih => intro d hd; simp only [List.map_cons, List.cons_append, Disp.run, Disp.exec]; exact ih _ hd
  exact this cbs _ rfl

/-- The typed item dispatcher forwards exactly the item events of its type, in order. -/
theorem C38_typed_dispatcher {T : Type} [DecidableEq T] (typeOf : ItemId → T) (itemType : T) (es : List Event) :
    es.foldl (fun calls e => typedNotify typeOf itemType e calls) [] =
      es.filter (fun e => match e with
        | .itemAdded _ i => decide (typeOf i = itemType)
        | .itemRemoved _ i => decide (typeOf i = itemType)
        | _ => false) := by
  have : ∀ acc, es.foldl (fun calls e => typedNotify typeOf itemType e calls) acc = acc ++
      es.filter (fun e => match e with
        | .itemAdded _ i => decide (typeOf i = itemType)
        | .itemRemoved _ i => decide (typeOf i = itemType)
        | _ => false) := by
    induction es with
    | nil => simp
    | cons e es ih =>
      intro acc
      rw [List.foldl_cons, ih]
      cases e <;> simp only [typedNotify, List.filter_cons, Bool.false_eq_true, if_false] <;> split <;> rename_i h <;> simp [h]
  simpa using this []

example : (Disp.run [.addCallback .frameAdded 1, .addCallback .edgeRemoved 2, .notify (.frameAdded "a"), .addCallback .frameAdded 3,
      .enable false, .notify (.edgeRemoved "a" "b"), .enable true, .notify (.frameAdded "b"), .notify (.edgeRemoved "a" "b")]
      Disp.withPublisher).map Disp.calls =
    some [(1, .frameAdded "a"), (1, .frameAdded "b"), (3, .frameAdded "b"), (2, .edgeRemoved "a" "b")] := rfl

example : [Event.itemAdded "a" 1, .itemAdded "a" 2, .frameAdded "b", .itemRemoved "a" 1].foldl
    (fun calls e => typedNotify (fun i => i % 2) 1 e calls) [] = [.itemAdded "a" 1, .itemRemoved "a" 1] := by decide +kernel

/-- removals of items of another type are not passed on -/
example : [Event.itemAdded "a" 1, .itemAdded "a" 2, .itemRemoved "a" 2, .itemRemoved "a" 1].foldl
    (fun calls e => typedNotify (fun i => i % 2) 1 e calls) [] = [.itemAdded "a" 1, .itemRemoved "a" 1] := by decide +kernel

end Verif
