import Verif.Props.C33
import Mathlib.Logic.Relation
/-!
# C72: `process()` may change the graph or throw while the queue is flushed

Full statement: `flush()` gives every queued event to `process()` exactly once, also if `process()` causes further events
(which are processed as well) or throws.

It fails in two ways: an event that supersedes the one being processed erases it from the queue under the iterator of
`flush()`, and an event whose processing threw stays in the queue and is processed again.
-/

namespace Verif
open Queue

/-- the full statement, reduced to: defined, and afterwards no event was processed twice -/
def C72_statement : Prop :=
  ∀ (env : QEnv) (es : List Event) (n : Nat), es.Nodup → (∀ l, (env l).1.length ≤ 1) →
    flush env n ⟨es, []⟩ ≠ .ub "flush: erased iterator" ∧
    ((∀ l, (env l).1 = []) → ∀ q, Queue.run env n [.flush, .flush] ⟨es, []⟩ = some q → q.processed.Nodup)

/-- `process()` that removes the edge that was just announced -/
def demoReact : QEnv := fun l => (if l.getLast? = some (.edgeAdded "a" "b" 1) then [.edgeRemoved "a" "b"] else [], false)

theorem C72_removing_fails : flush demoReact 9 ⟨[.edgeAdded "a" "b" 1, .itemAdded "a" 1], []⟩ = .ub "flush: erased iterator" := by
  decide +kernel

theorem C72_statement_fails : ¬ C72_statement := by
  intro hs
  refine (hs demoReact [.edgeAdded "a" "b" 1, .itemAdded "a" 1] 9 (by decide) ?_).1 C72_removing_fails
  intro l; simp only [demoReact]; split <;> simp

/-- `process()` that throws at the first event -/
def demoThrowing : QEnv := fun l => ([], l.length == 1)

theorem C72_processed_twice : Queue.run demoThrowing 9 [.flush, .flush] ⟨[.itemAdded "a" 1, .itemAdded "a" 2], []⟩ =
    some ⟨[], [.itemAdded "a" 1, .itemAdded "a" 1, .itemAdded "a" 2]⟩ := by decide +kernel

/-- What holds: if `process()` only adds frames, edges and items (it never causes an event that supersedes another one) and
does not throw, then `flush()` runs forever or empties the queue and processes first the queued events and then all caused
events in order, each once.  `d` is what is processed; step `k` causes `env (... d.take (k+1))`. -/
theorem C72_adding_partial (env : QEnv) (hne : ∀ l e x, e ∈ (env l).1 → Event.mergeable x e = false) (hnt : ∀ l, (env l).2 = false)
    (n : Nat) (q : Queue) : flush env n q = .ub "flush: endless loop" ∨
      ∃ d, flush env n q = .ok () ⟨[], q.processed ++ d⟩ ∧
        d = q.events ++ (List.range d.length).flatMap (fun k => (env (q.processed ++ d.take (k + 1))).1) := by
  have harr : ∀ cur as l, (∀ e ∈ as, ∀ x, Event.mergeable x e = false) → arrive cur as l = some (l ++ as) := by
    intro cur as
    induction as with
    | nil => intro l _; simp [arrive]
    | cons e as ih =>
      intro l has
      simp only [arrive, has e (by simp) cur, Bool.false_eq_true, if_false]
      rw [insert_plain (fun x _ => has e (by simp) x), ih _ (fun y hy => has y (by simp [hy]))]
      simp
  induction n generalizing q with
  | zero =>
    cases h : q.events with
    | nil => exact .inr ⟨[], by unfold flush; simp only [h]; cases q; simp_all, rfl⟩
    | cons c r => exact .inl (by unfold flush; simp only [h])
  | succ n ih =>
    cases h : q.events with
    | nil => exact .inr ⟨[], by unfold flush; simp only [h]; cases q; simp_all, rfl⟩
    | cons c r =>
      have hf : flush env (n + 1) q = flush env n ⟨r ++ (env (q.processed ++ [c])).1, q.processed ++ [c]⟩ := by
        conv_lhs => unfold flush
        simp only [h]
        rw [harr _ _ _ (fun e he x => hne _ e x he)]
        simp [hnt]
      rw [hf]
      rcases ih ⟨r ++ (env (q.processed ++ [c])).1, q.processed ++ [c]⟩ with h1 | ⟨d, h1, h2⟩
      · exact .inl h1
      · refine .inr ⟨c :: d, by rw [h1]; simp, ?_⟩
        rw [List.length_cons, List.range_succ_eq_map, List.flatMap_cons, List.flatMap_map]
        simp only [List.append_assoc, List.cons_append, List.nil_append] at h2
        conv_lhs => rw [h2]
        simp

/-- processing a frame announces an item in it -/
def demoAdding : QEnv := fun l => (match l.getLast? with | some (.frameAdded f) => [.itemAdded f 7] | _ => [], false)

example : flush demoAdding 9 ⟨[.frameAdded "a", .frameAdded "b"], []⟩ =
    .ok () ⟨[], [.frameAdded "a", .frameAdded "b", .itemAdded "a" 7, .itemAdded "b" 7]⟩ := by decide +kernel

/-- An event that is only queued (not being processed) may be superseded while the queue is flushed; it is then not delivered. -/
example : flush (fun l => (if l.length = 1 then [.edgeRemoved "a" "b"] else [], false)) 9
    ⟨[.frameAdded "c", .edgeModified "a" "b" 0 1], []⟩ = .ok () ⟨[], [.frameAdded "c", .edgeRemoved "a" "b"]⟩ := by decide +kernel

/-- `process` throws: the event it was given stays in the queue, and the next `flush` processes it again -/
example : flush (fun l => ([], l.length = 1)) 9 ⟨[.frameAdded "a", .frameAdded "b"], []⟩ =
      .throw (.runtimeError "thrown by process") ⟨[.frameAdded "a", .frameAdded "b"], [.frameAdded "a"]⟩ ∧
    Queue.run (fun l => ([], l.length = 1)) 9 [.notify (.frameAdded "a"), .notify (.frameAdded "b"), .flush, .flush] Queue.init =
      some ⟨[], [.frameAdded "a", .frameAdded "a", .frameAdded "b"]⟩ := by decide +kernel

/-- One round of `flush`: the first event is given to `process`, which supersedes other events only and does not throw. -/
def FlushRound (env : QEnv) (q q' : Queue) : Prop :=
  ∃ cur rest, q.events = cur :: rest ∧ (∀ e ∈ (env (q.processed ++ [cur])).1, cur.mergeable e = false) ∧
    (env (q.processed ++ [cur])).2 = false ∧
    q'.processed = q.processed ++ [cur] ∧ cur :: q'.events = (env (q.processed ++ [cur])).1.foldl (fun l e => Queue.insert e l) (cur :: rest)

private theorem arrive_some_iff (cur : Event) (es l : List Event) :
    arrive cur es l = if ∃ e ∈ es, cur.mergeable e = true then none else some (es.foldl (fun l e => Queue.insert e l) l) := by
  induction es generalizing l with
  | nil => simp [arrive]
  | cons e es ih =>
    by_cases h : cur.mergeable e <;> simp [arrive, h, ih]

private theorem insert_head {cur e : Event} (h : cur.mergeable e = false) (l : List Event) :
    ∃ l', Queue.insert e (cur :: l) = cur :: l' := by
  rw [insert_eq]
  split <;> simp [h]

private theorem foldl_head {cur : Event} {es : List Event} (h : ∀ e ∈ es, cur.mergeable e = false) (l : List Event) :
    ∃ l', es.foldl (fun l e => Queue.insert e l) (cur :: l) = cur :: l' := by
  induction es generalizing l with
  | nil => exact ⟨l, rfl⟩
  | cons e es ih =>
    obtain ⟨l', hl⟩ := insert_head (h e (by simp)) l
    rw [List.foldl_cons, hl]
    exact ih (fun x hx => h x (by simp [hx])) l'

/-- How `flush` goes, exactly.  It returns if rounds lead to an empty queue; it throws what `process` throws, and the event that was
processed stays the first one; it uses an erased iterator if `process` causes an event that supersedes the one it was given. -/
theorem C72_exact_partial (env : QEnv) (q r : Queue) :
    ((∃ n, flush env n q = .ok () r) ↔ Relation.ReflTransGen (FlushRound env) q r ∧ r.events = []) ∧
    ((∃ n x, flush env n q = .throw x r) ↔ ∃ q' cur rest, Relation.ReflTransGen (FlushRound env) q q' ∧ q'.events = cur :: rest ∧
      (∀ e ∈ (env (q'.processed ++ [cur])).1, cur.mergeable e = false) ∧ (env (q'.processed ++ [cur])).2 = true ∧
      r = ⟨(env (q'.processed ++ [cur])).1.foldl (fun l e => Queue.insert e l) (cur :: rest), q'.processed ++ [cur]⟩) ∧
    ((∃ n, flush env n q = .ub "flush: erased iterator") ↔ ∃ q' cur rest e, Relation.ReflTransGen (FlushRound env) q q' ∧
      q'.events = cur :: rest ∧ e ∈ (env (q'.processed ++ [cur])).1 ∧ cur.mergeable e = true) := by
  -- one round of the loop
  have hround : ∀ {q q' : Queue}, FlushRound env q q' → ∀ n, flush env (n + 1) q = flush env n q' := by
    rintro q ⟨evs, prc⟩ ⟨cur, rest, h1, h2, h3, h4, h5⟩ n
    conv_lhs => unfold flush
    simp only [h1]
    rw [arrive_some_iff, if_neg (by rintro ⟨e, he, hm⟩; rw [h2 e he] at hm; cases hm)]
    simp only [h3, Bool.false_eq_true, if_false]
    rw [← h5, List.tail_cons, ← h4]
  have hstar : ∀ {q q' : Queue}, Relation.ReflTransGen (FlushRound env) q q' → ∃ m, ∀ n, flush env (n + m) q = flush env n q' := by
    intro q q' h
    induction h using Relation.ReflTransGen.head_induction_on with
    | refl => exact ⟨0, fun _ => rfl⟩
    | head h1 _ ih =>
      obtain ⟨m, ih⟩ := ih
      exact ⟨m + 1, fun n => by rw [← Nat.add_assoc, hround h1, ih]⟩
  -- what the loop does, by the number of rounds
  have hfor : ∀ n q, match flush env n q with
      | .ok _ r => Relation.ReflTransGen (FlushRound env) q r ∧ r.events = []
      | .throw _ r => ∃ q' cur rest, Relation.ReflTransGen (FlushRound env) q q' ∧ q'.events = cur :: rest ∧
          (∀ e ∈ (env (q'.processed ++ [cur])).1, cur.mergeable e = false) ∧ (env (q'.processed ++ [cur])).2 = true ∧
          r = ⟨(env (q'.processed ++ [cur])).1.foldl (fun l e => Queue.insert e l) (cur :: rest), q'.processed ++ [cur]⟩
      | .ub s => s = "flush: erased iterator" → ∃ q' cur rest e, Relation.ReflTransGen (FlushRound env) q q' ∧
          q'.events = cur :: rest ∧ e ∈ (env (q'.processed ++ [cur])).1 ∧ cur.mergeable e = true := by
    intro n
    induction n with
    | zero =>
      intro q
      unfold flush
      cases hq : q.events with
      | nil => exact ⟨.refl, hq⟩
      | cons cur rest => intro h; exact absurd h (by decide)
    | succ n ih =>
      intro q
      cases hq : q.events with
      | nil => unfold flush; simp only [hq]; exact ⟨.refl, trivial⟩
      | cons cur rest =>
        by_cases hm : ∃ e ∈ (env (q.processed ++ [cur])).1, cur.mergeable e = true
        · have : flush env (n + 1) q = .ub "flush: erased iterator" := by
            unfold flush
            simp only [hq]
            rw [arrive_some_iff, if_pos hm]
          rw [this]
          obtain ⟨e, he, hm⟩ := hm
          exact fun _ => ⟨q, cur, rest, e, .refl, hq, he, hm⟩
        · have hm' : ∀ e ∈ (env (q.processed ++ [cur])).1, cur.mergeable e = false := by
            intro e he
            cases hx : cur.mergeable e with
            | false => rfl
            | true => exact absurd ⟨e, he, hx⟩ hm
          cases ht : (env (q.processed ++ [cur])).2 with
          | true =>
            have : flush env (n + 1) q = .throw (.runtimeError "thrown by process")
                ⟨(env (q.processed ++ [cur])).1.foldl (fun l e => Queue.insert e l) (cur :: rest), q.processed ++ [cur]⟩ := by
              unfold flush
              simp only [hq]
              rw [arrive_some_iff, if_neg hm]
              simp [ht]
            rw [this]
            exact ⟨q, cur, rest, .refl, hq, hm', ht, rfl⟩
          | false =>
            obtain ⟨l', hl'⟩ := foldl_head hm' rest
            have hr : FlushRound env q ⟨l', q.processed ++ [cur]⟩ := ⟨cur, rest, hq, hm', ht, rfl, hl'.symm⟩
            rw [hround hr]
            have := ih ⟨l', q.processed ++ [cur]⟩
            revert this
            cases flush env n ⟨l', q.processed ++ [cur]⟩ with
            | ok _ r => rintro ⟨h1, h2⟩; exact ⟨.head hr h1, h2⟩
            | throw _ r => rintro ⟨q', c, rs, h1, h2⟩; exact ⟨q', c, rs, .head hr h1, h2⟩
            | ub s => intro h hs; obtain ⟨q', c, rs, e, h1, h2⟩ := h hs; exact ⟨q', c, rs, e, .head hr h1, h2⟩
  refine ⟨⟨?_, ?_⟩, ⟨?_, ?_⟩, ⟨?_, ?_⟩⟩
  · rintro ⟨n, h⟩; have := hfor n q; rw [h] at this; exact this
  · rintro ⟨h, he⟩
    obtain ⟨m, hm⟩ := hstar h
    refine ⟨0 + m, (hm 0).trans ?_⟩
    unfold flush
    simp [he]
  · rintro ⟨n, x, h⟩; have := hfor n q; rw [h] at this; exact this
  · rintro ⟨q', cur, rest, h, hq, hm, ht, rfl⟩
    obtain ⟨m, hmm⟩ := hstar h
    refine ⟨1 + m, .runtimeError "thrown by process", (hmm 1).trans ?_⟩
    unfold flush
    simp only [hq]
    rw [arrive_some_iff, if_neg (by rintro ⟨e, he, hx⟩; rw [hm e he] at hx; cases hx)]
    simp [ht]
  · rintro ⟨n, h⟩; have := hfor n q; rw [h] at this; exact this rfl
  · rintro ⟨q', cur, rest, e, h, hq, he, hm⟩
    obtain ⟨m, hmm⟩ := hstar h
    refine ⟨1 + m, (hmm 1).trans ?_⟩
    unfold flush
    simp only [hq]
    rw [arrive_some_iff, if_pos ⟨e, he, hm⟩]

/-- two rounds, then an empty queue: the first event supersedes a queued one -/
example : Relation.ReflTransGen (FlushRound (fun l => (if l.length = 1 then [.edgeRemoved "a" "b"] else [], false)))
    ⟨[.frameAdded "c", .edgeModified "a" "b" 0 1], []⟩ ⟨[], [.frameAdded "c", .edgeRemoved "a" "b"]⟩ :=
  ((C72_exact_partial _ _ _).1.1 ⟨9, by decide +kernel⟩).1

/-- If `process` throws whenever it is given a certain event, and this event is the first one, no number of flushes gets past it: it is
processed again each time, and the events behind it never. -/
theorem C72_stuck (env : QEnv) (he : ∀ l, (env l).1 = []) {q : Queue} {cur : Event} {rest : List Event} (hq : q.events = cur :: rest)
    (ht : ∀ l, (env (l ++ [cur])).2 = true) (k n : Nat) (hn : n ≠ 0) :
    Queue.run env n (List.replicate k .flush) q = some ⟨cur :: rest, q.processed ++ List.replicate k cur⟩ := by
  obtain ⟨m, rfl⟩ := Nat.exists_eq_succ_of_ne_zero hn
  induction k generalizing q with
  | zero => cases q; simp only at hq; subst hq; simp [Queue.run]
  | succ k ih =>
    have hf : flush env (m + 1) q = .throw (.runtimeError "thrown by process") ⟨cur :: rest, q.processed ++ [cur]⟩ := by
      unfold flush
      simp only [hq, he, arrive, ht, if_true]
    simp only [List.replicate_succ, Queue.run, Nat.succ_eq_add_one, hf]
    rw [ih (q := ⟨cur :: rest, q.processed ++ [cur]⟩) rfl]
    simp

/-- three flushes that all throw at the item -/
example : Queue.run (fun l => ([], l.getLast? == some (.itemAdded "a" 1))) 5 [.flush, .flush, .flush]
    ⟨[.itemAdded "a" 1, .frameAdded "z"], []⟩ =
    some ⟨[.itemAdded "a" 1, .frameAdded "z"], [.itemAdded "a" 1, .itemAdded "a" 1, .itemAdded "a" 1]⟩ := by decide +kernel

end Verif
