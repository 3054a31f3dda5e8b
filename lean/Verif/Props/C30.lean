import Verif.Lemmas.Handlers
/-!
# C30: subscribing and unsubscribing inside an event handler takes effect after the event

Full statement: if handlers subscribe or unsubscribe while an event is delivered, the delivery of that event is not affected, and
afterwards the subscriber list is the old one plus the new subscribers minus the removed ones - for this and for all later events.

The first half holds.  The second half fails: `toBeUnsubscribed` is never cleared, so somebody who unsubscribed inside a handler
and subscribes again is removed again at the end of the next event.
-/

namespace Verif
open PW

/-- the full statement for one publisher: the model does what the ideal publisher does, for every program and all handlers -/
def C30_statement : Prop :=
  ∀ (env : PEnv) (p : PubId), (∀ s e l, ∀ a ∈ env.handler s e l, a.quiet p) →
    ∀ h : List Act, (∀ a ∈ h, a.quiet p ∨ ∃ e, a = .notify p e) →
      ∃ w, PW.run env 2 h PW.init = some w ∧ (w.pubs p).subscribers = (Ideal.run env .init h).list ∧
        w.log = (Ideal.run env .init h).log

/-- Delivery of an event is not affected by what the handlers do, in every state. -/
theorem C30_delivery_unaffected (env : PEnv) (p : PubId) (hq : ∀ s e l, ∀ a ∈ env.handler s e l, a.quiet p) (n : Nat)
    (pts : SubId → Bool) (w : PW) (hr : PRel p pts w) (hen : (w.pubs p).enabled = true) (hts : (w.pubs p).toBeSubscribed = [])
    (e : Event) : ∃ w', act env (n + 2) (.notify p e) w = .ok () w' ∧
      w'.log = w.log ++ (w.pubs p).subscribers.map (fun s => (s, e)) := by
  obtain ⟨w', h1, h2, _⟩ := notify_quiet env n hq e hr hen hts
  exact ⟨w', h1, h2⟩

/-- demo: subscriber 1 unsubscribes itself and brings subscriber 2 when it gets an event -/
def demoHandler : PEnv :=
  ⟨fun s _ _ => if s = 1 then [.unsubscribe 1, .subscribe 2 7 false] else [], fun _ _ => [], fun _ _ => []⟩

example : (∀ s e l, ∀ a ∈ demoHandler.handler s e l, a.quiet 7) ∧
    (PW.run demoHandler 2 [.subscribe 1 7 false, .subscribe 3 7 false, .notify 7 (.frameAdded "a"), .notify 7 (.frameAdded "b")]
      PW.init).map (fun w => (w.log, (w.pubs 7).subscribers)) =
      some ([(1, .frameAdded "a"), (3, .frameAdded "a"), (3, .frameAdded "b"), (2, .frameAdded "b")], [3, 2]) := by
  constructor
  · intro s e l a ha
    simp only [demoHandler] at ha
    split at ha
    · simp at ha; rcases ha with rfl | rfl <;> decide
    · simp at ha
  · decide +kernel

/-- After one event: the old list plus the new subscribers minus the removed ones, if nothing is left over from earlier events. -/
theorem C30_after_event_partial (env : PEnv) (p : PubId) (hq : ∀ s e l, ∀ a ∈ env.handler s e l, a.quiet p) (n : Nat)
    (pts : SubId → Bool) (w : PW) (hr : PRel p pts w) (hen : (w.pubs p).enabled = true) (hts : (w.pubs p).toBeSubscribed = [])
    (hleft : (w.pubs p).toBeUnsubscribed = []) (e : Event) : ∃ w', act env (n + 2) (.notify p e) w = .ok () w' ∧
      let ws := wishesAll pts (handlerCalls env e w.log (w.pubs p).subscribers)
      (w'.pubs p).subscribers = (quits ws).foldl List.erase ((w.pubs p).subscribers ++ joins ws) := by
  obtain ⟨w', h1, _, h3, _⟩ := notify_quiet env n hq e hr hen hts
  exact ⟨w', h1, by simpa [hleft] using h3⟩

example : handlerCalls demoHandler (.frameAdded "a") [] [1, 3] = [.unsubscribe 1, .subscribe 2 7 false] ∧
    wishesAll (fun s => s = 1) [.unsubscribe 1, .subscribe 2 7 false] = [.quit 1, .join 2] := by decide

/-- For whole programs: as long as nobody who unsubscribed inside a handler is subscribed at the end of a later event, the
publisher behaves like the ideal one. -/
theorem C30_programs_partial (env : PEnv) (p : PubId) (hq : ∀ s e l, ∀ a ∈ env.handler s e l, a.quiet p) (n : Nat)
    (h : List Act) (ha : ∀ a ∈ h, a.quiet p ∨ ∃ e, a = .notify p e) (hf : (Ideal.run env .init h).fine) :
    ∃ w, PW.run env (n + 2) h PW.init = some w ∧ (w.pubs p).subscribers = (Ideal.run env .init h).list ∧
      w.log = (Ideal.run env .init h).log := by
  obtain ⟨w, h1, h2⟩ := IRel.run env n hq h (IRel.init p) ha hf
  exact ⟨w, h1, h2.list, h2.log⟩

example : let x := Ideal.run demoHandler .init [.subscribe 1 7 false, .subscribe 3 7 false, .notify 7 (.frameAdded "a"),
      .notify 7 (.frameAdded "b")]
    x.fine ∧ x.list = [3, 2] ∧ x.gone = [1] := by
  refine ⟨?_, by decide, by decide⟩
  simp only [Ideal.run, List.foldl_cons, List.foldl_nil, Ideal.step, Ideal.init]
  simp [wishes, known, Eff.now, handlerCalls, demoHandler, wishesAll, knownAll, quits, joins]

/-- handlers may do whatever they like with subscriptions as long as nobody is unsubscribed in a handler: no restriction -/
theorem C30_only_subscribing (env : PEnv) (p : PubId)
    (hq : ∀ s e l, ∀ a ∈ env.handler s e l, ∃ t, a = .pubSubscribe p t false) (n : Nat)
    (h : List Act) (ha : ∀ a ∈ h, a.quiet p ∨ ∃ e, a = .notify p e) :
    ∃ w, PW.run env (n + 2) h PW.init = some w ∧ (w.pubs p).subscribers = (Ideal.run env .init h).list ∧
      w.log = (Ideal.run env .init h).log := by
  refine C30_programs_partial env p (fun s e l a h1 => by obtain ⟨t, rfl⟩ := hq s e l a h1; simp [Act.quiet]) n h ha ?_
  suffices ∀ (h : List Act) (x : Ideal), x.fine → x.gone = [] → (Ideal.run env x h).fine ∧ (Ideal.run env x h).gone = [] from
    (this h .init trivial rfl).1
  have hcalls : ∀ (e : Event) (ss : List SubId) (l : List (SubId × Event)), ∀ a ∈ handlerCalls env e l ss, ∃ t, a = .pubSubscribe p t false := by
    intro e ss
    induction ss with
    | nil => intro l a hx; simp [handlerCalls] at hx
    | cons s ss ih =>
      intro l a hx
      simp only [handlerCalls, List.mem_append] at hx
      rcases hx with hx | hx
      · exact hq _ _ _ a hx
      · exact ih _ a hx
  have hquits : ∀ (as : List Act) (pts : SubId → Bool), (∀ a ∈ as, ∃ t, a = .pubSubscribe p t false) → quits (wishesAll pts as) = [] := by
    intro as
    induction as with
    | nil => intros; rfl
    | cons a as ih =>
      intro pts hx
      obtain ⟨t, rfl⟩ := hx a (by simp)
      have := ih pts (fun b hb => hx b (by simp [hb]))
      simp only [wishesAll, wishes, known, quits, List.filterMap_append] at this ⊢
      rw [this]; rfl
  intro h
  induction h with
  | nil => intro x h1 h2; exact ⟨h1, h2⟩
  | cons a h ih =>
    intro x h1 h2
    refine ih (Ideal.step env x a) ?_ ?_
    · cases a <;> first | exact h1 | (refine ⟨h1, ?_⟩; rw [h2]; simp)
    · cases a <;> first | exact h2 | skip
      rename_i q e
      show x.gone ++ quits (wishesAll x.pts (handlerCalls env e x.log x.list)) = []
      rw [h2, hquits _ _ (hcalls e x.list x.log)]; rfl

example : ∃ env : PEnv, (∀ s e l, ∀ a ∈ env.handler s e l, ∃ t, a = .pubSubscribe 7 t false) ∧
    (PW.run env 2 [.subscribe 1 7 false, .notify 7 (.frameAdded "a"), .notify 7 (.frameAdded "b")] PW.init).map
      (fun w => (w.pubs 7).subscribers) = some [1, 2, 2] :=
  ⟨⟨fun s _ _ => if s = 1 then [.pubSubscribe 7 2 false] else [], fun _ _ => [], fun _ _ => []⟩, by
    intro s e l a ha; dsimp at ha; split at ha
    · simp at ha; exact ⟨2, ha⟩
    · simp at ha, by decide +kernel⟩

/-- demo: subscriber 1 unsubscribes when it sees the event about frame "a" -/
def demoLeave : PEnv :=
  ⟨fun s e _ => if s = 1 ∧ e = .frameAdded "a" then [.unsubscribe 1] else [], fun _ _ => [], fun _ _ => []⟩

/-- The simplest witness: subscriber 1 unsubscribes in its handler, subscribes again, sees one more event and then no event any
more, although it never unsubscribed a second time. -/
theorem C30_second_subscription_lost :
    (PW.run demoLeave 2 [.subscribe 1 7 false, .notify 7 (.frameAdded "a"), .subscribe 1 7 false, .notify 7 (.frameAdded "b"),
      .notify 7 (.frameAdded "c")] PW.init).map (fun w => (w.log, (w.pubs 7).subscribers, w.ptr 1)) =
    some ([(1, .frameAdded "a"), (1, .frameAdded "b")], [], some 7) := by decide +kernel

/-- The full statement fails. -/
theorem C30_statement_fails : ¬ C30_statement := by
  intro hs
  obtain ⟨w, h1, h2, h3⟩ := hs demoLeave 7 (by
    intro s e l a ha
    simp only [demoLeave] at ha
    split at ha
    · simp at ha; subst ha; decide
    · simp at ha) [.subscribe 1 7 false, .notify 7 (.frameAdded "a"), .subscribe 1 7 false, .notify 7 (.frameAdded "b"),
      .notify 7 (.frameAdded "c")] (by
      intro a ha
      simp at ha
      rcases ha with rfl | rfl | rfl | rfl | rfl
      all_goals first | exact .inl (by decide) | exact .inr ⟨_, rfl⟩)
  have h4 := C30_second_subscription_lost
  rw [h1] at h4
  simp only [Option.map_some, Option.some.injEq, Prod.mk.injEq] at h4
  rw [h4.1] at h3
  revert h3; decide +kernel

end Verif
