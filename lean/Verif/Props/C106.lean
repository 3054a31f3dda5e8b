import Verif.Lemmas.Calm
/-!
# C106: event handlers that change subscriptions and raise events are safe

Full statement: event handlers that destroy nothing may subscribe and unsubscribe anybody, raise further events, switch events on
and off and throw, in any combination: no program runs into undefined behaviour (apart from an endless recursion).

It fails for handlers that raise an event at a publisher and change its subscriptions.  It holds if each publisher is used by
handlers for one of the two only.
-/

namespace Verif
open PW

/-- calls that destroy nothing -/
def Act.keepsAll : Act → Bool
  | .destroySub _ | .destroyPub _ => false
  | _ => true

def C106_statement : Prop :=
  ∀ env : PEnv, (∀ s e l, ∀ a ∈ env.handler s e l, a.keepsAll = true) →
    ∀ n (h : List Act), (∀ a ∈ h, a.keepsAll = true) → ∀ w, PW.run env n h PW.init = some w → ∀ a, a.keepsAll = true →
      ∀ r, act env n a w = .ub r → r = "endless recursion"

/-- Handlers raise events at the publishers of `P` only, change subscriptions at the others only, and move only subscribers that
are never subscribed to publishers of `P`: whatever the program does (except destroying), nothing undefined happens, no matter how
deep the handlers nest. -/
theorem C106_no_undefined_partial (env : PEnv) (P : PubId → Prop) (M : SubId → Prop)
    (hh : ∀ s e l, ∀ a ∈ env.handler s e l, a.handlerOk P M) (n : Nat) (h : List Act) (hp : ∀ a ∈ h, a.programOk P M)
    (w : PW) (hr : PW.run env n h PW.init = some w) (a : Act) (ha : a.programOk P M) (r : String)
    (hu : act env n a w = .ub r) : r = "endless recursion" := by
  have h1 := act_top hh (fun _ _ => False) (fun _ h => h) (fun _ _ _ h => h.elim) n a w ha (run_top hh n h hp _ w init_tinv hr)
  rw [hu] at h1
  exact h1.1

/-- Two special cases.  Handlers that raise no events may do with subscriptions what they like and may throw. -/
theorem C106_handlers_without_events_partial (env : PEnv)
    (hh : ∀ s e l, ∀ a ∈ env.handler s e l, a.keepsAll = true ∧ ∀ p e', a ≠ .notify p e') (n : Nat) (h : List Act)
    (hp : ∀ a ∈ h, a.keepsAll = true) (w : PW) (hr : PW.run env n h PW.init = some w) (a : Act) (ha : a.keepsAll = true) (r : String)
    (hu : act env n a w = .ub r) : r = "endless recursion" := by
  have key : ∀ b : Act, b.keepsAll = true → b.programOk (fun _ => False) (fun _ => True) := by
    intro b hb; cases b <;> simp_all [Act.keepsAll, Act.programOk]
  refine C106_no_undefined_partial env (fun _ => False) (fun _ => True) (fun s e l b hb => ?_) n h (fun b hb => key b (hp b hb)) w hr a
    (key a ha) r hu
  obtain ⟨h1, h2⟩ := hh s e l b hb
  cases b <;> simp_all [Act.keepsAll, Act.handlerOk]

/-- Handlers that leave subscriptions alone and do not throw may raise events everywhere, in programs of all kinds. -/
theorem C106_handlers_with_events_partial (env : PEnv)
    (hh : ∀ s e l, ∀ a ∈ env.handler s e l, (∃ p e', a = .notify p e') ∨ ∃ p b, a = .enable p b) (n : Nat) (h : List Act)
    (hp : ∀ a ∈ h, a.keepsAll = true) (w : PW) (hr : PW.run env n h PW.init = some w) (a : Act) (ha : a.keepsAll = true) (r : String)
    (hu : act env n a w = .ub r) : r = "endless recursion" := by
  have key : ∀ b : Act, b.keepsAll = true → b.programOk (fun _ => True) (fun _ => False) := by
    intro b hb; cases b <;> simp_all [Act.keepsAll, Act.programOk]
  refine C106_no_undefined_partial env (fun _ => True) (fun _ => False) (fun s e l b hb => ?_) n h (fun b hb => key b (hp b hb)) w hr a
    (key a ha) r hu
  rcases hh s e l b hb with ⟨p, e', rfl⟩ | ⟨p, c, rfl⟩ <;> simp [Act.handlerOk]

/-- If in addition the events can be ranked such that handlers only deliver events of a lower rank than the one they handle, every
program runs to its end. -/
theorem C106_ranked_partial (env : PEnv) (P : PubId → Prop) (M : SubId → Prop)
    (hh : ∀ s e l, ∀ a ∈ env.handler s e l, a.handlerOk P M) (rank : Event → Nat)
    (hk : ∀ s e l, ∀ a ∈ env.handler s e l, ∀ e', a.raises env e' → rank e' < rank e) (h : List Act) (hp : ∀ a ∈ h, a.programOk P M)
    (B : Nat) (hB : ∀ a ∈ h, ∀ e, a.raises env e → rank e < B) (n : Nat) (hn : B < n) :
    ∃ w, PW.run env n h PW.init = some w := by
  have main : ∀ w, TInv P M w → ∃ w', PW.run env n h w = some w' := by
    induction h with
    | nil => exact fun w _ => ⟨w, rfl⟩
    | cons a h ih =>
      intro w hi
      have h1 := act_top hh (fun n a => 1 ≤ n ∧ ∀ e, a.raises env e → rank e + 2 ≤ n) (fun _ h => by omega)
        (fun m b e hd hr s l c hc => ⟨by have := hd.2 e hr; omega, fun e' he' => by
          have := hd.2 e hr
          have := hk s e l c hc e' he'
          omega⟩) n a w (hp a (by simp)) hi
      unfold PW.run
      cases e : act env n a w with
      | ok x w1 => rw [e] at h1; exact ih (fun b hb => hp b (by simp [hb])) (fun b hb => hB b (by simp [hb])) w1 h1
      | throw x w1 => rw [e] at h1; exact ih (fun b hb => hp b (by simp [hb])) (fun b hb => hB b (by simp [hb])) w1 h1
      | ub r =>
        rw [e] at h1
        refine absurd ⟨by omega, fun e he => ?_⟩ h1.2
        have := hB a (by simp) e he
        omega
  exact main PW.init init_tinv

/-- demo: at the event about "a" subscriber 1 moves subscriber 5 to publisher 8, subscribes 6 there and raises the event about "b" at
publisher 7 -/
def demoDivided : PEnv :=
  ⟨fun s e _ => if s = 1 ∧ e = .frameAdded "a" then [.subscribe 5 8 false, .pubSubscribe 8 6 false, .notify 7 (.frameAdded "b")] else [],
    fun _ _ => [], fun _ _ => []⟩

example : (∀ s e l, ∀ a ∈ demoDivided.handler s e l, a.handlerOk (fun p => p = 7) (fun s => s = 5)) ∧
    (∀ s e l, ∀ a ∈ demoDivided.handler s e l, ∀ e', a.raises demoDivided e' →
      (if e' = .frameAdded "a" then 1 else 0) < (if e = .frameAdded "a" then 1 else 0)) ∧
    (PW.run demoDivided 3 [.subscribe 1 7 false, .subscribe 2 7 false, .subscribe 1 8 false, .subscribe 1 7 false, .pubSubscribe 8 1 false,
      .notify 7 (.frameAdded "a"), .notify 8 (.frameAdded "a")] PW.init).map (fun w => (w.log, (w.pubs 8).subscribers)) =
    some ([(2, .frameAdded "a"), (1, .frameAdded "a"), (2, .frameAdded "b"), (1, .frameAdded "b"),
      (1, .frameAdded "a"), (2, .frameAdded "b"), (1, .frameAdded "b"), (5, .frameAdded "a"), (6, .frameAdded "a")],
      [1, 6, 5, 6]) := by
  refine ⟨?_, ?_, by decide +kernel⟩
  · intro s e l a ha
    simp only [demoDivided] at ha
    split at ha
    · simp at ha; rcases ha with rfl | rfl | rfl <;> simp [Act.handlerOk]
    · simp at ha
  · intro s e l a ha e' he'
    simp only [demoDivided] at ha
    split at ha
    · rename_i hse
      simp at ha; rcases ha with rfl | rfl | rfl <;> simp [Act.raises, hse.2] at he' ⊢
      subst he'; simp
    · simp at ha

/-- A handler that subscribes somebody to the publisher it is called by and then raises an event there: always undefined, whatever
happened before, whoever is subscribed. -/
theorem C106_subscribe_then_raise (env : PEnv) (p : PubId) (s t : SubId) (e e' : Event)
    (hs : ∀ l, env.handler s e l = [.pubSubscribe p t false, .notify p e']) (ho : ∀ x l, x ≠ s → env.handler x e l = [])
    (he' : ∀ x l, env.handler x e' l = []) (n : Nat) (w : PW) (hS : w.deadSubs = []) (hP : w.deadPubs = [])
    (hen : (w.pubs p).enabled = true) (hm : s ∈ (w.pubs p).subscribers) :
    act env (n + 2) (.notify p e) w = .ub "notify: invalidated iterator" := by
  show PW.notify (deliver env (act env (n + 1))) p e w = _
  unfold PW.notify
  rw [if_neg (by simp [hP]), if_pos hen]
  simp only
  rw [loop_broken (act env (n + 1)) p s e ho _ (by simpa [PW.setPub] using hm) (w.setPub p { w.pubs p with insideNotify := true }) hS]
  intro g
  rw [hs g]
  exact subscribe_raise p t e' he' n { (w.setPub p { w.pubs p with insideNotify := true }) with log := g } hS hP
    (by simp [PW.setPub, hen]) (by simp [PW.setPub])

/-- The same in the other order. -/
theorem C106_raise_then_subscribe (env : PEnv) (p : PubId) (s t : SubId) (e e' : Event)
    (hs : ∀ l, env.handler s e l = [.notify p e', .pubSubscribe p t false]) (ho : ∀ x l, x ≠ s → env.handler x e l = [])
    (he' : ∀ x l, env.handler x e' l = []) (n : Nat) (w : PW) (hS : w.deadSubs = []) (hP : w.deadPubs = [])
    (hen : (w.pubs p).enabled = true) (hm : s ∈ (w.pubs p).subscribers) :
    act env (n + 2) (.notify p e) w = .ub "notify: invalidated iterator" := by
  show PW.notify (deliver env (act env (n + 1))) p e w = _
  unfold PW.notify
  rw [if_neg (by simp [hP]), if_pos hen]
  simp only
  rw [loop_broken (act env (n + 1)) p s e ho _ (by simpa [PW.setPub] using hm) (w.setPub p { w.pubs p with insideNotify := true }) hS]
  intro g
  rw [hs g]
  exact raise_subscribe p t e' he' n { (w.setPub p { w.pubs p with insideNotify := true }) with log := g } hS hP
    (by simp [PW.setPub, hen])

/-- demo: at the event about "a" subscriber 1 subscribes 2 and raises the event about "b" at the same publisher -/
def demoBoth : PEnv :=
  ⟨fun s e _ => if s = 1 ∧ e = .frameAdded "a" then [.pubSubscribe 7 2 false, .notify 7 (.frameAdded "b")] else [],
    fun _ _ => [], fun _ _ => []⟩

example : (∀ l, demoBoth.handler 1 (.frameAdded "a") l = [.pubSubscribe 7 2 false, .notify 7 (.frameAdded "b")]) ∧
    (∀ x l, x ≠ 1 → demoBoth.handler x (.frameAdded "a") l = []) ∧ (∀ x l, demoBoth.handler x (.frameAdded "b") l = []) ∧
    (PW.run demoBoth 3 [.subscribe 4 7 false, .subscribe 1 7 false] PW.init).map
      (fun w => ((w.pubs 7).subscribers, (w.pubs 7).enabled, w.deadSubs)) = some ([4, 1], true, []) := by
  refine ⟨fun l => rfl, fun x l hx => ?_, fun x l => ?_, by decide +kernel⟩
  · simp [demoBoth, hx]
  · simp [demoBoth]

/-- An exception in a handler also breaks programs whose handlers raise events only: the subscription made afterwards is postponed
and carried out by the inner event of the next notification. -/
theorem C106_exception_then_raise : ∃ (env : PEnv) (h : List Act) (w : PW),
    (∀ s e l, ∀ a ∈ env.handler s e l, (∃ e', a = .notify 7 e') ∨ a = .fail) ∧ PW.run env 5 h PW.init = some w ∧
    act env 5 (.notify 7 (.frameAdded "a")) w = .ub "notify: invalidated iterator" := by
  refine ⟨⟨fun _ e _ => if e = .frameAdded "a" then [.notify 7 (.frameAdded "b")] else if e = .frameAdded "c" then [.fail] else [],
    fun _ _ => [], fun _ _ => []⟩, [.subscribe 1 7 false, .notify 7 (.frameAdded "c"), .subscribe 2 7 false], _, ?_, rfl, rfl⟩
  intro s e l a ha
  simp only at ha
  split at ha
  · simp at ha; exact .inl ⟨_, ha⟩
  · split at ha
    · simp at ha; exact .inr ha
    · simp at ha

theorem C106_statement_fails : ¬ C106_statement := by
  intro hs
  have hw : ∃ w, PW.run demoBoth 5 [.subscribe 1 7 false] PW.init = some w ∧
    act demoBoth 5 (.notify 7 (.frameAdded "a")) w = .ub "notify: invalidated iterator" := ⟨_, rfl, rfl⟩
  obtain ⟨w, h1, h2⟩ := hw
  have := hs demoBoth (fun s e l a ha => by
    simp only [demoBoth] at ha
    split at ha
    · simp at ha; rcases ha with rfl | rfl <;> rfl
    · simp at ha) 5 [.subscribe 1 7 false] (by simp [Act.keepsAll]) w h1 _ rfl _ h2
  exact absurd this (by decide)

end Verif
