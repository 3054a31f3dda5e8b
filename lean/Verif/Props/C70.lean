import Verif.Lemmas.Handlers
/-!
# C70: events that are raised inside event handlers

Full statement: a handler may cause another event (for example by changing the graph) and may also subscribe and unsubscribe;
every event is then delivered to everybody who is subscribed when it is raised, without undefined behaviour.

It fails: the inner `notify` carries out the postponed subscriptions and sets `insideNotify` to false while the outer loop still
runs over the vector.  It holds if handlers only cause further events.
-/

namespace Verif
open PW

/-- the full statement, reduced to: no invalidated iterator -/
def C70_statement : Prop :=
  ∀ (env : PEnv) (p : PubId), (∀ s e l, ∀ a ∈ env.handler s e l, a.quiet p ∨ ∃ e', a = .notify p e') →
    ∀ (h : List Act), (∀ a ∈ h, a.quiet p ∨ ∃ e, a = .notify p e) → ∀ n w, PW.run env n h PW.init = some w →
      ∀ e, act env n (.notify p e) w ≠ .ub "notify: invalidated iterator"

/-- demo: at the event about "a" subscriber 1 subscribes 2 and raises the event about "b" -/
def demoNested : PEnv :=
  ⟨fun s e _ => if s = 1 ∧ e = .frameAdded "a" then [.subscribe 2 7 false, .notify 7 (.frameAdded "b")] else [],
    fun _ _ => [], fun _ _ => []⟩

theorem C70_statement_fails : ¬ C70_statement := by
  intro hs
  have hw : ∃ w, PW.run demoNested 5 [.subscribe 1 7 false] PW.init = some w ∧
    act demoNested 5 (.notify 7 (.frameAdded "a")) w = .ub "notify: invalidated iterator" := ⟨_, rfl, rfl⟩
  obtain ⟨w, h1, h2⟩ := hw
  refine hs demoNested 7 ?_ [.subscribe 1 7 false] ?_ 5 w h1 (.frameAdded "a") h2
  · intro s e l a ha
    simp only [demoNested] at ha
    split at ha
    · simp at ha; rcases ha with rfl | rfl
      · exact .inl (by decide)
      · exact .inr ⟨_, rfl⟩
    · simp at ha
  · intro a ha; simp at ha; subst ha; exact .inl (by decide)

/-- nothing is postponed at any publisher, nothing destroyed -/
structure Settled (w : PW) : Prop where
  toSub : ∀ p, (w.pubs p).toBeSubscribed = []
  toUnsub : ∀ p, (w.pubs p).toBeUnsubscribed = []
  noDeadS : w.deadSubs = []
  noDeadP : w.deadPubs = []

/-- same subscribers, same switch; the log only grows -/
structure Grows (w w' : PW) : Prop where
  subs : ∀ p, (w'.pubs p).subscribers = (w.pubs p).subscribers
  enab : ∀ p, (w'.pubs p).enabled = (w.pubs p).enabled
  chg : ∀ p, (w'.pubs p).changes = (w.pubs p).changes
  log : ∃ l, w'.log = w.log ++ l

theorem Grows.refl (w : PW) : Grows w w := ⟨fun _ => rfl, fun _ => rfl, fun _ => rfl, [], by simp⟩

theorem Grows.trans {a b c : PW} (h : Grows a b) (k : Grows b c) : Grows a c :=
  ⟨fun p => (k.subs p).trans (h.subs p), fun p => (k.enab p).trans (h.enab p), fun p => (k.chg p).trans (h.chg p), by
    obtain ⟨l, hl⟩ := h.log; obtain ⟨m, hm⟩ := k.log; exact ⟨l ++ m, by rw [hm, hl]; simp⟩⟩

/-- Handlers that only raise further events (at any publishers): a notification either never ends (endless recursion, no stack
is that large) or it reaches every subscriber of the publisher and leaves all lists as they were. -/
theorem C70_nested_events_partial (env : PEnv) (hh : ∀ s e l, ∀ a ∈ env.handler s e l, ∃ q e', a = .notify q e') (n : Nat)
    (p : PubId) (e : Event) (w : PW) (hs : Settled w) :
    act env n (.notify p e) w = .ub "endless recursion" ∨
    ∃ w', act env n (.notify p e) w = .ok () w' ∧ Settled w' ∧ Grows w w' ∧
      ((w.pubs p).enabled = true → ∀ s ∈ (w.pubs p).subscribers, (s, e) ∈ w'.log.drop w.log.length) := by
  induction n generalizing p e w with
  | zero => exact .inl rfl
  | succ n ih =>
    -- calls of one handler
    have hseq : ∀ (as : List Act), (∀ a ∈ as, ∃ q e', a = .notify q e') → ∀ w, Settled w →
        seqAll (act env n) as w = .ub "endless recursion" ∨ ∃ w', seqAll (act env n) as w = .ok () w' ∧ Settled w' ∧ Grows w w' := by
      intro as
      induction as with
      | nil => intro _ w hs; exact .inr ⟨w, rfl, hs, .refl w⟩
      | cons a as iha =>
        intro has w hs
        obtain ⟨q, e', rfl⟩ := has a (by simp)
        rcases ih q e' w hs with h1 | ⟨w1, h1, h2, h3, _⟩
        · exact .inl (by simp [seqAll, h1])
        · rcases iha (fun b hb => has b (by simp [hb])) w1 h2 with h4 | ⟨w2, h4, h5, h6⟩
          · exact .inl (by simp [seqAll, h1, h4])
          · exact .inr ⟨w2, by simp [seqAll, h1, h4], h5, h3.trans h6⟩
    have hloop : ∀ (l : List SubId) (w : PW), Settled w →
        notifyLoop (deliver env (act env n)) p e (w.pubs p).changes l w = .ub "endless recursion" ∨
        ∃ w', notifyLoop (deliver env (act env n)) p e (w.pubs p).changes l w = .ok () w' ∧ Settled w' ∧ Grows w w' ∧
          ∀ s ∈ l, (s, e) ∈ w'.log.drop w.log.length := by
      intro l
      induction l with
      | nil => intro w hs; exact .inr ⟨w, rfl, hs, .refl w, by simp⟩
      | cons s l ihl =>
        intro w hs
        have hdel : deliver env (act env n) s e w =
            seqAll (act env n) (env.handler s e (w.log ++ [(s, e)])) { w with log := w.log ++ [(s, e)] } := by
          unfold deliver; rw [if_neg (by simp [hs.noDeadS])]
        have hg0 : Grows w { w with log := w.log ++ [(s, e)] } := ⟨fun _ => rfl, fun _ => rfl, fun _ => rfl, _, rfl⟩
        rcases hseq _ (hh s e _) { w with log := w.log ++ [(s, e)] } ⟨hs.toSub, hs.toUnsub, hs.noDeadS, hs.noDeadP⟩ with
          h1 | ⟨w1, h1, h2, h3⟩
        · exact .inl (by unfold notifyLoop; rw [hdel, h1])
        · have hc : (w1.pubs p).changes = (w.pubs p).changes := h3.chg p
          have hg1 := hg0.trans h3
          rcases ihl w1 h2 with h4 | ⟨w2, h4, h5, h6, h7⟩
          · exact .inl (by unfold notifyLoop; rw [hdel, h1]; simp only [hc, if_true]; rw [← hc]; exact h4)
          · refine .inr ⟨w2, by unfold notifyLoop; rw [hdel, h1]; simp only [hc, if_true]; rw [← hc]; exact h4, h5, hg1.trans h6, ?_⟩
            obtain ⟨m1, hm1⟩ := h3.log
            obtain ⟨m2, hm2⟩ := h6.log
            simp only at hm1
            intro t ht
            rcases List.mem_cons.1 ht with rfl | ht
            · rw [hm2, hm1]; simp
            · have := h7 t ht
              rw [hm2, List.drop_left] at this
              rw [hm2, hm1]; simp [this]
    show PW.notify (deliver env (act env n)) p e w = _ ∨ ∃ w', PW.notify (deliver env (act env n)) p e w = _ ∧ _
    unfold PW.notify
    rw [if_neg (by simp [hs.noDeadP])]
    by_cases hen : (w.pubs p).enabled
    · rw [if_pos hen]
      simp only
      have hset : ∀ q, ((w.setPub p { w.pubs p with insideNotify := true }).pubs q).subscribers = (w.pubs q).subscribers ∧
          ((w.setPub p { w.pubs p with insideNotify := true }).pubs q).enabled = (w.pubs q).enabled ∧
          ((w.setPub p { w.pubs p with insideNotify := true }).pubs q).changes = (w.pubs q).changes ∧
          ((w.setPub p { w.pubs p with insideNotify := true }).pubs q).toBeSubscribed = (w.pubs q).toBeSubscribed ∧
          ((w.setPub p { w.pubs p with insideNotify := true }).pubs q).toBeUnsubscribed = (w.pubs q).toBeUnsubscribed := by
        intro q; simp only [setPub]; split
        · rename_i h; subst h; exact ⟨rfl, rfl, rfl, rfl, rfl⟩
        · exact ⟨rfl, rfl, rfl, rfl, rfl⟩
      have hs1 : Settled (w.setPub p { w.pubs p with insideNotify := true }) :=
        ⟨fun q => by rw [(hset q).2.2.2.1, hs.toSub], fun q => by rw [(hset q).2.2.2.2, hs.toUnsub], hs.noDeadS, hs.noDeadP⟩
      have hg1 : Grows w (w.setPub p { w.pubs p with insideNotify := true }) :=
        ⟨fun q => (hset q).1, fun q => (hset q).2.1, fun q => (hset q).2.2.1, [], by simp [setPub]⟩
      rcases hloop ((w.setPub p { w.pubs p with insideNotify := true }).pubs p).subscribers _ hs1 with h1 | ⟨w1, h1, h2, h3, h4⟩
      · exact .inl (by rw [h1])
      · refine .inr ⟨_, by rw [h1], ?_, ?_, ?_⟩
        · have hend := notifyEnd_eq (w1.pubs p)
          refine ⟨fun q => ?_, fun q => ?_, h2.noDeadS, h2.noDeadP⟩
          · simp only [setPub]; split
            · exact hend.2.2.1
            · exact h2.toSub q
          · simp only [setPub]; split
            · rw [hend.2.2.2.1]; exact h2.toUnsub p
            · exact h2.toUnsub q
        · refine (hg1.trans h3).trans ⟨fun q => ?_, fun q => ?_, fun q => ?_, [], by simp [setPub]⟩
          · simp only [setPub]; split
            · rename_i h; subst h; rw [(notifyEnd_eq _).1, h2.toSub, h2.toUnsub]; simp
            · rfl
          · simp only [setPub]; split
            · rename_i h; subst h; rw [(notifyEnd_eq _).2.2.2.2]
            · rfl
          · simp only [setPub]; split
            · rename_i h; subst h; simp [notifyEnd, h2.toSub, h2.toUnsub]
            · rfl
        · intro _ s hsm
          have hsm' : s ∈ ((w.setPub p { w.pubs p with insideNotify := true }).pubs p).subscribers := by rw [(hset p).1]; exact hsm
          have := h4 s hsm'
          simpa [setPub] using this
    · rw [if_neg hen]
      exact .inr ⟨w, rfl, hs, .refl w, fun h => absurd h hen⟩

/-- demo: at the event about "a" subscriber 1 raises the event about "b" -/
def demoCascade : PEnv :=
  ⟨fun s e _ => if s = 1 ∧ e = .frameAdded "a" then [.notify 7 (.frameAdded "b")] else [], fun _ _ => [], fun _ _ => []⟩

example : (PW.run demoCascade 5 [.subscribe 1 7 false, .subscribe 2 7 false, .notify 7 (.frameAdded "a")] PW.init).map PW.log =
    some [(1, .frameAdded "a"), (1, .frameAdded "b"), (2, .frameAdded "b"), (2, .frameAdded "a")] := by decide +kernel

/-- Subscriber 2 sees the inner event before the outer one: the order of delivery is not the order in which events are raised. -/
theorem C70_order_reversed : ∃ w, PW.run demoCascade 5 [.subscribe 1 7 false, .subscribe 2 7 false, .notify 7 (.frameAdded "a")] PW.init =
    some w ∧ (w.log.filter (fun x => x.1 = 1)).map Prod.snd = [.frameAdded "a", .frameAdded "b"] ∧
    (w.log.filter (fun x => x.1 = 2)).map Prod.snd = [.frameAdded "b", .frameAdded "a"] := ⟨_, rfl, by decide +kernel, by decide +kernel⟩

end Verif
