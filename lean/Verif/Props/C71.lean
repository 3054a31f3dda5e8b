import Verif.Props.C32
import Verif.Lemmas.Kill
/-!
# C71: a destroyed subscriber is never called

Full statement: after a subscriber was destroyed, no publisher calls it, wherever the destruction happens (also inside event
handlers) and however it subscribed.

It fails in two ways: a handler that destroys another subscriber only postpones the unsubscription, and a subscriber that was
entered through `publisher.subscribe(&s)` does not know its publisher.
-/

namespace Verif
open PW

/-- the full statement: no program calls a destroyed subscriber -/
def C71_statement : Prop :=
  ∀ (env : PEnv) (n : Nat) (h : List Act) (w : PW), PW.run env n h PW.init = some w → ∀ p e,
    act env n (.notify p e) w ≠ .ub "notifyGraphEvent: destroyed subscriber"

/-- A subscriber that was entered by the publisher interface is called after its destruction. -/
theorem C71_entered_by_publisher_fails : ∃ (env : PEnv) (w : PW), env.Passive ∧
    PW.run env 1 [.pubSubscribe 7 1 false, .destroySub 1] PW.init = some w ∧
    act env 1 (.notify 7 (.frameAdded "a")) w = .ub "notifyGraphEvent: destroyed subscriber" :=
  ⟨⟨fun _ _ _ => [], fun _ _ => [], fun _ _ => []⟩, _, fun _ _ _ => rfl, rfl, rfl⟩

/-- demo: subscriber 1 destroys subscriber 2 -/
def demoKill : PEnv := ⟨fun s _ _ => if s = 1 then [.destroySub 2] else [], fun _ _ => [], fun _ _ => []⟩

/-- Destroying a subscriber inside a handler of another one: it is still called for the same event. -/
theorem C71_inside_handler_fails : ∃ w, PW.run demoKill 3 [.subscribe 1 7 false, .subscribe 2 7 false] PW.init = some w ∧
    act demoKill 3 (.notify 7 (.frameAdded "a")) w = .ub "notifyGraphEvent: destroyed subscriber" := ⟨_, rfl, rfl⟩

theorem C71_statement_fails : ¬ C71_statement := by
  intro hs
  obtain ⟨w, h1, h2⟩ := C71_inside_handler_fails
  exact hs _ _ _ w h1 _ _ h2

/-- What holds: outside of handlers, for subscribers that use their own interface, the destroyed subscriber is not called by any
publisher, whatever happens afterwards. -/
theorem C71_outside_handlers_partial (env : PEnv) (hp : env.Passive) (n : Nat) (h1 h2 : List Act) (s : SubId)
    (hv : ∀ b ∈ h1 ++ Act.destroySub s :: h2, b.viaSubscriber) (w : PW)
    (hr : PW.run env (n + 1) (h1 ++ Act.destroySub s :: h2) PW.init = some w) (p : PubId) (e : Event) :
    ∃ w', act env (n + 1) (.notify p e) w = .ok () w' ∧ (s, e) ∉ w'.log.drop w.log.length := by
  have hi := SubInv.run hp hv hr
  have hdead : s ∈ w.deadSubs := (hi.dead s).2 ⟨h1, h2, rfl⟩
  have hno : ∀ q, w.ptr s ≠ some q := fun q hq => hi.deadNo s q hdead ((hi.ptr s q).1 hq)
  obtain ⟨w', h3, _⟩ := hi.step hp n (.notify p e) rfl (by intro s hc; simp [Act.concerns] at hc)
  exact ⟨w', h3, C32_old_publisher_silent env hp n _ hv w hr s p (hno p) e w' h3⟩

example : (PW.run demoState 1 ([.subscribe 1 7 false, .subscribe 2 7 false] ++ .destroySub 1 :: [.notify 7 (.frameAdded "a")]) PW.init).map
    PW.log = some [(2, .frameAdded "a")] := by decide +kernel

/-- Handlers that destroy subscribers: the exact condition.  `kills s` are the subscribers that the handler of `s` destroys at the
event.  The notification is defined if and only if no subscriber of the list was destroyed before, nobody is destroyed twice, and
nobody is destroyed by a subscriber that stands before it in the list.  It then reaches everybody in the list. -/
theorem C71_destroying_handlers (env : PEnv) (n : Nat) (p : PubId) (e : Event) (kills : SubId → List SubId)
    (hk : ∀ s g, env.handler s e g = (kills s).map Act.destroySub) (w : PW) (hP : w.deadPubs = []) (hen : (w.pubs p).enabled = true) :
    let l := (w.pubs p).subscribers
    let ok := (∀ s ∈ l, s ∉ w.deadSubs) ∧ (∀ t ∈ l.flatMap kills, t ∉ w.deadSubs) ∧ (l.flatMap kills).Nodup ∧
      l.Pairwise (fun s u => u ∉ kills s)
    (ok → ∃ w', act env (n + 2) (.notify p e) w = .ok () w' ∧ w'.log = w.log ++ l.map (fun s => (s, e)) ∧
      ∀ t, t ∈ w'.deadSubs ↔ t ∈ l.flatMap kills ∨ t ∈ w.deadSubs) ∧
    (¬ ok → ∃ r, act env (n + 2) (.notify p e) w = .ub r) := by
  simp only
  obtain ⟨h1, h2⟩ := kill_loop n p e kills hk (w.pubs p).subscribers (w.setPub p { w.pubs p with insideNotify := true })
    (by simp [PW.setPub]) hP (fun t => t ∈ w.deadSubs) (fun _ => Iff.rfl)
  have hsub : ((w.setPub p { w.pubs p with insideNotify := true }).pubs p).subscribers = (w.pubs p).subscribers := by simp [PW.setPub]
  refine ⟨fun ho => ?_, fun ho => ?_⟩
  · obtain ⟨w1, a1, a2, a3, _, _⟩ := h1 ho
    refine ⟨w1.setPub p (notifyEnd (w1.pubs p)), ?_, a3, a2⟩
    show PW.notify _ p e w = _
    unfold PW.notify
    rw [if_neg (by simp [hP]), if_pos hen]
    simp only
    rw [hsub, a1]
  · obtain ⟨r, a1⟩ := h2 ho
    refine ⟨r, ?_⟩
    show PW.notify _ p e w = _
    unfold PW.notify
    rw [if_neg (by simp [hP]), if_pos hen]
    simp only
    rw [hsub, a1]

/-- demo: 1 destroys 4 (subscribed elsewhere), 2 destroys itself and 1 -/
def demoKills : PEnv := ⟨fun s _ _ => if s = 1 then [.destroySub 4] else if s = 2 then [.destroySub 2, .destroySub 1] else [],
  fun _ _ => [], fun _ _ => []⟩

example : (∀ s g, demoKills.handler s (.frameAdded "a") g = (if s = 1 then [4] else if s = 2 then [2, 1] else []).map Act.destroySub) ∧
    (PW.run demoKills 3 [.subscribe 1 7 false, .subscribe 2 7 false, .subscribe 3 7 false, .subscribe 4 8 false,
      .notify 7 (.frameAdded "a"), .notify 7 (.frameAdded "b"), .notify 8 (.frameAdded "b")] PW.init).map
      (fun w => (w.log, w.deadSubs)) =
    some ([(1, .frameAdded "a"), (2, .frameAdded "a"), (3, .frameAdded "a"), (3, .frameAdded "b")], [1, 2, 4]) := by
  refine ⟨fun s g => ?_, by decide +kernel⟩
  simp only [demoKills]
  split
  · rfl
  · split <;> rfl

/-- In particular: a handler that destroys somebody who stands behind it in the list is always undefined, … -/
theorem C71_destroying_a_later_one_fails (env : PEnv) (n : Nat) (p : PubId) (e : Event) (kills : SubId → List SubId)
    (hk : ∀ s g, env.handler s e g = (kills s).map Act.destroySub) (w : PW) (hP : w.deadPubs = []) (hen : (w.pubs p).enabled = true)
    (a b c : List SubId) (s u : SubId) (hl : (w.pubs p).subscribers = a ++ s :: b ++ u :: c) (hu : u ∈ kills s) :
    ∃ r, act env (n + 2) (.notify p e) w = .ub r := by
  refine (C71_destroying_handlers env n p e kills hk w hP hen).2 (fun ho => ?_)
  have h1 := ho.2.2.2
  rw [hl, List.append_assoc, List.pairwise_append] at h1
  have h2 := h1.2.1
  rw [List.cons_append, List.pairwise_cons] at h2
  exact h2.1 u (by simp) hu

example : (PW.run demoKill 3 [.subscribe 1 7 false, .subscribe 5 7 false, .subscribe 2 7 false] PW.init).map
    (fun w => (w.pubs 7).subscribers) = some ([] ++ 1 :: [5] ++ 2 :: []) := by decide +kernel

/-- … and subscribers that destroy nobody but themselves are always fine: everybody is called, and afterwards exactly the others
are subscribed. -/
theorem C71_destroying_oneself (env : PEnv) (n : Nat) (p : PubId) (e : Event) (gone : SubId → Bool)
    (hk : ∀ s g, env.handler s e g = if gone s then [.destroySub s] else []) (w : PW) (hP : w.deadPubs = [])
    (hen : (w.pubs p).enabled = true) (hn : (w.pubs p).subscribers.Nodup) (ha : ∀ s ∈ (w.pubs p).subscribers, s ∉ w.deadSubs)
    (hptr : ∀ s ∈ (w.pubs p).subscribers, w.ptr s = some p) (ht : (w.pubs p).toBeSubscribed = [] ∧ (w.pubs p).toBeUnsubscribed = []) :
    ∃ w', act env (n + 2) (.notify p e) w = .ok () w' ∧ w'.log = w.log ++ (w.pubs p).subscribers.map (fun s => (s, e)) ∧
      (w'.pubs p).subscribers = (w.pubs p).subscribers.filter (fun s => !gone s) := by
  have hk' : ∀ s g, env.handler s e g = ((if gone s then [s] else []) : List SubId).map Act.destroySub := by
    intro s g; rw [hk]; split <;> rfl
  have hfl : ∀ l : List SubId, l.flatMap (fun s => if gone s then [s] else []) = l.filter gone := by
    intro l
    induction l with
    | nil => rfl
    | cons x l ih => rw [List.flatMap_cons, ih, List.filter_cons]; split <;> simp_all
  obtain ⟨h1, _⟩ := kill_loop n p e (fun s => if gone s then [s] else []) hk' (w.pubs p).subscribers
    (w.setPub p { w.pubs p with insideNotify := true }) (by simp [PW.setPub]) hP (fun t => t ∈ w.deadSubs) (fun _ => Iff.rfl)
  have hsub : ((w.setPub p { w.pubs p with insideNotify := true }).pubs p).subscribers = (w.pubs p).subscribers := by simp [PW.setPub]
  have hok : KillOk (fun s => if gone s then [s] else []) (fun t => t ∈ w.deadSubs) (w.pubs p).subscribers := by
    refine ⟨ha, ?_, ?_, ?_⟩
    · rw [hfl]; exact fun t ht => ha t (List.mem_of_mem_filter ht)
    · rw [hfl]; exact hn.filter _
    · refine List.Pairwise.imp ?_ hn
      intro s u hsu
      show u ∉ (if gone s then [s] else [])
      split
      · simpa using Ne.symm hsu
      · simp
  obtain ⟨w1, a1, _, a3, _, a5⟩ := h1 hok
  refine ⟨w1.setPub p (notifyEnd (w1.pubs p)), ?_, a3, ?_⟩
  · show PW.notify _ p e w = _
    unfold PW.notify
    rw [if_neg (by simp [hP]), if_pos hen]
    simp only
    rw [hsub, a1]
  · have h3 : ((w1.setPub p (notifyEnd (w1.pubs p))).pubs p) = notifyEnd (w1.pubs p) := by simp [PW.setPub]
    rw [h3, (notifyEnd_eq _).1, a5]
    simp only [PW.setPub, if_true, ht.1, ht.2, List.append_nil, List.nil_append]
    rw [hfl, foldl_erase_nodup _ _ hn]
    refine List.filter_congr (fun t htm => ?_)
    simp only [List.mem_filter, htm, true_and, hptr t htm, decide_true, and_true]
    cases gone t <;> simp

example : ∃ env : PEnv, (∀ s g, env.handler s (.frameAdded "a") g = if (s == 2) then [.destroySub s] else []) ∧
    (PW.run env 3 [.subscribe 1 7 false, .subscribe 2 7 false, .subscribe 3 7 false, .notify 7 (.frameAdded "a")] PW.init).map
      (fun w => (w.log, (w.pubs 7).subscribers)) =
    some ([(1, .frameAdded "a"), (2, .frameAdded "a"), (3, .frameAdded "a")], [1, 3]) :=
  ⟨⟨fun s _ _ => if (s == 2) then [.destroySub s] else [], fun _ _ => [], fun _ _ => []⟩, fun _ _ => rfl, by decide +kernel⟩

end Verif
