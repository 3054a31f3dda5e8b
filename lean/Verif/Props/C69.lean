import Verif.Lemmas.Handlers
/-!
# C69: an exception that leaves an event handler does not damage the publisher

Full statement: if a handler throws, the exception reaches the caller, and later subscriptions and events work as if the event had
been delivered normally to the subscribers before the throwing one.

It fails: `insideNotify` stays true, so that later subscriptions and unsubscriptions are postponed until the end of the next
event, although no event is being delivered.
-/

namespace Verif
open PW

/-- the part about later subscriptions: after the exception, a new subscriber receives the next event -/
def C69_statement : Prop :=
  ∀ (env : PEnv) (p : PubId) (e e' : Event) (s t : SubId) (w w1 : PW) (x : Exn),
    PW.run env 3 [.subscribe s p false] PW.init = some w → act env 3 (.notify p e) w = .throw x w1 →
    ∀ w2, PW.run env 3 [.subscribe t p false, .notify p e'] w1 = some w2 → t ≠ s → (t, e') ∈ w2.log

/-- demo: subscriber 1 throws at the event about "a" -/
def demoThrow : PEnv := ⟨fun s e _ => if s = 1 ∧ e = .frameAdded "a" then [.fail] else [], fun _ _ => [], fun _ _ => []⟩

/-- The new subscriber misses the next event (it is entered after it). -/
theorem C69_new_subscriber_misses_event :
    (PW.run demoThrow 3 [.subscribe 1 7 false, .notify 7 (.frameAdded "a"), .subscribe 2 7 false, .notify 7 (.frameAdded "b"),
      .notify 7 (.frameAdded "c")] PW.init).map PW.log =
    some [(1, .frameAdded "a"), (1, .frameAdded "b"), (1, .frameAdded "c"), (2, .frameAdded "c")] := by decide +kernel

/-- The removed subscriber still receives the next event. -/
theorem C69_removed_subscriber_still_called :
    (PW.run demoThrow 3 [.subscribe 1 7 false, .subscribe 2 7 false, .notify 7 (.frameAdded "a"), .unsubscribe 2,
      .notify 7 (.frameAdded "b")] PW.init).map (fun w => (w.log, w.ptr 2)) =
    some ([(1, .frameAdded "a"), (1, .frameAdded "b"), (2, .frameAdded "b")], none) := by decide +kernel

/-- A subscriber that is destroyed after the exception is called although it does not exist any more. -/
theorem C69_destroyed_subscriber_called :
    PW.run demoThrow 3 [.subscribe 1 7 false, .subscribe 2 7 false, .notify 7 (.frameAdded "a"), .destroySub 2,
      .notify 7 (.frameAdded "b")] PW.init = none := rfl

theorem C69_statement_fails : ¬ C69_statement := by
  intro hs
  have h0 : ∃ w, PW.run demoThrow 3 [.subscribe 1 7 false] PW.init = some w ∧ ∃ x w1,
      act demoThrow 3 (.notify 7 (.frameAdded "a")) w = .throw x w1 ∧ ∃ w2,
      PW.run demoThrow 3 [.subscribe 2 7 false, .notify 7 (.frameAdded "b")] w1 = some w2 ∧
      w2.log = [(1, .frameAdded "a"), (1, .frameAdded "b")] := ⟨_, rfl, _, _, rfl, _, rfl, by decide +kernel⟩
  obtain ⟨w, h1, x, w1, h2, w2, h3, h4⟩ := h0
  have := hs demoThrow 7 _ _ 1 2 w w1 x h1 h2 w2 h3 (by decide)
  rw [h4] at this
  simp at this

/-- What holds: the exception reaches the caller after exactly the subscribers before the throwing one were called; the
subscriber list is unchanged.  (`bad` throws at once, the subscribers before it only listen.) -/
theorem C69_throw_reaches_caller_partial (env : PEnv) (n : Nat) (p : PubId) (e : Event) (w : PW) (before after : List SubId)
    (bad : SubId) (hl : (w.pubs p).subscribers = before ++ bad :: after) (hen : (w.pubs p).enabled = true)
    (hbad : ∀ l, env.handler bad e l = [.fail]) (hb : ∀ s ∈ before, ∀ l, env.handler s e l = []) (hd : w.deadSubs = [])
    (hp : p ∉ w.deadPubs) : ∃ x w', act env (n + 2) (.notify p e) w = .throw x w' ∧
      w'.log = w.log ++ (before ++ [bad]).map (fun s => (s, e)) ∧ (w'.pubs p).subscribers = (w.pubs p).subscribers ∧
      (w'.pubs p).insideNotify = true := by
  have key : ∀ (l : List SubId) (w : PW), w.deadSubs = [] → (∀ s ∈ l, ∀ k, env.handler s e k = []) → ∃ x w',
      notifyLoop (deliver env (act env (n + 1))) p e (w.pubs p).changes (l ++ bad :: after) w = .throw x w' ∧
      w'.log = w.log ++ (l ++ [bad]).map (fun s => (s, e)) ∧ w'.pubs = w.pubs := by
    intro l
    induction l with
    | nil =>
      intro w hd _
      refine ⟨.runtimeError "thrown by the handler", { w with log := w.log ++ [(bad, e)] }, ?_, rfl, rfl⟩
      simp only [List.nil_append, notifyLoop, deliver, hd, List.not_mem_nil, if_false, hbad, seqAll, act]
    | cons s l ih =>
      intro w hd hb
      obtain ⟨x, w', h1, h2, h3⟩ := ih { w with log := w.log ++ [(s, e)] } hd (fun t ht => hb t (by simp [ht]))
      refine ⟨x, w', ?_, ?_, h3⟩
      · rw [List.cons_append]; unfold notifyLoop deliver
        simp only [hd, List.not_mem_nil, if_false, hb s (by simp), seqAll, if_true]
        rw [hd] at h1
        exact h1
      · rw [h2]; simp
  obtain ⟨x, w', h1, h2, h3⟩ := key before (w.setPub p { w.pubs p with insideNotify := true }) hd hb
  refine ⟨x, w', ?_, h2, ?_, ?_⟩
  · show PW.notify (deliver env (act env (n + 1))) p e w = _
    unfold PW.notify
    rw [if_neg hp, if_pos hen]
    simp only
    have : ((w.setPub p { w.pubs p with insideNotify := true }).pubs p).subscribers = before ++ bad :: after := by simp [setPub, hl]
    rw [this, h1]
  · rw [h3]; simp [setPub]
  · rw [h3]; simp [setPub]

example : (∀ l, demoThrow.handler 1 (.frameAdded "a") l = [.fail]) ∧ (∀ s ∈ [2, 3], ∀ l, demoThrow.handler s (.frameAdded "a") l = []) :=
  ⟨fun _ => rfl, by intro s hs l; simp at hs; rcases hs with rfl | rfl <;> rfl⟩

/-- calls that change subscriptions (of anybody, at any publisher, through both interfaces), and everything that happens at
publishers other than `p` -/
def Act.subscriptionOr (p : PubId) : Act → Prop
  | .subscribe .. | .unsubscribe _ | .pubSubscribe .. | .pubUnsubscribe .. => True
  | .notify q _ => q ≠ p
  | .enable q _ => q ≠ p
  | _ => False

/-- `p` believes that it is inside `notify` -/
private structure Stuck (p : PubId) (l : List SubId) (w : PW) : Prop where
  ins : (w.pubs p).insideNotify = true
  en : (w.pubs p).enabled = true
  subs : (w.pubs p).subscribers = l
  deadS : w.deadSubs = []
  deadP : w.deadPubs = []

private theorem Stuck.setPub {p : PubId} {l : List SubId} {w : PW} (h : Stuck p l w) (q : PubId) (x : Pub)
    (hx : q = p → x.insideNotify = true ∧ x.enabled = (w.pubs p).enabled ∧ x.subscribers = (w.pubs p).subscribers) :
    Stuck p l (w.setPub q x) := by
  by_cases hq : p = q
  · subst hq
    obtain ⟨h1, h2, h3⟩ := hx rfl
    exact ⟨by simpa [PW.setPub] using h1, by simp [PW.setPub, h2, h.en], by simp [PW.setPub, h3, h.subs], h.deadS, h.deadP⟩
  · exact ⟨by simpa [PW.setPub, hq] using h.ins, by simpa [PW.setPub, hq] using h.en, by simpa [PW.setPub, hq] using h.subs, h.deadS, h.deadP⟩

private theorem Stuck.sub {env : PEnv} (hp : env.Passive) {p : PubId} {l : List SubId} {w : PW} (h : Stuck p l w) (run : Act → PW → Res PW Unit)
    (q : PubId) (s : SubId) (b : Bool) : ∃ w', PW.pubSubscribe env (deliver env run) q s b w = .ok () w' ∧ Stuck p l w' := by
  unfold PW.pubSubscribe
  rw [if_neg (by simp [h.deadP])]
  obtain ⟨w1, e1, hl⟩ : ∃ w1, (if b then seqAll (fun e => notifySubscriber (deliver env run) q s e) (env.current q w.log) w
      else .ok () w) = .ok () w1 ∧ LogOnly w w1 := by
    cases b
    · exact ⟨w, rfl, .refl w⟩
    · exact seq_passive hp run q s _ w (by simp [h.deadS])
  rw [e1]
  obtain ⟨g, rfl⟩ := hl
  exact ⟨_, rfl, Stuck.setPub (w := { w with log := w.log ++ g }) ⟨h.ins, h.en, h.subs, h.deadS, h.deadP⟩ q _
    (fun hq => by subst hq; simp [enter, h.ins])⟩

private theorem Stuck.unsub {env : PEnv} (hp : env.Passive) {p : PubId} {l : List SubId} {w : PW} (h : Stuck p l w) (run : Act → PW → Res PW Unit)
    (q : PubId) (s : SubId) (b : Bool) : ∃ w', PW.pubUnsubscribe env (deliver env run) q s b w = .ok () w' ∧ Stuck p l w' := by
  unfold PW.pubUnsubscribe
  rw [if_neg (by simp [h.deadP])]
  obtain ⟨w1, e1, hl⟩ : ∃ w1, (if b then seqAll (fun e => notifySubscriber (deliver env run) q s e) (env.uncurrent q w.log) w
      else .ok () w) = .ok () w1 ∧ LogOnly w w1 := by
    cases b
    · exact ⟨w, rfl, .refl w⟩
    · exact seq_passive hp run q s _ w (by simp [h.deadS])
  rw [e1]
  obtain ⟨g, rfl⟩ := hl
  exact ⟨_, rfl, Stuck.setPub (w := { w with log := w.log ++ g }) ⟨h.ins, h.en, h.subs, h.deadS, h.deadP⟩ q _
    (fun hq => by subst hq; simp [leave, h.ins])⟩

private theorem Stuck.setPtr {p : PubId} {l : List SubId} {w : PW} (h : Stuck p l w) (s : SubId) (x : Option PubId) :
    Stuck p l (w.setPtr s x) := ⟨h.ins, h.en, h.subs, h.deadS, h.deadP⟩

private theorem Stuck.act {env : PEnv} (hp : env.Passive) {p : PubId} {l : List SubId} {w : PW} (h : Stuck p l w) (n : Nat) (a : Act)
    (ha : a.subscriptionOr p) : ∃ w', PW.act env (n + 1) a w = .ok () w' ∧ Stuck p l w' := by
  cases a with
  | subscribe s q b =>
    obtain ⟨w1, h1, k1⟩ : ∃ w1, leaveOld env (deliver env (PW.act env n)) s b w = .ok () w1 ∧ Stuck p l w1 := by
      unfold leaveOld
      cases w.ptr s with
      | none => exact ⟨w, rfl, h⟩
      | some q => exact h.unsub hp _ q s b
    obtain ⟨w2, h2, k2⟩ := (k1.setPtr s (some q)).sub hp (PW.act env n) q s b
    exact ⟨w2, by simp only [PW.act, subSubscribe, h.deadS, List.not_mem_nil, if_false, h1, h2], k2⟩
  | unsubscribe s =>
    simp only [PW.act, subUnsubscribe, h.deadS, List.not_mem_nil, if_false]
    cases hq : w.ptr s with
    | none => exact ⟨w, rfl, h⟩
    | some q =>
      obtain ⟨w1, h1, k1⟩ := h.unsub hp (PW.act env n) q s false
      exact ⟨w1.setPtr s none, by simp only [h1], k1.setPtr s none⟩
  | pubSubscribe q s b => exact h.sub hp _ q s b
  | pubUnsubscribe q s b => exact h.unsub hp _ q s b
  | enable q b =>
    have hq : q ≠ p := ha
    exact ⟨w.setPub q { w.pubs q with enabled := b }, by simp only [PW.act, h.deadP, List.not_mem_nil, if_false],
      h.setPub q _ (fun e => absurd e hq)⟩
  | notify q e =>
    have hq : q ≠ p := ha
    simp only [PW.act, PW.notify, h.deadP, List.not_mem_nil, if_false]
    by_cases hen : (w.pubs q).enabled = true
    · rw [if_pos hen, notifyLoop_passive hp _ _ _ _ _ (by simp [PW.setPub, h.deadS])]
      have h1 := h.setPub q { w.pubs q with insideNotify := true } (fun e => absurd e hq)
      have h2 : Stuck p l { w.setPub q { w.pubs q with insideNotify := true } with
          log := (w.setPub q { w.pubs q with insideNotify := true }).log ++
            ((w.setPub q { w.pubs q with insideNotify := true }).pubs q).subscribers.map (fun s => (s, e)) } :=
        ⟨h1.ins, h1.en, h1.subs, h1.deadS, h1.deadP⟩
      exact ⟨_, rfl, h2.setPub q _ (fun e => absurd e hq)⟩
    · rw [if_neg hen]; exact ⟨w, rfl, h⟩
  | destroySub s => exact ha.elim
  | destroyPub q => exact ha.elim
  | fail => exact ha.elim

private theorem Stuck.run {env : PEnv} (hp : env.Passive) {p : PubId} {l : List SubId} (n : Nat) (h : List Act)
    (ha : ∀ a ∈ h, a.subscriptionOr p) (w : PW) (hw : Stuck p l w) : ∃ w', PW.run env (n + 1) h w = some w' ∧ Stuck p l w' := by
  induction h generalizing w with
  | nil => exact ⟨w, rfl, hw⟩
  | cons a h ih =>
    obtain ⟨w1, h1, k1⟩ := hw.act hp n a (ha a (by simp))
    obtain ⟨w2, h2, k2⟩ := ih (fun b hb => ha b (by simp [hb])) w1 k1
    exact ⟨w2, by simp only [PW.run, h1, h2], k2⟩

/-- The damage for every program: after an exception at `p` (so that `insideNotify` is still set) all subscriptions and
unsubscriptions, by whomever, have no effect on the next event of `p`.  It goes to exactly those who were subscribed at the time of
the exception.  (`w` is any state, in particular one that was reached with throwing handlers; `env` are the handlers from then on.) -/
theorem C69_changes_ignored_by_next_event (env : PEnv) (hp : env.Passive) (n : Nat) (p : PubId) (w : PW)
    (hin : (w.pubs p).insideNotify = true) (hen : (w.pubs p).enabled = true) (hS : w.deadSubs = []) (hP : w.deadPubs = [])
    (h : List Act) (ha : ∀ a ∈ h, a.subscriptionOr p) (e : Event) : ∃ w1 w2, PW.run env (n + 1) h w = some w1 ∧
      act env (n + 1) (.notify p e) w1 = .ok () w2 ∧ w2.log = w1.log ++ (w.pubs p).subscribers.map (fun s => (s, e)) := by
  obtain ⟨w1, h1, k1⟩ := Stuck.run hp n h ha w ⟨hin, hen, rfl, hS, hP⟩
  have hl : act env (n + 1) (.notify p e) w1 =
      .ok () ({ w1.setPub p { w1.pubs p with insideNotify := true } with log := w1.log ++ (w.pubs p).subscribers.map (fun s => (s, e)) }.setPub p
        (notifyEnd { w1.pubs p with insideNotify := true })) := by
    simp only [act, PW.notify, k1.deadP, List.not_mem_nil, if_false, k1.en, if_true]
    rw [notifyLoop_passive hp _ _ _ _ _ (by simp [PW.setPub, k1.deadS])]
    simp [PW.setPub, k1.subs]
  exact ⟨w1, _, h1, hl, rfl⟩

example : ∃ w, PW.run demoThrow 3 [.subscribe 1 7 false, .subscribe 2 7 false, .notify 7 (.frameAdded "a")] PW.init = some w ∧
    (w.pubs 7).insideNotify = true ∧ (w.pubs 7).subscribers = [1, 2] ∧
    (PW.run ⟨fun _ _ _ => [], fun _ _ => [], fun _ _ => []⟩ 3
      [.unsubscribe 1, .subscribe 3 7 true, .pubUnsubscribe 7 2 false, .notify 7 (.frameAdded "b")] w).map
      (fun w => w.log.drop 1) = some [(1, .frameAdded "b"), (2, .frameAdded "b")] :=
  ⟨_, rfl, rfl, by decide +kernel, by decide +kernel⟩

/-- A subscriber that is destroyed after the exception, without any other call in between, is called by the next event: always
undefined behaviour. -/
theorem C69_destroyed_is_called (env : PEnv) (hp : env.Passive) (n : Nat) (p : PubId) (w : PW)
    (hin : (w.pubs p).insideNotify = true) (hen : (w.pubs p).enabled = true) (hS : w.deadSubs = []) (hP : w.deadPubs = [])
    (s : SubId) (hs : s ∈ (w.pubs p).subscribers) (e : Event) : ∃ w1, act env (n + 1) (.destroySub s) w = .ok () w1 ∧
      act env (n + 1) (.notify p e) w1 = .ub "notifyGraphEvent: destroyed subscriber" := by
  have hw : Stuck p (w.pubs p).subscribers w := ⟨hin, hen, rfl, hS, hP⟩
  obtain ⟨w1, h1, k1⟩ := hw.act hp n (.unsubscribe s) trivial
  have h1' : subUnsubscribe env (deliver env (act env n)) s w = .ok () w1 := h1
  refine ⟨{ w1 with deadSubs := s :: w1.deadSubs }, by simp only [act, h1'], ?_⟩
  have key : ∀ (l : List SubId) (W : PW), W.deadSubs = [s] → s ∈ l →
      notifyLoop (deliver env (act env n)) p e (W.pubs p).changes l W = .ub "notifyGraphEvent: destroyed subscriber" := by
    intro l
    induction l with
    | nil => intro W _ h; cases h
    | cons t l ih =>
      intro W hW hm
      unfold notifyLoop
      by_cases hts : t = s
      · subst hts; simp only [deliver, hW, List.mem_singleton, if_true]
      · rw [deliver_passive hp _ t e W (by simp [hW, hts])]
        simp only [if_true]
        exact ih { W with log := W.log ++ [(t, e)] } hW ((List.mem_cons.1 hm).resolve_left (Ne.symm hts))
  show PW.notify _ p e _ = _
  unfold PW.notify
  rw [if_neg (by simp [k1.deadP]), if_pos k1.en]
  simp only
  rw [key]
  · simp [PW.setPub, k1.deadS]
  · simpa [PW.setPub, k1.subs] using hs

example : ∃ w, PW.run demoThrow 3 [.subscribe 1 7 false, .subscribe 2 7 false, .notify 7 (.frameAdded "a")] PW.init = some w ∧
    (w.pubs 7).insideNotify = true ∧ 2 ∈ (w.pubs 7).subscribers := ⟨_, rfl, rfl, by decide +kernel⟩

end Verif
