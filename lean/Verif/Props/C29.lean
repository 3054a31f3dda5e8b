import Verif.Lemmas.Handlers
import Mathlib.Data.List.Count
/-!
# C29: every subscriber receives every event exactly once, in order

Full statement: for every sequence of subscribe/unsubscribe/notify/enable calls and handlers that do not call back, every
notification is delivered exactly once to every subscriber that is subscribed when it starts, in subscription order; nobody
else receives it; a disabled publisher delivers nothing.

It holds for programs that use the interface of the subscriber (`subscribe`, `unsubscribe`, destruction).  With the interface of
the publisher (`publisher.subscribe(&s)`) a subscriber can be entered twice and then receives everything twice.
-/

namespace Verif
open PW

/-- After any program that uses the subscriber interface, a notification reaches exactly the subscribers whose last call about
their subscription was `subscribe(p)`, in the order of these calls, each once; and nothing is delivered if events are off. -/
theorem C29_delivery_partial (env : PEnv) (hp : env.Passive) (n : Nat) (h : List Act) (hv : ∀ a ∈ h, a.viaSubscriber) (w : PW)
    (hr : PW.run env (n + 1) h PW.init = some w) (p : PubId) (e : Event) :
    ∃ w', act env (n + 1) (.notify p e) w = .ok () w' ∧
      w'.log = w.log ++ (if eventsEnabled p h then (subscribedTo p h).map (fun s => (s, e)) else []) ∧
      (subscribedTo p h).Nodup := by
  have hi := SubInv.run hp hv hr
  show ∃ w', PW.notify (deliver env (act env n)) p e w = .ok () w' ∧ _
  unfold PW.notify
  rw [if_neg (by simp [hi.pubsAlive]), hi.enab]
  by_cases he : eventsEnabled p h
  · rw [if_pos he]
    simp only
    rw [notifyLoop_passive hp]
    · refine ⟨_, rfl, ?_, subscribedTo_nodup p h⟩
      simp [setPub, he, hi.subs]
    · intro s hs hd
      simp [setPub, hi.subs] at hs
      exact hi.deadNo s p hd hs
  · rw [if_neg he]
    exact ⟨w, rfl, by simp [he], subscribedTo_nodup p h⟩

example : let h := [Act.subscribe 1 7 false, .subscribe 2 7 true, .subscribe 3 8 false, .subscribe 1 7 false, .enable 8 false, .unsubscribe 3,
      .subscribe 3 7 false, .destroySub 2]
    (∀ a ∈ h, a.viaSubscriber) ∧ subscribedTo 7 h = [1, 3] ∧ eventsEnabled 7 h = true ∧ eventsEnabled 8 h = false := by decide

/-- Nobody else receives it, and everybody who is subscribed receives it once: stated with counts. -/
theorem C29_exactly_once_partial (env : PEnv) (hp : env.Passive) (n : Nat) (h : List Act) (hv : ∀ a ∈ h, a.viaSubscriber) (w : PW)
    (hr : PW.run env (n + 1) h PW.init = some w) (p : PubId) (e : Event) (w' : PW)
    (hn : act env (n + 1) (.notify p e) w = .ok () w') (s : SubId) :
    (w'.log.drop w.log.length).count (s, e) = (if eventsEnabled p h ∧ s ∈ subscribedTo p h then 1 else 0) ∧
      ∀ x ∈ w'.log.drop w.log.length, x.2 = e := by
  obtain ⟨w2, h1, h2, h3⟩ := C29_delivery_partial env hp n h hv w hr p e
  rw [hn] at h1; cases h1
  rw [h2, List.drop_left]
  by_cases he : eventsEnabled p h
  · simp only [he, if_true, true_and]
    refine ⟨?_, by simp⟩
    have hinj : Function.Injective (fun s : SubId => (s, e)) := fun a b hab => (Prod.mk.inj hab).1
    rw [List.count_map_of_injective _ _ hinj]
    by_cases hs : s ∈ subscribedTo p h
    · rw [if_pos hs, List.count_eq_one_of_mem h3 hs]
    · rw [if_neg hs, List.count_eq_zero_of_not_mem hs]
  · simp [he]

example : (let env : PEnv := ⟨fun _ _ _ => [], fun _ _ => [], fun _ _ => []⟩
    (PW.run env 1 [.subscribe 1 7 false, .subscribe 2 7 false, .subscribe 1 7 false, .notify 7 (.frameAdded "a"), .enable 7 false,
      .notify 7 (.frameAdded "b")] PW.init).map PW.log) = some [(2, .frameAdded "a"), (1, .frameAdded "a")] := by decide +kernel

/-- Programs are only undefined if they use a destroyed subscriber. -/
theorem C29_defined (env : PEnv) (hp : env.Passive) (n : Nat) (h : List Act) (hv : ∀ a ∈ h, a.viaSubscriber)
    (hd : ∀ s h1 h2, h = h1 ++ Act.destroySub s :: h2 → h2.any (Act.concerns s) = false) :
    ∃ w, PW.run env (n + 1) h PW.init = some w := by
  suffices ∃ w, PW.run env (n + 1) h PW.init = some w ∧ SubInv h w from this.imp fun _ h => h.1
  induction h using List.reverseRecOn with
  | nil => exact ⟨_, rfl, .init⟩
  | append_singleton h a ih =>
    obtain ⟨w, h1, hi⟩ := ih (fun b hb => hv b (by simp [hb])) (fun s l1 l2 e => by
      have := hd s l1 (l2 ++ [a]) (by rw [e]; simp)
      simp at this; simpa using this.1)
    obtain ⟨w', h2, hi'⟩ := hi.step hp n a (hv a (by simp)) (by
      intro s hc hs
      obtain ⟨l1, l2, e⟩ := (hi.dead s).1 hs
      have := hd s l1 (l2 ++ [a]) (by rw [e]; simp)
      simp [hc] at this)
    refine ⟨w', ?_, hi'⟩
    rw [PW.run_append, h1]
    simp [PW.run, h2]

example : let h := [Act.subscribe 1 7 false, .destroySub 1, .subscribe 2 7 false, .notify 7 (.frameAdded "a")]
    ∀ s h1 h2, h = h1 ++ Act.destroySub s :: h2 → h2.any (Act.concerns s) = false := by
  intro h s h1 h2 e
  rcases h1 with _ | ⟨a, _ | ⟨b, _ | ⟨c, _ | ⟨d, _ | ⟨f, t⟩⟩⟩⟩⟩ <;> simp [h] at e
  obtain ⟨_, rfl, rfl⟩ := e
  decide

/-- The statement fails for the publisher interface: entered twice means notified twice. -/
theorem C29_entered_twice_fails : ∃ (env : PEnv) (w : PW), env.Passive ∧
    PW.run env 1 [.pubSubscribe 7 1 false, .pubSubscribe 7 1 false, .notify 7 (.frameAdded "a")] PW.init = some w ∧
    w.log.count (1, .frameAdded "a") = 2 :=
  ⟨⟨fun _ _ _ => [], fun _ _ => [], fun _ _ => []⟩, _, fun _ _ _ => rfl, rfl, by decide +kernel⟩

/-- Calls of the publisher interface -/
def Act.viaPublisher : Act → Bool
  | .pubSubscribe .. | .pubUnsubscribe .. | .notify .. => true
  | _ => false

/-- How often `s` is entered at `p`: one more for each subscription, one less for each unsubscription, never below zero. -/
def entered (p : PubId) (s : SubId) (h : List Act) : Nat :=
  h.foldl (fun k a => match a with
    | .pubSubscribe q t _ => if q = p ∧ t = s then k + 1 else k
    | .pubUnsubscribe q t _ => if q = p ∧ t = s then k - 1 else k
    | _ => k) 0

/-- With the publisher interface, a subscriber receives a notification as often as it is entered. -/
theorem C29_publisher_interface (env : PEnv) (hp : env.Passive) (n : Nat) (h : List Act) (hv : ∀ a ∈ h, a.viaPublisher) :
    ∃ w, PW.run env (n + 1) h PW.init = some w ∧ ∀ p e, ∃ w', act env (n + 1) (.notify p e) w = .ok () w' ∧
      ∀ s, (w'.log.drop w.log.length).count (s, e) = entered p s h := by
  suffices ∃ w, PW.run env (n + 1) h PW.init = some w ∧ w.deadSubs = [] ∧ w.deadPubs = [] ∧
      ∀ p, (w.pubs p).enabled = true ∧ (w.pubs p).insideNotify = false ∧ (w.pubs p).toBeSubscribed = [] ∧
        (w.pubs p).toBeUnsubscribed = [] ∧ ∀ s, (w.pubs p).subscribers.count s = entered p s h by
    obtain ⟨w, h1, h2, h3, h4⟩ := this
    refine ⟨w, h1, fun p e => ?_⟩
    show ∃ w', PW.notify (deliver env (act env n)) p e w = .ok () w' ∧ _
    unfold PW.notify
    rw [if_neg (by simp [h3]), if_pos (h4 p).1]
    simp only
    rw [notifyLoop_passive hp _ _ _ _ _ (by simp [setPub, h2])]
    refine ⟨_, rfl, fun s => ?_⟩
    have hinj : Function.Injective (fun s : SubId => (s, e)) := fun a b hab => (Prod.mk.inj hab).1
    simp [setPub, List.count_map_of_injective _ _ hinj, (h4 p).2.2.2.2 s]
  induction h using List.reverseRecOn with
  | nil => exact ⟨_, rfl, rfl, rfl, fun p => ⟨rfl, rfl, rfl, rfl, fun s => rfl⟩⟩
  | append_singleton h a ih =>
    obtain ⟨w, h1, h2, h3, h4⟩ := ih (fun b hb => hv b (by simp [hb]))
    have hlogw : ∀ (b : Bool) (p : PubId) (s : SubId) (es : List Event), ∃ w1, (if b then
        seqAll (fun e => notifySubscriber (deliver env (act env n)) p s e) es w else .ok () w) = .ok () w1 ∧ LogOnly w w1 := by
      intro b p s es
      cases b
      · exact ⟨w, rfl, .refl w⟩
      · exact seq_passive hp _ p s _ w (by simp [h2])
    suffices ∃ w', act env (n + 1) a w = .ok () w' ∧ w'.deadSubs = [] ∧ w'.deadPubs = [] ∧
      ∀ p, (w'.pubs p).enabled = true ∧ (w'.pubs p).insideNotify = false ∧ (w'.pubs p).toBeSubscribed = [] ∧
        (w'.pubs p).toBeUnsubscribed = [] ∧ ∀ s, (w'.pubs p).subscribers.count s = entered p s (h ++ [a]) by
      obtain ⟨w', g1, g2⟩ := this
      exact ⟨w', by rw [PW.run_append, h1]; simp [PW.run, g1], g2⟩
    have hent : ∀ p s, entered p s (h ++ [a]) = (match a with
        | .pubSubscribe q t _ => if q = p ∧ t = s then entered p s h + 1 else entered p s h
        | .pubUnsubscribe q t _ => if q = p ∧ t = s then entered p s h - 1 else entered p s h
        | _ => entered p s h) := by
      intro p s; simp only [entered, List.foldl_append, List.foldl_cons, List.foldl_nil]; cases a <;> rfl
    have ha := hv a (by simp)
    cases a <;> simp [Act.viaPublisher] at ha
    · rename_i q t b
      simp only [act]
      unfold pubSubscribe
      rw [if_neg (by simp [h3])]
      obtain ⟨w1, e1, ⟨l, rfl⟩⟩ := hlogw b q t (env.current q w.log)
      rw [e1]
      refine ⟨_, rfl, h2, h3, fun p => ?_⟩
      by_cases hq : p = q
      · subst hq
        simp only [setPub, if_true, enter, (h4 p).2.1, pushSub]
        refine ⟨(h4 p).1, rfl, (h4 p).2.2.1, (h4 p).2.2.2.1, fun s => ?_⟩
        rw [hent]
        have := (h4 p).2.2.2.2 s
        by_cases hts : t = s
        · subst hts; simp [this]
        · simp [this, List.count_append, hts]
      · have hq' : q ≠ p := fun e => hq e.symm
        simp only [setPub, hq, if_false]
        refine ⟨(h4 p).1, (h4 p).2.1, (h4 p).2.2.1, (h4 p).2.2.2.1, fun s => ?_⟩
        rw [hent]; simp [hq', (h4 p).2.2.2.2 s]
    · rename_i q t b
      simp only [act]
      unfold pubUnsubscribe
      rw [if_neg (by simp [h3])]
      obtain ⟨w1, e1, ⟨l, rfl⟩⟩ := hlogw b q t (env.uncurrent q w.log)
      rw [e1]
      refine ⟨_, rfl, h2, h3, fun p => ?_⟩
      by_cases hq : p = q
      · subst hq
        simp only [setPub, if_true, leave, (h4 p).2.1]
        have hu : (unsubInternal t (w.pubs p)).enabled = true ∧ (unsubInternal t (w.pubs p)).insideNotify = false ∧
          (unsubInternal t (w.pubs p)).toBeSubscribed = [] ∧ (unsubInternal t (w.pubs p)).toBeUnsubscribed = [] := by
          unfold unsubInternal; split <;> exact ⟨(h4 p).1, (h4 p).2.1, (h4 p).2.2.1, (h4 p).2.2.2.1⟩
        refine ⟨hu.1, hu.2.1, hu.2.2.1, hu.2.2.2, fun s => ?_⟩
        rw [hent]
        have := (h4 p).2.2.2.2 s
        show (unsubInternal t (w.pubs p)).subscribers.count s = _
        rw [unsubInternal_subs, List.count_erase, this]
        by_cases hts : t = s
        · subst hts; simp
        · simp [hts]
      · have hq' : q ≠ p := fun e => hq e.symm
        simp only [setPub, hq, if_false]
        refine ⟨(h4 p).1, (h4 p).2.1, (h4 p).2.2.1, (h4 p).2.2.2.1, fun s => ?_⟩
        rw [hent]; simp [hq', (h4 p).2.2.2.2 s]
    · rename_i q e
      show ∃ w', PW.notify (deliver env (act env n)) q e w = .ok () w' ∧ _
      unfold PW.notify
      rw [if_neg (by simp [h3]), if_pos (h4 q).1]
      simp only
      rw [notifyLoop_passive hp _ _ _ _ _ (by simp [setPub, h2])]
      refine ⟨_, rfl, h2, h3, fun p => ?_⟩
      by_cases hq : p = q
      · subst hq
        simp only [setPub, if_true]
        obtain ⟨k1, k2, k3, k4, k5⟩ := notifyEnd_eq { w.pubs p with insideNotify := true }
        refine ⟨k5.trans (h4 p).1, k2, k3, k4.trans (h4 p).2.2.2.1, fun s => ?_⟩
        rw [k1, hent]
        simp [(h4 p).2.2.1, (h4 p).2.2.2.1, (h4 p).2.2.2.2 s]
      · simp only [setPub, hq, if_false]
        refine ⟨(h4 p).1, (h4 p).2.1, (h4 p).2.2.1, (h4 p).2.2.2.1, fun s => ?_⟩
        rw [hent]; exact (h4 p).2.2.2.2 s

example : entered 7 1 [.pubSubscribe 7 1 false, .pubUnsubscribe 7 2 false, .pubSubscribe 7 1 true, .pubSubscribe 8 1 false,
    .pubUnsubscribe 7 1 false, .notify 7 (.frameAdded "a")] = 1 := by decide

/-- entered twice and left once: still notified; leaving a second time does nothing -/
example : (let env : PEnv := ⟨fun _ _ _ => [], fun _ _ => [], fun _ _ => []⟩
    (PW.run env 1 [.pubSubscribe 7 1 false, .pubSubscribe 7 1 false, .pubUnsubscribe 7 1 false, .notify 7 (.frameAdded "a"),
      .subscribe 2 7 false, .unsubscribe 2, .pubSubscribe 7 2 false, .unsubscribe 2, .notify 7 (.frameAdded "b")] PW.init).map PW.log) =
    some [(1, .frameAdded "a"), (1, .frameAdded "b"), (2, .frameAdded "b")] := by decide +kernel

end Verif
