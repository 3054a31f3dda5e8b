import Verif.Lemmas.PubCopy
/-!
# C105: copies of publishers and subscribers do not disturb the delivery of events

Full statement: publishers (graphs by assignment, other publishers also by their copy constructor) and subscribers can be copied.
A copy of a publisher has no subscribers until somebody subscribes to it; destroying it has no effect on the original.  A copy of a subscriber is not subscribed; the original
keeps receiving the events of its publisher.

The implicit copies take over the members.  For subscribers that are copied over unsubscribed ones the delivery is not disturbed.
In all other cases it is, and the theorems below say how.
-/

namespace Verif
open PW

/-- the calls of a program with copies -/
def callsOf : List CAct → List Act
  | [] => []
  | .call a :: h => a :: callsOf h
  | _ :: h => callsOf h

/-- A program that copies subscribers only onto subscribers that are not subscribed (`done` are the calls made before). -/
def calmCopies (done : List Act) : List CAct → Prop
  | [] => True
  | .call a :: h => a.viaSubscriber ∧ calmCopies (done ++ [a]) h
  | .copySub _ t :: h => (∀ p, t ∉ subscribedTo p done) ∧ calmCopies done h
  | .copyPub _ _ :: _ => False

theorem callsOf_weak {env : PEnv} (hp : env.Passive) (n : Nat) (h : List CAct) (done : List Act) (hc : calmCopies done h) (w w' : PW)
    (hi : WeakInv done w) (hr : crun env (n + 1) h w = some w') : WeakInv (done ++ callsOf h) w' := by
  induction h generalizing done w with
  | nil => simp only [crun, Option.some.injEq] at hr; subst hr; simpa [callsOf] using hi
  | cons c h ih =>
    cases c with
    | call a =>
      simp only [crun, cact] at hr
      have hd : ∀ s, a.concerns s → s ∉ w.deadSubs := by
        intro s hcs hs
        obtain ⟨r, hr'⟩ := act_dead hp (n + 1) hcs hs
        rw [hr'] at hr; simp at hr
      obtain ⟨w1, e, hi'⟩ := hi.step hp n a hc.1 hd
      rw [e] at hr
      have := ih (done ++ [a]) hc.2 w1 hi' hr
      simpa [callsOf] using this
    | copySub s t =>
      simp only [crun, cact] at hr
      cases e : PW.copySub s t w with
      | ok u w1 => rw [e] at hr; exact ih done hc.2 w1 (hi.copySub hc.1 e) hr
      | throw x w1 => simp only [PW.copySub] at e; split at e <;> cases e
      | ub r => rw [e] at hr; simp at hr
    | copyPub p q => exact hc.elim

/-- Copies of subscribers, made in the place of unsubscribed ones, change nothing: after every such program a notification
reaches those that subscribed by a call, and no copies. -/
theorem C105_subscribers_partial (env : PEnv) (hp : env.Passive) (n : Nat) (h : List CAct) (hc : calmCopies [] h) (w : PW)
    (hr : crun env (n + 1) h PW.init = some w) (p : PubId) (e : Event) :
    ∃ w', act env (n + 1) (.notify p e) w = .ok () w' ∧
      w'.log = w.log ++ (if eventsEnabled p (callsOf h) then (subscribedTo p (callsOf h)).map (fun s => (s, e)) else []) := by
  have hi := callsOf_weak hp n h [] hc PW.init w .init hr
  exact WeakInv.notify hp (by simpa using hi) n p e

example : (let env : PEnv := ⟨fun _ _ _ => [], fun _ _ => [], fun _ _ => []⟩
    let h : List CAct := [.call (.subscribe 1 7 false), .copySub 1 2, .call (.notify 7 (.frameAdded "a")), .call (.unsubscribe 2),
      .call (.notify 7 (.frameAdded "b")), .copySub 1 2, .call (.subscribe 2 7 false), .call (.destroySub 1),
      .call (.notify 7 (.frameAdded "c"))]
    (crun env 1 h PW.init).map PW.log = some [(1, .frameAdded "a"), (1, .frameAdded "b"), (2, .frameAdded "c")] ∧
      subscribedTo 7 (callsOf h) = [2]) := by decide +kernel

/-- A copy of a subscriber points to the publisher but is not known to it: when the publisher is destroyed (without undefined
behaviour) the copy is forgotten, and its destructor uses the destroyed publisher. -/
theorem C105_copy_dangles (env : PEnv) (hp : env.Passive) (n : Nat) (h : List Act) (hv : ∀ a ∈ h, a.viaSubscriber) (w : PW)
    (hr : PW.run env (n + 1) h PW.init = some w) (p : PubId) (s t : SubId) (hs : s ∈ subscribedTo p h)
    (ht : ∀ q, t ∉ subscribedTo q h) (htd : Act.destroySub t ∉ h) :
    ∃ w1, PW.copySub s t w = .ok () w1 ∧
      ∀ w2, act env (n + 1) (.destroyPub p) w1 = .ok () w2 →
        act env (n + 1) (.destroySub t) w2 = .ub "unsubscribe: destroyed publisher" := by
  have hi := SubInv.run hp hv hr
  have htd' : t ∉ w.deadSubs := by
    intro hm
    obtain ⟨h1, h2, e⟩ := (hi.dead t).1 hm
    exact htd (by rw [e]; simp)
  have hsd : s ∉ w.deadSubs := fun hm => hi.deadNo s p hm hs
  have hcp : PW.copySub s t w = .ok () (w.setPtr t (w.ptr s)) := by simp [PW.copySub, htd', hsd]
  refine ⟨_, hcp, fun w2 h2 => ?_⟩
  have hps : w.ptr s = some p := (hi.ptr s p).2 hs
  have hi1 := hi.weak.copySub ht hcp
  have hown : OwnSubs p (subscribedTo p h) (w.setPtr t (w.ptr s)) :=
    ⟨hi1.subs p, subscribedTo_nodup p h, fun x hx => hi1.ptr x p hx, fun x hx hd => hi1.deadNo x p hd hx, hi1.inside p,
      by simp [hi1.pubsAlive]⟩
  simp only [act, destroyPub] at h2
  rw [if_neg hown.pubAlive, hown.subs] at h2
  obtain ⟨k, hk | hk⟩ : ∃ k, (subscribedTo p h).length = 2 * k ∨ (subscribedTo p h).length = 2 * k + 1 :=
    ⟨(subscribedTo p h).length / 2, by omega⟩
  · obtain ⟨w3, g1, g2, g3, g4, g5⟩ := destroyLoop_even env (deliver env (act env n)) k hown hk _ (Nat.le_refl _)
    rw [g1] at h2
    simp only [Res.ok.injEq, true_and] at h2
    subst h2
    have htp : w3.ptr t = some p := by rw [g3 t (ht p)]; simp [setPtr, hps]
    have hta : t ∉ w3.deadSubs := by rw [g5]; simpa [setPtr] using htd'
    simp [act, subUnsubscribe, hta, htp, pubUnsubscribe]
  · obtain ⟨r, g1⟩ := destroyLoop_odd env (deliver env (act env n)) k hown hk _ (Nat.le_refl _)
    rw [g1] at h2; cases h2

example : (let env : PEnv := ⟨fun _ _ _ => [], fun _ _ => [], fun _ _ => []⟩
    let h : List CAct := [.call (.subscribe 1 7 false), .call (.subscribe 2 7 false), .copySub 2 3, .call (.destroyPub 7)]
    (crun env 1 h PW.init).isSome = true ∧ (crun env 1 (h ++ [.call (.destroySub 3)]) PW.init).isNone = true) := by decide +kernel

/-- Assigning an unsubscribed subscriber to a subscribed one: the publisher keeps the overwritten one but this one has forgotten
the publisher; after its destruction the next notification uses the destroyed subscriber. -/
theorem C105_assignment_fails (env : PEnv) (hp : env.Passive) (n : Nat) (h : List Act) (hv : ∀ a ∈ h, a.viaSubscriber) (w : PW)
    (hr : PW.run env (n + 1) h PW.init = some w) (p : PubId) (s t : SubId) (ht : t ∈ subscribedTo p h)
    (hs : ∀ q, s ∉ subscribedTo q h) (hsd : Act.destroySub s ∉ h) (hen : eventsEnabled p h) (e : Event) :
    ∃ w1 w2, PW.copySub s t w = .ok () w1 ∧ act env (n + 1) (.destroySub t) w1 = .ok () w2 ∧
      act env (n + 1) (.notify p e) w2 = .ub "notifyGraphEvent: destroyed subscriber" := by
  have hi := SubInv.run hp hv hr
  have hsd' : s ∉ w.deadSubs := by
    intro hm
    obtain ⟨h1, h2, e⟩ := (hi.dead s).1 hm
    exact hsd (by rw [e]; simp)
  have htd : t ∉ w.deadSubs := fun hm => hi.deadNo t p hm ht
  have hps : w.ptr s = none := by
    cases hq : w.ptr s with
    | none => rfl
    | some q => exact absurd ((hi.ptr s q).1 hq) (hs q)
  have hcp : PW.copySub s t w = .ok () (w.setPtr t none) := by simp [PW.copySub, htd, hsd', hps]
  have hds : act env (n + 1) (.destroySub t) (w.setPtr t none) = .ok () { w.setPtr t none with deadSubs := t :: w.deadSubs } := by
    simp only [act, subUnsubscribe]
    rw [if_neg (by simpa [setPtr] using htd)]
    simp [setPtr]
  refine ⟨_, _, hcp, hds, ?_⟩
  simp only [act]
  unfold PW.notify
  rw [if_neg (by simp [setPtr, hi.pubsAlive])]
  have hen' : ({ w.setPtr t none with deadSubs := t :: w.deadSubs } : PW).pubs p = w.pubs p := rfl
  rw [hen', hi.enab, if_pos hen]
  suffices hl : ∀ (l : List SubId) (v : PW), t ∈ l → v.deadSubs = t :: w.deadSubs → (∀ x ∈ l, x ∉ w.deadSubs) →
      ∀ c, c = (v.pubs p).changes → notifyLoop (deliver env (act env n)) p e c l v = .ub "notifyGraphEvent: destroyed subscriber" by
    simp only
    rw [hl _ _ (by simpa [setPub, hi.subs] using ht) rfl (fun x hx hd => by
      simp [setPub, hi.subs] at hx
      exact hi.deadNo x p hd hx) _ rfl]
  intro l
  induction l with
  | nil => intro v hm; simp at hm
  | cons x l ih =>
    intro v hm hv2 hal c hcc
    unfold notifyLoop
    by_cases hx : x = t
    · subst hx; simp [deliver, hv2]
    · rw [deliver_passive hp _ x e v (by rw [hv2]; simpa [hx] using hal x (by simp))]
      simp only
      rw [if_pos hcc.symm]
      refine ih { v with log := v.log ++ [(x, e)] } (by simpa [Ne.symm hx] using hm) hv2 (fun y hy => hal y (by simp [hy])) c hcc

example : (let env : PEnv := ⟨fun _ _ _ => [], fun _ _ => [], fun _ _ => []⟩
    let h : List CAct := [.call (.subscribe 1 7 false), .call (.subscribe 2 7 false), .copySub 3 2, .call (.destroySub 2)]
    (crun env 1 h PW.init).isSome = true ∧ (crun env 1 (h ++ [.call (.notify 7 (.frameAdded "a"))]) PW.init).isNone = true) := by
  decide +kernel

/-- The events of a copied publisher go to all subscribers of the original, though they never subscribed to the copy; those that
had subscribed to the publisher in whose place the copy was made receive nothing of it. -/
theorem C105_copied_publisher_delivers (env : PEnv) (hp : env.Passive) (n : Nat) (h : List Act) (hv : ∀ a ∈ h, a.viaSubscriber)
    (w : PW) (hr : PW.run env (n + 1) h PW.init = some w) (p q : PubId) (e : Event) :
    ∃ w1 w2, PW.copyPub p q w = .ok () w1 ∧ act env (n + 1) (.notify q e) w1 = .ok () w2 ∧
      w2.log = w.log ++ (if eventsEnabled p h then (subscribedTo p h).map (fun s => (s, e)) else []) := by
  have hi := SubInv.run hp hv hr
  have hcp : PW.copyPub p q w = .ok () (w.setPub q { w.pubs p with changes := (w.pubs q).changes + 1 }) := by
    simp [PW.copyPub, hi.pubsAlive]
  suffices ∃ w2, act env (n + 1) (.notify q e) (w.setPub q { w.pubs p with changes := (w.pubs q).changes + 1 }) = .ok () w2 ∧
      w2.log = w.log ++ (if eventsEnabled p h then (subscribedTo p h).map (fun s => (s, e)) else []) by
    obtain ⟨w2, h1, h2⟩ := this
    exact ⟨_, w2, hcp, h1, h2⟩
  simp only [act]
  unfold PW.notify
  rw [if_neg (by simp [setPub, hi.pubsAlive])]
  have hen : ((w.setPub q { w.pubs p with changes := (w.pubs q).changes + 1 }).pubs q).enabled = eventsEnabled p h := by
    simp [setPub, hi.enab]
  rw [hen]
  by_cases he : eventsEnabled p h
  · rw [if_pos he]
    simp only
    rw [notifyLoop_passive hp]
    · refine ⟨_, rfl, ?_⟩
      simp [setPub, he, hi.subs]
    · intro s hs hd
      simp [setPub, hi.subs] at hs
      exact hi.deadNo s p hd hs
  · rw [if_neg he]
    exact ⟨_, rfl, by simp [he, setPub]⟩

example : (let env : PEnv := ⟨fun _ _ _ => [], fun _ _ => [], fun _ _ => []⟩
    (crun env 1 [.call (.subscribe 1 7 false), .call (.subscribe 2 8 false), .copyPub 7 8, .call (.notify 8 (.frameAdded "a"))]
      PW.init).map PW.log = some [(1, .frameAdded "a")]) := by decide +kernel

/-- Destroying a copy of a publisher is defined, and afterwards the original has lost all its subscribers: its notifications
reach nobody, and no subscriber points to it. -/
theorem C105_copy_destroyed (env : PEnv) (hp : env.Passive) (n : Nat) (h : List Act) (hv : ∀ a ∈ h, a.viaSubscriber) (w : PW)
    (hr : PW.run env (n + 1) h PW.init = some w) (p q : PubId) (hpq : p ≠ q) (e : Event) :
    ∃ w1 w2, PW.copyPub p q w = .ok () w1 ∧ act env (n + 1) (.destroyPub q) w1 = .ok () w2 ∧
      (∀ s ∈ subscribedTo p h, w2.ptr s = none) ∧
      ∃ w3, act env (n + 1) (.notify p e) w2 = .ok () w3 ∧ w3.log = w.log := by
  have hi := SubInv.run hp hv hr
  have hcp : PW.copyPub p q w = .ok () (w.setPub q { w.pubs p with changes := (w.pubs q).changes + 1 }) := by
    simp [PW.copyPub, hi.pubsAlive]
  have ho := hi.own p
  obtain ⟨w2, g1, g2, g3, g4, g4a, g4b, g5, g6, g7, g8, g9⟩ := destroyLoop_copy env (deliver env (act env n)) (Ne.symm hpq)
    (subscribedTo p h) (w := w.setPub q { w.pubs p with changes := (w.pubs q).changes + 1 })
    ⟨by simp [setPub, hpq, hi.subs], ho.nodup, ho.ptr, ho.alive, by simp [setPub, hpq, hi.inside], ho.pubAlive⟩
    (by simp [setPub, hi.subs]) (subscribedTo p h).length (Nat.le_refl _)
  refine ⟨_, { w2 with deadPubs := q :: w2.deadPubs }, hcp, ?_, fun s hs => ?_, ?_⟩
  · simp only [act, destroyPub]
    rw [if_neg (by simp [setPub, hi.pubsAlive])]
    have : ((w.setPub q { w.pubs p with changes := (w.pubs q).changes + 1 }).pubs q).subscribers.length =
      (subscribedTo p h).length := by simp [setPub, hi.subs]
    rw [this, g1]
  · show w2.ptr s = none
    rw [g6, if_pos hs]
  · simp only [act]
    unfold PW.notify
    rw [if_neg (by
      show p ∉ q :: w2.deadPubs
      rw [g8]; simp [setPub, hi.pubsAlive, hpq])]
    split
    · simp only
      rw [notifyLoop_passive hp]
      · refine ⟨_, rfl, ?_⟩
        simp [setPub, g2, g7]
      · intro s hs
        simp [setPub, g2] at hs
    · exact ⟨_, rfl, by simp [g7, setPub]⟩

example : (let env : PEnv := ⟨fun _ _ _ => [], fun _ _ => [], fun _ _ => []⟩
    (crun env 1 [.call (.subscribe 1 7 false), .call (.subscribe 2 7 false), .copyPub 7 8, .call (.destroyPub 8),
      .call (.notify 7 (.frameAdded "a"))] PW.init).map PW.log = some []) := by decide +kernel

/-- Destroying the original of a copied publisher, and then the copy, is undefined as soon as there is a subscriber. -/
theorem C105_original_destroyed_first (env : PEnv) (hp : env.Passive) (n : Nat) (h : List Act) (hv : ∀ a ∈ h, a.viaSubscriber)
    (w : PW) (hr : PW.run env (n + 1) h PW.init = some w) (p q : PubId) (hpq : p ≠ q) (hne : subscribedTo p h ≠ []) (w1 w2 : PW)
    (h1 : PW.copyPub p q w = .ok () w1) (h2 : act env (n + 1) (.destroyPub p) w1 = .ok () w2) :
    act env (n + 1) (.destroyPub q) w2 = .ub "unsubscribe: destroyed publisher" := by
  have hi := SubInv.run hp hv hr
  have hcp : PW.copyPub p q w = .ok () (w.setPub q { w.pubs p with changes := (w.pubs q).changes + 1 }) := by
    simp [PW.copyPub, hi.pubsAlive]
  rw [hcp] at h1
  simp only [Res.ok.injEq, true_and] at h1
  subst h1
  have ho := hi.own p
  have hown : OwnSubs p (subscribedTo p h) (w.setPub q { w.pubs p with changes := (w.pubs q).changes + 1 }) :=
    ⟨by simp [setPub, hpq, hi.subs], ho.nodup, ho.ptr, ho.alive, by simp [setPub, hpq, hi.inside], ho.pubAlive⟩
  simp only [act, destroyPub] at h2
  rw [if_neg hown.pubAlive, hown.subs] at h2
  obtain ⟨k, hk | hk⟩ : ∃ k, (subscribedTo p h).length = 2 * k ∨ (subscribedTo p h).length = 2 * k + 1 :=
    ⟨(subscribedTo p h).length / 2, by omega⟩
  · obtain ⟨w3, g1, g2, g3, g4, g5⟩ := destroyLoop_even env (deliver env (act env n)) k hown hk _ (Nat.le_refl _)
    have hq : w3.pubs q = { w.pubs p with changes := (w.pubs q).changes + 1 } := by
      rw [destroyLoop_other env _ _ (fun s hs => .inl (hown.ptr s (by rw [hown.subs] at hs; exact hs))) g1 q (Ne.symm hpq)]
      simp [setPub]
    rw [g1] at h2
    simp only [Res.ok.injEq, true_and] at h2
    subst h2
    obtain ⟨l1, b, hl1⟩ := (List.eq_nil_or_concat _).resolve_left hne
    have hne1 : l1 ≠ [] := by rintro rfl; rw [hl1] at hk; simp at hk; omega
    obtain ⟨l2, a, rfl⟩ := (List.eq_nil_or_concat l1).resolve_left hne1
    simp only [List.concat_eq_append] at hl1
    have hlen : l2.length + 2 = 2 * k := by rw [hl1] at hk; simpa using hk
    have hb : w3.ptr b = none := by
      rw [g2 (l2.length + 1) b (by rw [hl1]; simp), if_pos (by omega)]
    have ha : w3.ptr a = some p := by
      rw [g2 l2.length a (by rw [hl1]; simp), if_neg (by omega)]
    have hba : b ∉ w3.deadSubs := by rw [g5]; exact hown.alive b (by rw [hl1]; simp)
    have haa : a ∉ w3.deadSubs := by rw [g5]; exact hown.alive a (by rw [hl1]; simp)
    have hqs : (w3.pubs q).subscribers = l2 ++ [a] ++ [b] := by rw [hq]; simp [hi.subs, hl1]
    have hqd : q ∉ p :: w3.deadPubs := by
      rw [g4]; simp [setPub, hi.pubsAlive, Ne.symm hpq]
    simp only [act, destroyPub]
    rw [if_neg hqd]
    have hlen2 : (w3.pubs q).subscribers.length = l2.length + 1 + 1 := by rw [hqs]; simp
    rw [hlen2]
    have hsub : ∀ d, subUnsubscribe env d b { w3 with deadPubs := p :: w3.deadPubs } = .ok () { w3 with deadPubs := p :: w3.deadPubs } := by
      intro d; simp [subUnsubscribe, hba, hb]
    unfold destroyLoop
    simp only [hqs, List.getLast?_append, List.getLast?_singleton, Option.some_or, hsub]
    rw [if_neg (by simp)]
    unfold destroyLoop
    simp [setPub, subUnsubscribe, haa, ha, pubUnsubscribe]
  · obtain ⟨r, g1⟩ := destroyLoop_odd env (deliver env (act env n)) k hown hk _ (Nat.le_refl _)
    rw [g1] at h2; cases h2

example : (let env : PEnv := ⟨fun _ _ _ => [], fun _ _ => [], fun _ _ => []⟩
    let h : List CAct := [.call (.subscribe 1 7 false), .call (.subscribe 2 7 false), .copyPub 7 8, .call (.destroyPub 7)]
    (crun env 1 h PW.init).isSome = true ∧ (crun env 1 (h ++ [.call (.destroyPub 8)]) PW.init).isNone = true) := by decide +kernel

/-- The whole statement, for one copy of a publisher and one of a subscriber to objects that were not used before. -/
def C105_statement : Prop := ∀ (env : PEnv), env.Passive → ∀ (n : Nat) (h : List Act), (∀ a ∈ h, a.viaSubscriber) →
  ∀ (w w1 : PW) (p q : PubId) (e : Event), PW.run env (n + 1) h PW.init = some w → p ≠ q → subscribedTo q h = [] →
    PW.copyPub p q w = .ok () w1 →
    (∃ w2, act env (n + 1) (.notify q e) w1 = .ok () w2 ∧ w2.log = w.log) ∧
    (∀ w2, act env (n + 1) (.destroyPub q) w1 = .ok () w2 → ∃ w3, act env (n + 1) (.notify p e) w2 = .ok () w3 ∧
      w3.log = w.log ++ (if eventsEnabled p h then (subscribedTo p h).map (fun s => (s, e)) else []))

theorem C105_statement_fails : ¬ C105_statement := by
  intro hst
  let env : PEnv := ⟨fun _ _ _ => [], fun _ _ => [], fun _ _ => []⟩
  have hp : env.Passive := fun _ _ _ => rfl
  let h : List Act := [.subscribe 1 7 false]
  have hv : ∀ a ∈ h, a.viaSubscriber := by decide
  obtain ⟨w, hr⟩ : ∃ w, PW.run env 1 h PW.init = some w := ⟨_, rfl⟩
  obtain ⟨w1, w2, h1, h2, h3⟩ := C105_copied_publisher_delivers env hp 0 h hv w hr 7 8 (.frameAdded "a")
  obtain ⟨⟨w2', h4, h5⟩, -⟩ := hst env hp 0 h hv w w1 7 8 (.frameAdded "a") hr (by decide) (by decide) h1
  rw [h2] at h4
  simp only [Res.ok.injEq, true_and] at h4
  subst h4
  rw [h5] at h3
  have h6 : (if eventsEnabled 7 h then (subscribedTo 7 h).map (fun s => (s, Event.frameAdded "a")) else []) =
    [(1, Event.frameAdded "a")] := by decide +kernel
  rw [h6] at h3
  have := congrArg List.length h3
  simp at this

end Verif
