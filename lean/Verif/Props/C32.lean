import Verif.Lemmas.Publisher
/-!
# C32: a subscriber is subscribed to at most one publisher
-/

namespace Verif
open PW

/-- After any program that uses the subscriber interface (any number of publishers and subscribers, handlers that only listen):
a subscriber is in the list of the publisher it points to exactly once and in no other list. -/
theorem C32_one_publisher (env : PEnv) (hp : env.Passive) (n : Nat) (h : List Act) (hv : ∀ a ∈ h, a.viaSubscriber) (w : PW)
    (hr : PW.run env (n + 1) h PW.init = some w) (s : SubId) (p : PubId) :
    (w.pubs p).subscribers.count s = if w.ptr s = some p then 1 else 0 := by
  have hi := SubInv.run hp hv hr
  rw [hi.subs]
  by_cases hs : w.ptr s = some p
  · rw [if_pos hs, List.count_eq_one_of_mem (subscribedTo_nodup p h) ((hi.ptr s p).1 hs)]
  · rw [if_neg hs, List.count_eq_zero_of_not_mem (fun hm => hs ((hi.ptr s p).2 hm))]

/-- subscribing twice to the same publisher: once in the list -/
example : (PW.run ⟨fun _ _ _ => [], fun _ _ => [], fun _ _ => []⟩ 1 [.subscribe 1 7 false, .subscribe 1 7 false, .subscribe 2 7 false,
      .subscribe 2 8 false] PW.init).map (fun w => ((w.pubs 7).subscribers, (w.pubs 8).subscribers, w.ptr 1, w.ptr 2)) =
    some ([1], [2], some 7, some 8) := by decide +kernel

/-- The publisher it points to is the one of its last `subscribe`, if this was its last call about subscriptions. -/
theorem C32_points_to_last (env : PEnv) (hp : env.Passive) (n : Nat) (h : List Act) (hv : ∀ a ∈ h, a.viaSubscriber) (w : PW)
    (hr : PW.run env (n + 1) h PW.init = some w) (s : SubId) (p : PubId) :
    w.ptr s = some p ↔ ∃ h1 b h2, h = h1 ++ Act.subscribe s p b :: h2 ∧ h2.any (Act.concerns s) = false := by
  rw [(SubInv.run hp hv hr).ptr]
  clear hr hv
  induction h with
  | nil => simp [subscribedTo]
  | cons a h ih =>
    constructor
    · intro hs
      have rest : s ∈ subscribedTo p h → ∃ h1 b h2, a :: h = h1 ++ Act.subscribe s p b :: h2 ∧ h2.any (Act.concerns s) = false := by
        intro hm
        obtain ⟨h1, b, h2, e, hc⟩ := ih.1 hm
        exact ⟨a :: h1, b, h2, by rw [e]; rfl, hc⟩
      unfold subscribedTo at hs
      split at hs
      · split at hs
        · rename_i t q b hc
          rcases List.mem_cons.1 hs with rfl | hs
          · obtain ⟨rfl, hc⟩ := hc
            exact ⟨[], b, h, rfl, by simpa using hc⟩
          · exact rest hs
        · exact rest hs
      · exact rest hs
    · rintro ⟨h1, b, h2, e, hc⟩
      cases h1 with
      | nil =>
        cases e
        have hc' : (¬ h.any (Act.concerns s) = true) := by rw [hc]; simp
        simp only [subscribedTo]
        rw [if_pos ⟨trivial, hc'⟩]; exact List.mem_cons_self ..
      | cons c h1 =>
        cases e
        have hm := ih.2 ⟨h1, b, h2, rfl, hc⟩
        unfold subscribedTo
        split
        · split
          · exact List.mem_cons_of_mem _ hm
          · exact hm
        · exact hm

/-- the last call decides, calls of other subscribers do not matter -/
example : (PW.run ⟨fun _ _ _ => [], fun _ _ => [], fun _ _ => []⟩ 1 [.subscribe 1 7 false, .subscribe 1 8 true, .subscribe 2 7 false,
      .unsubscribe 2, .subscribe 1 9 false, .subscribe 3 7 false] PW.init).map (fun w => (w.ptr 1, w.ptr 2, w.ptr 3)) =
    some (some 9, none, some 7) := by decide +kernel

/-- After `unsubscribe()` or destruction it is in no list, until it subscribes again. -/
theorem C32_unsubscribed (env : PEnv) (hp : env.Passive) (n : Nat) (h1 h2 : List Act) (s : SubId) (a : Act)
    (ha : a = .unsubscribe s ∨ a = .destroySub s) (h2s : h2.any (Act.concerns s) = false)
    (hv : ∀ b ∈ h1 ++ a :: h2, b.viaSubscriber) (w : PW) (hr : PW.run env (n + 1) (h1 ++ a :: h2) PW.init = some w) (p : PubId) :
    s ∉ (w.pubs p).subscribers ∧ w.ptr s = none := by
  have key : ∀ q, w.ptr s ≠ some q := by
    intro q hq
    obtain ⟨l1, b, l2, e, hc⟩ := (C32_points_to_last env hp n _ hv w hr s q).1 hq
    have hac : a.concerns s = true := by rcases ha with rfl | rfl <;> simp [Act.concerns]
    have hne : a ≠ .subscribe s q b := by rcases ha with rfl | rfl <;> simp
    rcases List.append_eq_append_iff.1 e with ⟨m, h3, h4⟩ | ⟨m, h3, h4⟩
    · cases m with
      | nil => simp only [List.nil_append, List.cons.injEq] at h4; exact hne h4.1
      | cons x m =>
        simp only [List.cons_append, List.cons.injEq] at h4
        rw [h4.2] at h2s
        simp [Act.concerns] at h2s
    · cases m with
      | nil => simp only [List.nil_append, List.cons.injEq] at h4; exact hne h4.1.symm
      | cons x m =>
        simp only [List.cons_append, List.cons.injEq] at h4
        rw [h4.2] at hc
        simp [hac] at hc
  have hnone : w.ptr s = none := by
    cases h : w.ptr s with
    | none => rfl
    | some q => exact absurd h (key q)
  refine ⟨fun hm => ?_, hnone⟩
  have := C32_one_publisher env hp n _ hv w hr s p
  rw [hnone, if_neg (by simp)] at this
  exact List.count_eq_zero.1 this hm

example : (PW.run ⟨fun _ _ _ => [], fun _ _ => [], fun _ _ => []⟩ 1 [.subscribe 1 7 false, .subscribe 2 7 false, .unsubscribe 1,
      .subscribe 3 7 false, .destroySub 2] PW.init).map (fun w => ((w.pubs 7).subscribers, w.ptr 1, w.ptr 2)) =
    some ([3], none, none) := by decide +kernel

/-- It also tells the new publisher's events only: an unsubscribed or moved subscriber gets nothing from the old publisher. -/
theorem C32_old_publisher_silent (env : PEnv) (hp : env.Passive) (n : Nat) (h : List Act) (hv : ∀ a ∈ h, a.viaSubscriber) (w : PW)
    (hr : PW.run env (n + 1) h PW.init = some w) (s : SubId) (p : PubId) (hs : w.ptr s ≠ some p) (e : Event) (w' : PW)
    (hn : act env (n + 1) (.notify p e) w = .ok () w') : (s, e) ∉ w'.log.drop w.log.length := by
  have hi := SubInv.run hp hv hr
  have hn' : PW.notify (deliver env (act env n)) p e w = .ok () w' := hn
  unfold PW.notify at hn'
  rw [if_neg (by simp [hi.pubsAlive])] at hn'
  by_cases he : (w.pubs p).enabled
  · rw [if_pos he] at hn'
    simp only at hn'
    rw [notifyLoop_passive hp] at hn'
    · cases hn'
      simp [setPub, hi.subs]
      exact fun hm => hs ((hi.ptr s p).2 hm)
    · intro t ht hd
      simp [setPub, hi.subs] at ht
      exact hi.deadNo t p hd ht
  · rw [if_neg he] at hn'
    cases hn'; simp

/-- demo: nobody reacts; the current state of every publisher is one frame -/
def demoState : PEnv := ⟨fun _ _ _ => [], fun _ _ => [.frameAdded "x"], fun _ _ => [.frameRemoved "x"]⟩

example : (PW.run demoState 1 [.subscribe 1 7 false, .subscribe 2 7 true, .subscribe 1 8 true, .notify 7 (.frameAdded "a"),
      .notify 8 (.frameAdded "b"), .destroySub 2, .notify 7 (.frameAdded "c")] PW.init).map
      (fun w => ((w.pubs 7).subscribers, (w.pubs 8).subscribers, w.log)) =
    some ([], [1], [(2, .frameAdded "x"), (1, .frameRemoved "x"), (1, .frameAdded "x"), (2, .frameAdded "a"),
      (1, .frameAdded "b")]) := by decide +kernel

/-- while events are disabled the state is not sent either -/
example : (PW.run demoState 1 [.enable 7 false, .subscribe 1 7 true, .enable 7 true, .notify 7 (.frameAdded "c")] PW.init).map
      (fun w => ((w.pubs 7).subscribers, w.log)) = some ([1], [(1, .frameAdded "c")]) := by decide +kernel

end Verif
