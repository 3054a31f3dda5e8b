import Verif.Lemmas.Destroy
/-!
# C31: destroying a publisher unsubscribes all remaining subscribers

Full statement: destroying a publisher unsubscribes every remaining subscriber (none of them keeps a pointer to the destroyed
publisher) without undefined behaviour.

It fails whenever there is a subscriber that subscribed with its own `subscribe`: `unsubscribe()` already erases the subscriber
from the list, and `pop_back()` then throws away the next one without telling it.
-/

namespace Verif
open PW

/-- the full statement, after programs that use the subscriber interface -/
def C31_statement : Prop :=
  ∀ (env : PEnv), env.Passive → ∀ (n : Nat) (h : List Act), (∀ a ∈ h, a.viaSubscriber) → ∀ w : PW,
    PW.run env (n + 1) h PW.init = some w → ∀ p, ∃ w', act env (n + 1) (.destroyPub p) w = .ok () w' ∧ ∀ s, w'.ptr s ≠ some p

theorem ownSubs_of_run {env : PEnv} (hp : env.Passive) {n : Nat} {h : List Act} (hv : ∀ a ∈ h, a.viaSubscriber) {w : PW}
    (hr : PW.run env (n + 1) h PW.init = some w) (p : PubId) : OwnSubs p (subscribedTo p h) w := by
  have hi := SubInv.run hp hv hr
  exact ⟨hi.subs p, subscribedTo_nodup p h, fun s hs => (hi.ptr s p).2 hs, fun s hs hd => hi.deadNo s p hd hs, hi.inside p,
    by simp [hi.pubsAlive]⟩

/-- With an odd number of subscribers the destructor calls `pop_back()` on an empty vector. -/
theorem C31_odd_is_undefined (env : PEnv) (hp : env.Passive) (n : Nat) (h : List Act) (hv : ∀ a ∈ h, a.viaSubscriber) (w : PW)
    (hr : PW.run env (n + 1) h PW.init = some w) (p : PubId) (k : Nat) (hk : (subscribedTo p h).length = 2 * k + 1) :
    ∃ r, act env (n + 1) (.destroyPub p) w = .ub r := by
  have ho := ownSubs_of_run hp hv hr p
  obtain ⟨r, h1⟩ := destroyLoop_odd env (deliver env (act env n)) k ho hk (w.pubs p).subscribers.length (Nat.le_of_eq (by rw [ho.subs]))
  refine ⟨r, ?_⟩
  show PW.destroyPub env (deliver env (act env n)) p w = _
  unfold PW.destroyPub
  rw [if_neg ho.pubAlive, h1]

example : (subscribedTo 7 [.subscribe 1 7 false]).length = 2 * 0 + 1 := by decide

/-- With an even number every second subscriber keeps the pointer to the destroyed publisher. -/
theorem C31_even_leaves_dangling (env : PEnv) (hp : env.Passive) (n : Nat) (h : List Act) (hv : ∀ a ∈ h, a.viaSubscriber) (w : PW)
    (hr : PW.run env (n + 1) h PW.init = some w) (p : PubId) (k : Nat) (hk : (subscribedTo p h).length = 2 * k) :
    ∃ w', act env (n + 1) (.destroyPub p) w = .ok () w' ∧
      ∀ i s, (subscribedTo p h)[i]? = some s → w'.ptr s = if i % 2 = 1 then none else some p := by
  have ho := ownSubs_of_run hp hv hr p
  obtain ⟨w', h1, h2, _⟩ := destroyLoop_even env (deliver env (act env n)) k ho hk (w.pubs p).subscribers.length (Nat.le_of_eq (by rw [ho.subs]))
  refine ⟨{ w' with deadPubs := p :: w'.deadPubs }, ?_, h2⟩
  show PW.destroyPub env (deliver env (act env n)) p w = _
  unfold PW.destroyPub
  rw [if_neg ho.pubAlive, h1]

example : subscribedTo 7 [.subscribe 1 7 false, .subscribe 2 7 false] = [1, 2] := by decide

/-- So the property fails after every program that leaves at least one subscriber, not only after some. -/
theorem C31_fails_always (env : PEnv) (hp : env.Passive) (n : Nat) (h : List Act) (hv : ∀ a ∈ h, a.viaSubscriber) (w : PW)
    (hr : PW.run env (n + 1) h PW.init = some w) (p : PubId) (hne : subscribedTo p h ≠ []) :
    ¬ ∃ w', act env (n + 1) (.destroyPub p) w = .ok () w' ∧ ∀ s, w'.ptr s ≠ some p := by
  rintro ⟨w', h1, h2⟩
  obtain ⟨k, hk | hk⟩ : ∃ k, (subscribedTo p h).length = 2 * k ∨ (subscribedTo p h).length = 2 * k + 1 :=
    ⟨(subscribedTo p h).length / 2, by omega⟩
  · obtain ⟨w2, h3, h4⟩ := C31_even_leaves_dangling env hp n h hv w hr p k hk
    rw [h1] at h3; cases h3
    obtain ⟨s, l, hl⟩ := List.exists_cons_of_ne_nil hne
    exact h2 s (by simpa using h4 0 s (by simp [hl]))
  · obtain ⟨r, h3⟩ := C31_odd_is_undefined env hp n h hv w hr p k hk
    rw [h1] at h3; cases h3

theorem C31_statement_fails : ¬ C31_statement := by
  intro hs
  let env : PEnv := ⟨fun _ _ _ => [], fun _ _ => [], fun _ _ => []⟩
  have hp : env.Passive := fun _ _ _ => rfl
  have hv : ∀ a ∈ [Act.subscribe 1 7 false], a.viaSubscriber := by decide
  have hr : ∃ w, PW.run env 1 [Act.subscribe 1 7 false] PW.init = some w := ⟨_, rfl⟩
  obtain ⟨w, hr⟩ := hr
  exact C31_fails_always env hp 0 _ hv w hr 7 (by decide) (hs env hp 0 _ hv w hr 7)

/-- Using such a subscriber afterwards, even destroying it, is a use of a destroyed object. -/
theorem C31_dangling_use (env : PEnv) (n : Nat) (w : PW) (s : SubId) (p : PubId) (hs : s ∉ w.deadSubs) (hp : w.ptr s = some p)
    (hd : p ∈ w.deadPubs) : ∃ r, act env (n + 1) (.destroySub s) w = .ub r := by
  refine ⟨"unsubscribe: destroyed publisher", ?_⟩
  simp only [act]
  unfold subUnsubscribe pubUnsubscribe
  simp [hs, hp, hd]

example : let env : PEnv := ⟨fun _ _ _ => [], fun _ _ => [], fun _ _ => []⟩
    PW.run env 1 [.subscribe 1 7 false, .subscribe 2 7 false, .destroyPub 7, .destroySub 2, .destroySub 1] PW.init = none := rfl

/-- What is left of the property: subscribers entered through `publisher.subscribe(&s)` only (they have no pointer) do no harm. -/
theorem C31_entered_by_publisher_partial (env : PEnv) (n : Nat) (w : PW) (p : PubId) (hp : p ∉ w.deadPubs)
    (hptr : ∀ s ∈ (w.pubs p).subscribers, w.ptr s = none) (ha : ∀ s ∈ (w.pubs p).subscribers, s ∉ w.deadSubs)
    (hno : ∀ s, w.ptr s ≠ some p) :
    ∃ w', act env (n + 1) (.destroyPub p) w = .ok () w' ∧ ∀ s, w'.ptr s ≠ some p := by
  obtain ⟨w', h1, h2, _⟩ := destroyLoop_foreign env (deliver env (act env n)) rfl hptr ha _ (Nat.le_refl _)
  refine ⟨{ w' with deadPubs := p :: w'.deadPubs }, ?_, fun s => by simpa [h2] using hno s⟩
  show PW.destroyPub env (deliver env (act env n)) p w = _
  unfold PW.destroyPub
  rw [if_neg hp, h1]

example : let env : PEnv := ⟨fun _ _ _ => [], fun _ _ => [], fun _ _ => []⟩
    (PW.run env 1 [.pubSubscribe 7 1 false, .pubSubscribe 7 2 false, .pubSubscribe 7 3 false, .destroyPub 7] PW.init).map
      (fun w => (w.pubs 7).subscribers) = some [] := by decide +kernel

end Verif
