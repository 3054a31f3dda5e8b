import Verif.Lemmas.ViewHistory
import Verif.Spec.Demo
/-! # C27: unsubscribed views are never touched -/

namespace Verif
open GS TreeView
variable {F E : Type} [FrameProp F] [EdgeProp E]

/-- After any history and `view->unsubscribe()`, any sequence of calls in which the view is not named again (as output of
`getTree` or for another `unsubscribe`) leaves the view as it was, including the signals it emitted; it is not subscribed.  The
other views are subscribed as before. -/
theorem C27_unsubscribed_untouched (cs0 : List (Cmd F E)) (s : GS F E) (h : run cs0 init = some s) (q : Nat)
    (cs : List (Cmd F E)) (hcs : ∀ c ∈ cs, (∀ f k, c ≠ .getTree f k q) ∧ c ≠ .unsubscribeView q) (s' : GS F E)
    (h' : run cs (unsubscribeView q s) = some s') :
    (∀ p, p ∈ (unsubscribeView q s).subs ↔ p ∈ s.subs ∧ p ≠ q) ∧
    s'.views q = { s.views q with publisher := false } ∧ q ∉ s'.subs := by
  have hinv := run_subsInv init_subsInv h
  have hsubs : ∀ p, p ∈ (unsubscribeView q s).subs ↔ p ∈ s.subs ∧ p ≠ q := by
    intro p
    unfold unsubscribeView
    split
    · simp
    · rename_i hpub
      have : q ∉ s.subs := fun hh => hpub ((hinv.2 q).1 hh)
      constructor
      · intro hp; exact ⟨hp, by rintro rfl; exact this hp⟩
      · exact fun hp => hp.1
  have hview : (unsubscribeView q s).views q = { s.views q with publisher := false } := by
    unfold unsubscribeView
    split
    · simp [setView]
    · rename_i hpub
      have hf : (s.views q).publisher = false := by simpa using hpub
      cases hv : s.views q
      rw [hv] at hf
      simp only at hf
      subst hf; rfl
  have hq : q ∉ (unsubscribeView q s).subs := fun hh => ((hsubs q).1 hh).2 rfl
  obtain ⟨h1, h2⟩ := run_other_view (q := q) (by
    intro c hc
    obtain ⟨c1, c2⟩ := hcs c hc
    cases c with
    | getTree f k p => rintro rfl; exact c1 f k rfl
    | unsubscribeView p => rintro rfl; exact c2 rfl
    | _ => trivial) hq h'
  exact ⟨hsubs, h1.trans hview, h2⟩

/-- The other subscribed views keep being updated: additions after the unsubscription keep them correct. -/
theorem C27_others_still_follow (cs0 : List (Cmd F E)) (hns : ∀ c ∈ cs0, c.noSelf) (s : GS F E)
    (h : run cs0 init = some s) (hok : ∀ p ∈ s.subs, ∃ root, IsTreeView s.g root (s.views p)) (q : Nat)
    (cs : List (Cmd F E)) (hcs : ∀ c ∈ cs, c.grows) :
    ∃ s', run cs (unsubscribeView q s) = some s' ∧
      ∀ p ∈ s.subs, p ≠ q → ∀ root, IsTreeView s.g root (s.views p) → IsTreeView s'.g root (s'.views p) := by
  have hw : WF s.g := run_wf WF.empty h
  have hp : Paired s.g := run_paired WF.empty Paired.empty h hns
  have hinv := run_subsInv init_subsInv h
  have hg : (unsubscribeView q s).g = s.g := (unsubscribeView_same q s).1
  have hinv' : SubsInv (unsubscribeView q s) := exec_subsInv (c := .unsubscribeView q) hinv rfl
  have hsubs : ∀ p, p ≠ q → (p ∈ (unsubscribeView q s).subs ↔ p ∈ s.subs) ∧ (unsubscribeView q s).views p = s.views p := by
    intro p hpq
    unfold unsubscribeView
    split
    · simp [setView, hpq]
    · exact ⟨Iff.rfl, rfl⟩
  have hnq : q ∉ (unsubscribeView q s).subs := by
    intro hh
    have := (hinv'.2 q).1 hh
    unfold unsubscribeView at this
    split at this
    · simp [setView] at this
    · rename_i hx; exact hx this
  obtain ⟨s', h1, h2⟩ := run_follows (cs := cs) (s := unsubscribeView q s) hcs (by rw [hg]; exact hw) (by rw [hg]; exact hp)
    ⟨hinv'.1, by
      intro p hps
      have hpq : p ≠ q := by rintro rfl; exact hnq hps
      rw [hg, (hsubs p hpq).2]
      exact hok p ((hsubs p hpq).1.1 hps)⟩
  refine ⟨s', h1, fun p hps hpq root hr => h2.2 p ((hsubs p hpq).1.2 hps) root ?_⟩
  rw [hg, (hsubs p hpq).2]
  exact hr

/-- two views of a-b, one is unsubscribed before b-c is added -/
example : ∃ s s' : GS DemoFrame Int,
    run [.addEdge "a" "b" 1, .getTree "a" true 0, .getTree "b" true 1] init = some s ∧
    run [.addEdge "b" "c" 2, .removeEdge "a" "b"] (unsubscribeView 0 s) = some s' ∧
    (s'.views 0).tree.map Prod.fst = [0, 1] ∧ (s'.views 1).tree.map Prod.fst = [1, 2] :=
  ⟨_, _, rfl, rfl, rfl, rfl⟩

/-- a view that was never subscribed is left alone -/
example : ∃ s s' : GS DemoFrame Int,
    run [.addEdge "a" "b" 1, .getTree "a" false 0] init = some s ∧ run [.addEdge "b" "c" 2, .removeEdge "a" "b"] s = some s' ∧
    (s'.views 0).tree.map Prod.fst = [0, 1] ∧ s'.subs = [] :=
  ⟨_, _, rfl, rfl, rfl, rfl⟩

end Verif
