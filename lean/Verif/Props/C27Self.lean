import Verif.Lemmas.FollowSelf
import Verif.Lemmas.ForestHistory
import Verif.Spec.Demo
/-! # C27, self edges: the other views keep being updated in graphs with self edges -/

namespace Verif
open GS TreeView
variable {F E : Type} [FrameProp F] [EdgeProp E]

/-- After any history, self edges included, and `view->unsubscribe()`: the views that stay subscribed and are correct apart from self edges keep
being updated by any sequence of additions. -/
theorem C27_others_still_follow_with_self_edges (cs0 : List (Cmd F E)) (s : GS F E) (h : run cs0 init = some s)
    (hok : ∀ p ∈ s.subs, ∃ root, IsTreeViewLoops s.g root (s.views p)) (q : Nat)
    (cs : List (Cmd F E)) (hcs : ∀ c ∈ cs, (∃ f, c = .addFrame f) ∨ (∃ f p, c = .emplaceFrame f p) ∨ ∃ a b p, c = .addEdge a b p) :
    ∃ s', run cs (unsubscribeView q s) = some s' ∧
      ∀ p ∈ s.subs, p ≠ q → ∀ root, IsTreeViewLoops s.g root (s.views p) → IsTreeViewLoops s'.g root (s'.views p) := by
  have hinv := run_subsInv init_subsInv h
  have hg : (unsubscribeView q s).g = s.g := (unsubscribeView_same q s).1
  have hinv' : SubsInv (unsubscribeView q s) := exec_subsInv (c := .unsubscribeView q) hinv rfl
  have hrun : run (cs0 ++ [.unsubscribeView q]) init = some (unsubscribeView q s) := by
    rw [GS.run_append h]; rfl
  have hsubs : ∀ p, p ≠ q → (p ∈ (unsubscribeView q s).subs ↔ p ∈ s.subs) ∧ (unsubscribeView q s).views p = s.views p := by
    intro p hpq
    unfold unsubscribeView
    split
    · simp [setView, hpq]
    · exact ⟨Iff.rfl, rfl⟩
  have hnq : q ∉ (unsubscribeView q s).subs := by
    intro hh
    have := (hinv'.2 q).1 hh
    unfold unsubscribeView at this
    split at this
    · simp [setView] at this
    · rename_i hx; exact hx this
  obtain ⟨s', h1, h2⟩ := run_followsL (cs := cs) hrun (by
    intro c hc
    rcases hcs c hc with ⟨f, rfl⟩ | ⟨f, p, rfl⟩ | ⟨a, b, p, rfl⟩ <;> trivial) ⟨hinv'.1, by
      intro p hps
      have hpq : p ≠ q := by rintro rfl; exact hnq hps
      rw [hg, (hsubs p hpq).2]
      exact hok p ((hsubs p hpq).1.1 hps)⟩
  refine ⟨s', h1, fun p hps hpq root hr => h2.2 p ((hsubs p hpq).1.2 hps) root ?_⟩
  rw [hg, (hsubs p hpq).2]
  exact hr

/-- two views of a graph with a self edge at b; the first one is unsubscribed, then b-c and a self edge at c come -/
example : ∃ s s' : GS DemoFrame Int,
    run [.addEdge "a" "b" 1, .addEdge "b" "b" 9, .getTree "a" true 0, .getTree "b" true 1] init = some s ∧
    run [.addEdge "b" "c" 2, .addEdge "c" "c" 3] (unsubscribeView 0 s) = some s' ∧
    (s'.views 0).tree.map Prod.fst = [0, 1] ∧ (s'.views 1).tree.map Prod.fst = [1, 0, 2] ∧
    (s'.views 1).crossEdges.map (fun c => (c.origin, c.target)) = [(1, 1), (1, 1), (2, 2)] :=
  ⟨_, _, rfl, rfl, rfl, rfl, rfl⟩

end Verif
