import Verif.Lemmas.FollowAny
import Verif.Lemmas.ForestHistory
import Verif.Spec.Demo
/-! # C23: views that are subscribed with `graph.subscribeTreeView(&view)` (Graph.hpp:581-587) -/

namespace Verif
open GS TreeView
variable {F E : Type} [FrameProp F] [EdgeProp E]

/-- After any history, self edges included: a view that is correct and not subscribed can be subscribed by hand, and any sequence of additions then
keeps it correct, together with all views that were correct and subscribed before. -/
theorem C23_subscribed_by_hand (cs0 : List (Cmd F E)) (s : GS F E) (h : run cs0 init = some s)
    (hok : ∀ p ∈ s.subs, ∃ root, IsTreeViewLoops s.g root (s.views p)) (q : Nat) (hq : q ∉ s.subs) (root : VId)
    (hv : IsTreeViewLoops s.g root (s.views q))
    (cs : List (Cmd F E)) (hcs : ∀ c ∈ cs, (∃ f, c = .addFrame f) ∨ (∃ f p, c = .emplaceFrame f p) ∨ ∃ a b p, c = .addEdge a b p) :
    ∃ s1 s', subscribeTreeView q s = .ok () s1 ∧ run cs s1 = some s' ∧ s'.subs = s.subs ++ [q] ∧ IsTreeViewLoops s'.g root (s'.views q) ∧
      ∀ p ∈ s.subs, ∀ r, IsTreeViewLoops s.g r (s.views p) → IsTreeViewLoops s'.g r (s'.views p) := by
  have hinv := run_subsInv init_subsInv h
  have hpub : (s.views q).publisher = false := by
    cases hx : (s.views q).publisher with
    | false => rfl
    | true => exact (hq ((hinv.2 q).2 hx)).elim
  have h1 : subscribeTreeView q s = .ok () { s with subs := s.subs ++ [q], views := setView s.views q { s.views q with publisher := true } } := by
    simp [subscribeTreeView, hpub]
  have hq' : IsTreeViewLoops s.g root { s.views q with publisher := true } :=
    ⟨hv.view.of_view rfl rfl rfl, hv.loops_le, hv.loops_pos⟩
  have hne : ∀ p ∈ s.subs, p ≠ q := fun p hp e => hq (e ▸ hp)
  obtain ⟨s', h2, h3⟩ := run_follows_any (cs := cs)
    (s := { s with subs := s.subs ++ [q], views := setView s.views q { s.views q with publisher := true } })
    (show WF s.g from run_wf WF.empty h) (show Paired s.g.ns from run_paired_ns h) (show SelfTwo s.g from run_selfTwo h) (by
      intro c hc
      rcases hcs c hc with ⟨f, rfl⟩ | ⟨f, p, rfl⟩ | ⟨a, b, p, rfl⟩ <;> trivial) ⟨by
        refine List.nodup_append.2 ⟨hinv.1, by simp, fun a ha b hb => ?_⟩
        rw [List.mem_singleton.1 hb]; exact hne a ha, by
      intro p hps
      rcases List.mem_append.1 hps with hp | hp
      · have := hok p hp
        simpa [setView, hne p hp] using this
      · rw [List.mem_singleton.1 hp]
        exact ⟨root, by simpa [setView] using hq'⟩⟩
  refine ⟨_, s', h1, h2, h3.1, h3.2 q (by simp) root (by simpa [setView] using hq'), fun p hp r hr => ?_⟩
  exact h3.2 p (by simp [hp]) r (by simpa [setView, hne p hp] using hr)

/-- a view of a-b with a self edge at b is subscribed by hand; then b-c and d-a come -/
example : ∃ s s1 s' : GS DemoFrame Int,
    run [.addEdge "a" "b" 1, .addEdge "b" "b" 9, .getTree "a" false 0] init = some s ∧ s.subs = [] ∧ subscribeTreeView 0 s = .ok () s1 ∧
    run [.addEdge "b" "c" 2, .addEdge "d" "a" 3] s1 = some s' ∧ (s'.views 0).tree.map Prod.fst = [0, 1, 2, 3] :=
  ⟨_, _, _, rfl, rfl, rfl, rfl, rfl⟩

/-- a view that is out of date when it is subscribed stays so (the note at Graph.hpp:255-256): vertex 2 is missing for ever, and what is
connected to it later too -/
example : ∃ s s1 s' : GS DemoFrame Int,
    run [.addEdge "a" "b" 1, .getTree "a" false 0, .addEdge "b" "c" 2] init = some s ∧ subscribeTreeView 0 s = .ok () s1 ∧
    run [.addEdge "c" "d" 3, .addEdge "b" "e" 4] s1 = some s' ∧ (s'.views 0).tree.map Prod.fst = [0, 1, 4] ∧ s'.g.verts.length = 5 :=
  ⟨_, _, _, rfl, rfl, rfl, rfl, rfl⟩

end Verif
