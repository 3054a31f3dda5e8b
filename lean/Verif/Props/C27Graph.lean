import Verif.Lemmas.ViewHistory
import Verif.Lemmas.FollowAny
import Verif.Model.ViewReuse
import Verif.Model.Views
import Verif.Spec.Demo
/-! # C27: views that were unsubscribed with `graph.unsubscribeTreeView(&view)` -/

namespace Verif
open GS TreeView
variable {F E : Type} [FrameProp F] [EdgeProp E]

/-- In every state: after `graph.unsubscribeTreeView(&view)`, any sequence of calls in which the view is not named again leaves the view as it
was, including the signals it emitted; it is not subscribed.  The other views are subscribed as before, in the same order. -/
theorem C27_unsubscribed_by_graph (s : GS F E) (q : Nat)
    (cs : List (Cmd F E)) (hcs : ∀ c ∈ cs, (∀ f k, c ≠ .getTree f k q) ∧ c ≠ .unsubscribeView q) (s' : GS F E)
    (h' : run cs (unsubscribeTreeView q s) = some s') :
    (∀ p, p ∈ (unsubscribeTreeView q s).subs ↔ p ∈ s.subs ∧ p ≠ q) ∧ (unsubscribeTreeView q s).subs.Sublist s.subs ∧
    s'.views q = s.views q ∧ q ∉ s'.subs := by
  have hq : q ∉ (unsubscribeTreeView q s).subs := by simp [unsubscribeTreeView]
  obtain ⟨h1, h2⟩ := run_other_view (q := q) (by
    intro c hc
    obtain ⟨c1, c2⟩ := hcs c hc
    cases c with
    | getTree f k p => rintro rfl; exact c1 f k rfl
    | unsubscribeView p => rintro rfl; exact c2 rfl
    | _ => trivial) hq h'
  exact ⟨fun p => by simp [unsubscribeTreeView], List.filter_sublist, h1, h2⟩

/-- two views of a-b; the graph unsubscribes the first before b-c is added and a-b removed -/
example : ∃ s s' : GS DemoFrame Int,
    run [.addEdge "a" "b" 1, .getTree "a" true 0, .getTree "b" true 1] init = some s ∧
    run [.addEdge "b" "c" 2, .removeEdge "a" "b"] (unsubscribeTreeView 0 s) = some s' ∧
    (s'.views 0).tree.map Prod.fst = [0, 1] ∧ (s'.views 1).tree.map Prod.fst = [1, 2] ∧ s'.subs = [1] :=
  ⟨_, _, rfl, rfl, rfl, rfl, rfl⟩

/-- The other subscribed views keep being updated, in graphs with self edges too: additions keep them correct. -/
theorem C27_others_follow_after_graph (cs0 : List (Cmd F E)) (s : GS F E) (h : run cs0 init = some s)
    (hok : ∀ p ∈ s.subs, ∃ root, IsTreeViewLoops s.g root (s.views p)) (q : Nat)
    (cs : List (Cmd F E)) (hcs : ∀ c ∈ cs, (∃ f, c = .addFrame f) ∨ (∃ f p, c = .emplaceFrame f p) ∨ ∃ a b p, c = .addEdge a b p) :
    ∃ s', run cs (unsubscribeTreeView q s) = some s' ∧
      ∀ p ∈ s.subs, p ≠ q → ∀ root, IsTreeViewLoops s.g root (s.views p) → IsTreeViewLoops s'.g root (s'.views p) := by
  have hinv := run_subsInv init_subsInv h
  obtain ⟨s', h1, h2⟩ := run_follows_any (cs := cs) (s := unsubscribeTreeView q s) (show WF s.g from run_wf WF.empty h) (show Paired s.g.ns from run_paired_ns h) (show SelfTwo s.g from run_selfTwo h) (by
    intro c hc
    rcases hcs c hc with ⟨f, rfl⟩ | ⟨f, p, rfl⟩ | ⟨a, b, p, rfl⟩ <;> trivial) ⟨hinv.1.filter _, by
      intro p hps
      exact hok p (List.mem_filter.1 hps).1⟩
  exact ⟨s', h1, fun p hps hpq root hr => h2.2 p (List.mem_filter.2 ⟨hps, by simpa using hpq⟩) root hr⟩

/-- views of a graph with a self edge at b: the second one still hears of b-c -/
example : ∃ s s' : GS DemoFrame Int,
    run [.addEdge "a" "b" 1, .addEdge "b" "b" 9, .getTree "a" true 0, .getTree "b" true 1] init = some s ∧
    run [.addEdge "b" "c" 2, .addEdge "c" "c" 3] (unsubscribeTreeView 0 s) = some s' ∧
    (s'.views 0).tree.map Prod.fst = [0, 1] ∧ (s'.views 1).tree.map Prod.fst = [1, 0, 2] :=
  ⟨_, _, rfl, rfl, rfl, rfl⟩

/-- The view does not know that the graph unsubscribed it.  If it is moved after that, the new view is subscribed (TreeView.cpp:54-59), which is
not so after `view->unsubscribe()`. -/
theorem C27_moved_view_subscribed_again (cs0 : List (Cmd F E)) (s : GS F E) (h : run cs0 init = some s) (p q : Nat) (hp : p ∈ s.subs)
    (hq : q ∉ s.subs) (sl : Nat → VSlots) (he : Nat → List (Nat × ViewSignal)) :
    p ∉ (unsubscribeTreeView p s).subs ∧ q ∈ (VS.move p q ⟨unsubscribeTreeView p s, sl, he⟩).gs.subs ∧
    q ∉ (VS.move p q ⟨unsubscribeView p s, sl, he⟩).gs.subs := by
  have hpub := ((run_subsInv init_subsInv h).2 p).1 hp
  refine ⟨by simp [unsubscribeTreeView], ?_, ?_⟩
  · simp [VS.move, unsubscribeTreeView, hpub]
  · simp [VS.move, unsubscribeView, hpub, setView, hq]

/-- the new view is changed by the next call of the graph -/
example : ∃ s s' : GS DemoFrame Int,
    run [.addEdge "a" "b" 1, .getTree "a" true 0] init = some s ∧
    run [.addEdge "b" "c" 2] (VS.move 0 1 ⟨unsubscribeTreeView 0 s, fun _ => ⟨[], [], []⟩, fun _ => []⟩).gs = some s' ∧
    (s'.views 0).tree = [] ∧ (s'.views 1).tree.map Prod.fst = [0, 1, 2] :=
  ⟨_, _, rfl, rfl, rfl, rfl⟩

end Verif
