import Verif.Lemmas.FollowSelf
import Verif.Lemmas.Mirror
import Verif.Spec.Demo
/-! # C23: subscribed views of graphs with self edges -/

namespace Verif
open GS TreeView
variable {F E : Type} [FrameProp F] [EdgeProp E]

/-- Take any reached state, with or without self edges, in which every subscribed view is correct apart from self edges, and any sequence of
`addFrame`, `emplaceFrame` and `add_edge` calls, self edges included.  No call has undefined behaviour, the same views are subscribed afterwards, and
each of them is correct apart from self edges, with the same root.  Self edges are listed by one or two cross edges; how many differs, see
`C21_self_edge_follow_differs`. -/
theorem C23_with_self_edges (cs0 : List (Cmd F E)) (s : GS F E) (h : run cs0 init = some s)
    (hok : ∀ q ∈ s.subs, ∃ root, IsTreeViewLoops s.g root (s.views q))
    (cs : List (Cmd F E)) (hcs : ∀ c ∈ cs, (∃ f, c = .addFrame f) ∨ (∃ f p, c = .emplaceFrame f p) ∨ ∃ a b p, c = .addEdge a b p) :
    ∃ s', run cs s = some s' ∧ s'.subs = s.subs ∧
      ∀ q ∈ s.subs, ∀ root, IsTreeViewLoops s.g root (s.views q) → IsTreeViewLoops s'.g root (s'.views q) := by
  have hsub := run_subsInv init_subsInv h
  obtain ⟨s', h1, h2⟩ := run_followsL (cs := cs) h (by
    intro c hc
    rcases hcs c hc with ⟨f, rfl⟩ | ⟨f, p, rfl⟩ | ⟨a, b, p, rfl⟩ <;> trivial) ⟨hsub.1, hok⟩
  exact ⟨s', h1, h2⟩

/-- In any reached state `getTree(r, true, view)` with a new view makes a subscribed view that is correct apart from self edges. -/
theorem C23_getTree_with_self_edges (cs0 : List (Cmd F E)) (s : GS F E) (h : run cs0 init = some s) (r : FrameId) (u : VId)
    (hr : getVertex r s = .ok u s) (q : Nat) (hq : s.views q = TreeView.empty) :
    ∃ s', getTree r true q s = .ok () s' ∧ s'.g = s.g ∧ s'.subs = s.subs ++ [q] ∧
      (∀ p, p ≠ q → s'.views p = s.views p) ∧ IsTreeViewLoops s'.g u (s'.views q) := by
  have hr' : s.g.vertexOf r = some u := by
    unfold getVertex at hr
    cases hv : s.g.vertexOf r <;> simp [hv] at hr
    rw [hr]
  obtain ⟨s', h1, h2, h3, h4, h5⟩ := getTree_keep_loops (run_wf WF.empty h) (run_paired_ns h) (run_selfTwo h) hr' hq
  exact ⟨s', h1, h2, h3, h4, by rw [h2]; exact h5⟩

/-- The view of "a" follows a self edge at "b" (listed once), then a part with a self edge at "d" is attached (listed twice), then the connection
b-d closes a circle. -/
example : ∃ s : GS DemoFrame Int,
    run [.addEdge "a" "b" 1, .getTree "a" true 0, .addEdge "b" "b" 2, .addEdge "c" "d" 3, .addEdge "d" "d" 4, .addEdge "b" "c" 5, .addEdge "b" "d" 6]
      init = some s ∧
    (s.views 0).crossEdges.map (fun c => (c.origin, c.target, c.edge)) = [(1, 1, 2), (3, 3, 6), (3, 3, 7), (1, 3, 10)] ∧
    (s.views 0).getParent (some 3) = .ok (some 2) (s.views 0) :=
  ⟨_, rfl, rfl, rfl⟩

/-- a view of the frame with the self edge itself, made first -/
example : ∃ s : GS DemoFrame Int, run [.addFrame "a", .addEdge "a" "a" 1, .getTree "a" true 0, .addEdge "a" "b" 2] init = some s ∧
    (s.views 0).crossEdges.map (fun c => (c.origin, c.target, c.edge)) = [(0, 0, 0), (0, 0, 1)] ∧
    (s.views 0).getParent (some 1) = .ok (some 0) (s.views 0) :=
  ⟨_, rfl, rfl, rfl⟩

end Verif
