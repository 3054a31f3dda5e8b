import Verif.Lemmas.ViewHistory
import Verif.Lemmas.Mirror
import Verif.Spec.Demo
/-! # C23: a subscribed tree view follows every added edge -/

namespace Verif
open GS TreeView
variable {F E : Type} [FrameProp F] [EdgeProp E]

/-- Take any state reached without self edges in which every subscribed view is a correct tree view of the graph, and any
sequence of `addFrame`, `emplaceFrame` and `add_edge` calls (no self edges).  No call has undefined behaviour, the same views are
subscribed afterwards, and each of them is a correct tree view of the new graph with the same root. -/
theorem C23_view_follows_additions (cs0 : List (Cmd F E)) (hns : ∀ a p, Cmd.addEdge a a p ∉ cs0) (s : GS F E)
    (h : run cs0 init = some s) (hok : ∀ q ∈ s.subs, ∃ root, IsTreeView s.g root (s.views q))
    (cs : List (Cmd F E)) (hcs : ∀ c ∈ cs, (∃ f, c = .addFrame f) ∨ (∃ f p, c = .emplaceFrame f p) ∨
      ∃ a b p, a ≠ b ∧ c = .addEdge a b p) :
    ∃ s', run cs s = some s' ∧ s'.subs = s.subs ∧
      ∀ q ∈ s.subs, ∀ root, IsTreeView s.g root (s.views q) → IsTreeView s'.g root (s'.views q) := by
  have hw : WF s.g := run_wf WF.empty h
  have hp : Paired s.g := run_paired WF.empty Paired.empty h (noSelf_of hns)
  have hsub := run_subsInv init_subsInv h
  obtain ⟨s', h1, h2⟩ := run_follows (cs := cs) (s := s) (by
    intro c hc
    rcases hcs c hc with ⟨f, rfl⟩ | ⟨f, p, rfl⟩ | ⟨a, b, p, hab, rfl⟩
    · trivial
    · trivial
    · exact hab) hw hp ⟨hsub.1, hok⟩
  exact ⟨s', h1, h2⟩

/-- `getTree(r, true, view)` with a new view makes a correct subscribed view and leaves the graph and the other views alone. -/
theorem C23_getTree_subscribes (cs0 : List (Cmd F E)) (hns : ∀ a p, Cmd.addEdge a a p ∉ cs0) (s : GS F E)
    (h : run cs0 init = some s) (r : FrameId) (u : VId) (hr : getVertex r s = .ok u s) (q : Nat)
    (hq : s.views q = TreeView.empty) :
    ∃ s', getTree r true q s = .ok () s' ∧ s'.g = s.g ∧ s'.subs = s.subs ++ [q] ∧
      (∀ p, p ≠ q → s'.views p = s.views p) ∧ IsTreeView s'.g u (s'.views q) := by
  have hw : WF s.g := run_wf WF.empty h
  have hp : Paired s.g := run_paired WF.empty Paired.empty h (noSelf_of hns)
  have hr' : s.g.vertexOf r = some u := by
    unfold getVertex at hr
    cases hv : s.g.vertexOf r <;> simp [hv] at hr
    rw [hr]
  obtain ⟨s', h1, h2, h3, h4, h5⟩ := getTree_keep hw hp hr' hq
  exact ⟨s', h1, h2, h3, h4, by rw [h2]; exact h5⟩

/-- a view of a-b; then the separate triangle c-d-e is connected to b, and e to a -/
example : ∃ s s' : GS DemoFrame Int,
    run [.addEdge "a" "b" 1, .addEdge "c" "d" 2, .addEdge "d" "e" 3, .addEdge "e" "c" 4, .getTree "a" true 0] init = some s ∧
    run [.addEdge "d" "b" 5, .addEdge "e" "a" 6] s = some s' ∧
    (s.views 0).tree.map Prod.fst = [0, 1] ∧
    (s'.views 0).tree.map (fun p => (p.1, p.2.parent)) = [(0, none), (1, some 0), (3, some 1), (2, some 3), (4, some 3)] ∧
    (s'.views 0).crossEdges.map (fun c => (c.origin, c.target)) = [(2, 4), (4, 0)] :=
  ⟨_, _, rfl, rfl, rfl, rfl, rfl⟩

/-- two subscribed views and one that is not: the two are both updated -/
example : ∃ s s' : GS DemoFrame Int,
    run [.addEdge "a" "b" 1, .getTree "a" true 0, .getTree "b" true 1, .getTree "a" false 2] init = some s ∧
    run [.addEdge "b" "c" 2] s = some s' ∧
    (s'.views 0).tree.map Prod.fst = [0, 1, 2] ∧ (s'.views 1).tree.map Prod.fst = [1, 0, 2] ∧
    (s'.views 2).tree.map Prod.fst = [0, 1] :=
  ⟨_, _, rfl, rfl, rfl, rfl, rfl⟩

/-- the new connection leads to a frame with one further connection: both frames come into the view -/
example : (run [.addEdge "a" "b" 1, .getTree "a" true 0, .addEdge "c" "d" 2, .addEdge "b" "c" 3] (init : GS DemoFrame Int)).map
    (fun s => (s.views 0).tree.map (fun p => (p.1, p.2.parent))) = some [(0, none), (1, some 0), (2, some 1), (3, some 2)] := by
  decide +kernel

end Verif
