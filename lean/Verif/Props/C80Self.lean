import Verif.Lemmas.ViewReuse
import Verif.Lemmas.ReuseSelf
import Verif.Lemmas.Subs
import Verif.Spec.Demo
import Verif.Spec.SelfView
/-! # C80 (continued): a cleared view is used again in a graph with self edges

`C80_cleared_partial` and `C80_resubscribe_partial` also hold for graphs with self edges. -/

namespace Verif
open GS TreeView
variable {F E : Type} [FrameProp F] [EdgeProp E]

section
variable {cs : List (Cmd F E)} {s : GS F E} (h : run cs init = some s) {f : FrameId} {u : VId} (hf : getVertex f s = .ok u s) (p : Nat)
include h hf

/-- After `clear()` any view can be used again, also in a graph with self edges: `getTree` makes it a correct view, with each self edge
listed. -/
theorem C80_cleared_with_self_edges_partial (keep : Bool) (hk : keep = false ∨ p ∉ s.subs) :
    ∃ s', getTree f keep p (clearView p s) = .ok () s' ∧ s'.g = s.g ∧ IsTreeViewLoops s'.g u (s'.views p) ∧
      (∀ q, s'.subs.count q = s.subs.count q + if keep = true ∧ q = p then 1 else 0) ∧ ∀ q, q ≠ p → s'.views q = s.views q := by
  have hw : WF s.g := run_wf WF.empty h
  have hinv := run_subsInv init_subsInv h
  have hfu : s.g.vertexOf f = some u := getVertex_ok hf
  obtain ⟨evs, lvl, s', -, h0, h2, h3, h4, -, h5, h6, h7, h8⟩ := getTree_used (s := clearView p s) hw hfu keep p (by
    rcases hk with hk | hk
    · exact .inl hk
    · right
      have : (s.views p).publisher ≠ true := fun x => hk ((hinv.2 p).2 x)
      simpa [clearView, setView, TreeView.clear] using this)
  obtain ⟨evs', lvl', k1, k2⟩ := searchEvents_done hw (hw.live hfu)
  have hb := built_loops hw (run_paired_ns h) (run_selfTwo h) k1 (hw.live hfu) k2
  have hfr : getTreeFresh f (clearView p s) = .ok ((TreeView.empty.addRoot u).build evs') (clearView p s) := by
    have k1' : searchEvents (clearView p s).g u = some evs' := k1
    have hfu' : (clearView p s).g.vertexOf f = some u := hfu
    simp [getTreeFresh, hfu', getTreeInto, k1']
  have he : (TreeView.empty.addRoot u).build evs' = (TreeView.empty.addRoot u).build evs := by
    rw [hfr] at h0; simpa using h0
  rw [he] at hb
  have hm : ((((clearView p s).views p).addRoot u).build evs).mute false = ((TreeView.empty.addRoot u).build evs).mute false := by
    rw [← mute_build, ← mute_build false evs (TreeView.empty.addRoot u)]
    congr 2
    simp [clearView, setView, TreeView.clear, TreeView.addRoot, TreeView.mute, TreeView.empty, TreeView.relOf]
  refine ⟨s', h2, h3, ?_, ?_, ?_⟩
  · rw [h3]
    refine IsTreeViewLoops.of_mute (g := s.g) hb ?_ ?_ ?_
    · rw [h5]; have e := congrArg TreeView.tree hm; exact e
    · rw [h6]; have e := congrArg TreeView.crossEdges hm; exact e
    · rw [h7]; have e := congrArg TreeView.root hm; exact e
  · intro q
    rw [h4]
    cases keep
    · simp [clearView]
    · by_cases hq : q = p
      · subst hq; simp [clearView]
      · simp [clearView, hq, Ne.symm hq]
  · intro q hq
    rw [h8 q hq]
    simp [clearView, setView, hq]

end

section
variable {cs : List (Cmd F E)} {s : GS F E} (h : run cs init = some s) {f : FrameId} {u : VId} (hf : getVertex f s = .ok u s) (p : Nat)
include h hf

/-- After `view.unsubscribe()` and `clear()`, every view can be subscribed again, to every frame, also in a graph with self edges. -/
theorem C80_resubscribe_with_self_edges_partial :
    ∃ s', getTree f true p (clearView p (unsubscribeView p s)) = .ok () s' ∧ s'.g = s.g ∧ IsTreeViewLoops s'.g u (s'.views p) ∧
      s'.subs.count p = 1 ∧ ∀ q, q ≠ p → s'.subs.count q = s.subs.count q ∧ s'.views q = s.views q := by
  have hinv := run_subsInv init_subsInv h
  have hrun : run (cs ++ [.unsubscribeView p]) init = some (unsubscribeView p s) := by
    rw [run_append h]
    rfl
  have hg : (unsubscribeView p s).g = s.g := by unfold unsubscribeView; split <;> rfl
  have hq : ∀ q, q ≠ p → (unsubscribeView p s).subs.count q = s.subs.count q ∧ (unsubscribeView p s).views q = s.views q := by
    intro q hq
    unfold unsubscribeView
    split
    · refine ⟨?_, by simp [setView, hq]⟩
      exact List.count_filter (by simpa using hq)
    · exact ⟨rfl, rfl⟩
  have hnp : p ∉ (unsubscribeView p s).subs := by
    unfold unsubscribeView
    split
    · simp
    · rename_i hx; exact fun x => hx ((hinv.2 p).1 x)
  have hf' : getVertex f (unsubscribeView p s) = .ok u (unsubscribeView p s) := by
    have := getVertex_ok hf
    simp [getVertex, hg, this]
  obtain ⟨s', h1, h2, h3, h4, h5⟩ := C80_cleared_with_self_edges_partial hrun hf' p true (.inr hnp)
  refine ⟨s', h1, h2.trans hg, h3, ?_, fun q hqp => ⟨?_, (h5 q hqp).trans (hq q hqp).2⟩⟩
  · rw [h4, List.count_eq_zero.2 hnp]; simp
  · rw [h4, (hq q hqp).1]; simp [hqp]

end

/-- a - b with a self edge at b; the view from a is cleared, filled from b, and stays subscribed -/
example : ((run [.addEdge "a" "b" 1, .addEdge "b" "b" 2, .getTree "a" true 0] (init : GS DemoFrame Int)).bind (fun s =>
      run [.getTree "b" false 0, .addEdge "b" "c" 3] (clearView 0 s))).map (fun s =>
        ((s.views 0).tree, (s.views 0).crossEdges.map (fun c => (c.origin, c.target)), s.subs)) =
    some ([(1, ⟨none, [0, 2]⟩), (0, ⟨some 1, []⟩), (2, ⟨some 1, []⟩)], [(1, 1), (1, 1)], [0]) := by
  decide +kernel

/-- the same with `unsubscribe` and a new subscription -/
example : ((run [.addEdge "a" "b" 1, .addEdge "b" "b" 2, .getTree "a" true 0, .unsubscribeView 0] (init : GS DemoFrame Int)).bind (fun s =>
      run [.getTree "b" true 0, .addEdge "b" "c" 3] (clearView 0 s))).map (fun s =>
        ((s.views 0).tree, (s.views 0).crossEdges.length, s.subs)) =
    some ([(1, ⟨none, [0, 2]⟩), (0, ⟨some 1, []⟩), (2, ⟨some 1, []⟩)], 2, [0]) := by
  decide +kernel

end Verif
