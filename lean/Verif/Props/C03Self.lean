import Verif.Lemmas.SelfEdge
import Verif.Spec.Demo
set_option linter.unusedSectionVars false
/-! # C03, self edges: an edge from a frame to itself can be added but never removed -/

namespace Verif
open GS
variable {F E : Type} [FrameProp F] [EdgeProp E]

/-- Whenever `add_edge(a,a,p)` succeeds, in whatever state, the following `remove_edge(a,a)` erases one edge twice,
which is undefined behaviour.  So for `a = b` the claim C03 is false in every case, not only in `C03_self_edge_fails`. -/
theorem C03_self_edge_always (s : GS F E) (a : FrameId) (p : E) (s1 : GS F E)
    (h1 : addEdge a a p s = .ok () s1) : removeEdge a a s1 = .ub "remove_edge: edge removed twice" := by
  exact (addEdge_self h1).elim fun _ hu => hu.removeEdge

/-- a graph with another edge -/
example : ∃ s s1 : GS DemoFrame Int, run [.addEdge "a" "b" 1] init = some s ∧ addEdge "a" "a" 5 s = .ok () s1 ∧
    removeEdge "a" "a" s1 = .ub "remove_edge: edge removed twice" :=
  ⟨_, _, rfl, rfl, rfl⟩

/-- A self edge stays for ever: after any further calls it is still there, removing it is undefined behaviour, its frame cannot be
removed, and `disconnectFrame` never returns normally for that frame. -/
theorem C03_self_edge_stays (cs cs' : List (Cmd F E)) (s s' : GS F E) (h : run cs init = some s) (a : FrameId)
    (ha : containsEdge a a s = .ok true s) (h' : run cs' s = some s') :
    containsEdge a a s' = .ok true s' ∧ removeEdge a a s' = .ub "remove_edge: edge removed twice" ∧
    removeFrame a s' = .throw (.frameStillConnected a) s' ∧ ∀ t, disconnectFrame a s' ≠ .ok () t := by
  have hw : WF s.g := run_wf WF.empty h
  have hw' : WF s'.g := run_wf hw h'
  obtain ⟨l, k1, -⟩ := run_advances hw h'
  obtain ⟨u, hu⟩ := selfAt_iff.2 ha
  have hS : SelfAt s'.g a u := hu.steps k1 hw
  refine ⟨selfAt_iff.1 ⟨u, hS⟩, hS.removeEdge, ?_, ?_⟩
  · obtain ⟨e, he, hm, e1, e2⟩ := hS.edge
    unfold removeFrame
    simp only [hS.1]
    rw [if_pos]
    simp only [G.degree]
    have : e ∈ s'.g.edges.filter (fun e => e.src = u) := by simp [hm, e1]
    have := List.length_pos_of_mem this
    omega
  · intro t ht
    obtain ⟨l, j1, -⟩ := disconnectFrame_advances (s' := t) hw' (by rw [ht]; rfl)
    obtain ⟨-, e, he, e1, e2⟩ := hS.steps j1 hw'
    unfold disconnectFrame at ht
    simp only [hS.1] at ht
    have h0 := disconnectLoop_ok_empty _ ht
    simp only [G.outEdges, List.filter_eq_nil_iff] at h0
    exact h0 e he (by simp [e1])

/-- the hypotheses hold: a self edge among other edges, then further calls (the last one fails) -/
example : ∃ s s' : GS DemoFrame Int, run [.addEdge "a" "b" 1, .addEdge "b" "b" 2] init = some s ∧
    containsEdge "b" "b" s = .ok true s ∧ run [.removeEdge "a" "b", .removeFrame "b"] s = some s' ∧
    containsFrame "b" s' = true ∧ containsEdge "a" "b" s' = .ok false s' :=
  ⟨_, _, rfl, rfl, rfl, rfl, rfl⟩

end Verif
