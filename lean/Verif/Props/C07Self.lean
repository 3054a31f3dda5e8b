import Verif.Lemmas.SelfEdge
import Verif.Spec.Demo
set_option linter.unusedSectionVars false
/-! # C07, self edges: disconnectFrame never finishes for a frame with a self edge -/

namespace Verif
open GS
variable {F E : Type} [FrameProp F] [EdgeProp E]

/-- For every history and every frame with a self edge, `disconnectFrame` does not return normally. -/
theorem C07_self_edge_always (cs : List (Cmd F E)) (s : GS F E) (h : run cs init = some s) (a : FrameId)
    (ha : containsEdge a a s = .ok true s) (t : GS F E) : disconnectFrame a s ≠ .ok () t := by
  intro ht
  have hw : WF s.g := run_wf WF.empty h
  obtain ⟨u, hu⟩ := selfAt_iff.2 ha
  obtain ⟨l, j1, -⟩ := disconnectFrame_advances (s' := t) hw (by rw [ht]; rfl)
  obtain ⟨-, e, he, e1, e2⟩ := hu.steps j1 hw
  unfold disconnectFrame at ht
  simp only [hu.1] at ht
  have h0 := disconnectLoop_ok_empty _ ht
  simp only [G.outEdges, List.filter_eq_nil_iff] at h0
  exact h0 e he (by simp [e1])

/-- a frame with a self edge and another edge that is removed before -/
example : ∃ s : GS DemoFrame Int, run [.addEdge "a" "b" 1, .addEdge "b" "b" 2] init = some s ∧
    containsEdge "b" "b" s = .ok true s ∧ disconnectFrame "b" s = .ub "remove_edge: edge removed twice" :=
  ⟨_, rfl, rfl, rfl⟩

end Verif
