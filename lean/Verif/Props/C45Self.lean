import Verif.Lemmas.SelfEdge
import Verif.Lemmas.ItemClear
import Verif.Spec.Demo
set_option linter.unusedSectionVars false
/-! # C45, self edges: clear never finishes for a graph with a self edge -/

namespace Verif
open EG GS
variable {E : Type} [EdgeProp E]

private theorem disconnectAll_self {a : FrameId} {u : VId} (fs : List FrameId) : ∀ {s : EG E}, WF s.gs.g → SelfAt s.gs.g a u → a ∈ fs →
    ∀ t, forFrames (fun f s => base s.heap (GS.disconnectFrame f s.gs)) fs s ≠ .ok () t := by
  induction fs with
  | nil => intro s _ _ h; simp at h
  | cons f fs ih =>
    intro s hw hu hm t ht
    simp only [forFrames] at ht
    cases hd : GS.disconnectFrame f s.gs with
    | throw x s1 => simp [hd, base] at ht
    | ub r => simp [hd, base] at ht
    | ok x s1 =>
      simp only [hd, base] at ht
      obtain ⟨l, j1, j2⟩ := disconnectFrame_advances (s' := s1) hw (by rw [hd]; rfl)
      have hu1 := hu.steps j1 hw
      rcases List.mem_cons.1 hm with rfl | hm
      · obtain ⟨-, e, he, e1, e2⟩ := hu1
        unfold GS.disconnectFrame at hd
        simp only [hu.1] at hd
        have h0 := disconnectLoop_ok_empty _ hd
        simp only [G.outEdges, List.filter_eq_nil_iff] at h0
        exact h0 e he (by simp [e1])
      · exact ih (s := ⟨s1, s.heap⟩) (Advances.wf ⟨l, j1, j2⟩ hw) hu1 hm t ht

/-- The hypothesis of `C45_clear` is needed in every case: after any history, items and subscribed views included, that left a self edge in the
graph, `clear()` does not return normally. -/
theorem C45_self_edge_always (heap : ItemId → ItemObj) (cs : List (EG.Cmd E)) {s : EG E} (hs : EG.run cs (EG.init heap) = some s)
    (a : FrameId) (ha : containsEdge a a s.gs = .ok true s.gs) (t : EG E) : EG.clear s ≠ .ok () t := by
  intro ht
  have hw := EG.run_wf hs
  obtain ⟨u, hu⟩ := selfAt_iff.2 ha
  have hm : a ∈ names s.gs.g := (mem_names hw).2 (by rw [hu.1]; rfl)
  unfold EG.clear at ht
  cases hd : forFrames (fun f s => base s.heap (GS.disconnectFrame f s.gs)) (s.gs.g.verts.map (fun r => FrameProp.getId r.prop)) s with
  | throw x s1 => simp [hd] at ht
  | ub r => simp [hd] at ht
  | ok x s1 => exact disconnectAll_self _ hw hu hm s1 hd

/-- a connection a-b, a self edge at b and an item: the self edge is erased twice -/
example : ∃ s : EG Int, EG.run [.graph (.addEdge "a" "b" 1), .graph (.addEdge "b" "b" 2), .addItemToFrame "a" 5] (EG.init (fun _ => ⟨7, ""⟩)) = some s ∧
    containsEdge "b" "b" s.gs = .ok true s.gs ∧ EG.clear s = .ub "remove_edge: edge removed twice" :=
  ⟨_, rfl, rfl, rfl⟩

end Verif
