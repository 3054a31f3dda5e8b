import Verif.Lemmas.SimLoops
import Verif.Spec.Demo
/-! # C04 for graphs with self edges -/

namespace Verif
open GS
variable {F E : Type} [FrameProp F] [EdgeProp E]

/-- every query answers as the abstract graph `A` says; a self edge counts twice -/
def C04_answers_loops (s : GS F E) (A : AGraph E) : Prop :=
      (∀ f, containsFrame f s = true ↔ f ∈ A.frames) ∧
      (∀ a b, containsEdge a b s =
        if a ∉ A.frames then .throw (.unknownFrame a) s
        else if b ∉ A.frames then .throw (.unknownFrame b) s
        else .ok (A.edges a b).isSome s) ∧
      (∀ a b, getEdgeProperty a b s =
        if a ∉ A.frames then .throw (.unknownFrame a) s
        else if b ∉ A.frames then .throw (.unknownFrame b) s
        else match A.edges a b with
          | none => .throw (.unknownEdge a b) s
          | some p => .ok p s) ∧
      numVertices s = A.frames.card ∧ numEdges s = A.pairs.card + A.loops.card

private theorem answers_loops {s : GS F E} {A : AGraph E} {S : Finset Nat} (h : SimL s A S) : C04_answers_loops s A := by
  have hv1 : ∀ {f}, f ∈ A.frames → ∃ v, s.g.vertexOf f = some v := fun hf => h.rep.vertex_some hf
  have hv0 : ∀ {f}, f ∉ A.frames → s.g.vertexOf f = none := fun hf => h.rep.vertex_none hf
  refine ⟨fun f => h.rep.frames f, ?_, ?_, h.rep.numVertices h.wf, h.rep.numEdges h.wf h.paired h.two⟩
  · intro a b
    by_cases ha : a ∈ A.frames
    · obtain ⟨u, hu⟩ := hv1 ha
      by_cases hb : b ∈ A.frames
      · obtain ⟨v, hv⟩ := hv1 hb
        simp only [ha, hb, not_true_eq_false, if_false, containsEdge, hu, hv]
        rw [← h.rep.edges, absEdge_of hu hv]
        simp
      · simp only [ha, hb, not_true_eq_false, not_false_eq_true, if_false, if_true, containsEdge, hu, hv0 hb]
    · simp only [ha, not_false_eq_true, if_true, containsEdge, hv0 ha]
  · intro a b
    by_cases ha : a ∈ A.frames
    · obtain ⟨u, hu⟩ := hv1 ha
      by_cases hb : b ∈ A.frames
      · obtain ⟨v, hv⟩ := hv1 hb
        simp only [ha, hb, not_true_eq_false, if_false, getEdgeProperty, getEdge, hu, hv]
        rw [← h.rep.edges, absEdge_of hu hv]
        cases s.g.edge u v <;> rfl
      · simp only [ha, hb, not_true_eq_false, not_false_eq_true, if_false, if_true, getEdgeProperty, getEdge, hu,
          hv0 hb]
    · simp only [ha, not_false_eq_true, if_true, getEdgeProperty, getEdge, hv0 ha]

/-- Missing compared to C04: see `C04_self_edge_fails` and `C04_subscribed_view_fails`.  For every history, self edges and subscribed views
included, as long as no call was undefined behaviour: the differences to the abstract machine are those in `AGraph.StepL`; writing to a
self edge stores the inverse, a self edge is never removed and counts as two edges.  While no view is subscribed, a further call
is undefined behaviour exactly if it is to remove a self edge. -/
theorem C04_with_self_edges_partial (cs : List (Cmd F E)) {xs : List (Option Exn)} {s : GS F E} (h : outcomes cs init = some (xs, s)) :
    ∃ A S, AGraph.empty.RunL ∅ cs xs A S ∧ C04_answers_loops s A ∧ (∀ p, p ∈ s.subs ↔ p ∈ S) ∧
      (S = ∅ → ∀ c : Cmd F E, (∀ f p, c ≠ .getTree f true p) → ((∃ m, exec c s = .ub m) ↔ A.removesLoop c)) := by
  obtain ⟨A, S, h1, h2⟩ := SimL.outcomes SimL.init h
  refine ⟨A, S, h1, answers_loops h2, h2.subs, ?_⟩
  rintro rfl c hc
  refine h2.rep.exec_ub_iff h2.wf h2.paired ?_ hc
  rw [List.eq_nil_iff_forall_not_mem]
  intro p hp
  simpa using (h2.subs p).1 hp

/-- a self edge at `a`: it is announced and stored, a second one is refused, a new property is stored as its inverse, the frame cannot be
removed, both edges count, other edges of the frame can be removed, and the removal of the self edge is undefined behaviour -/
example : (outcomes [.addEdge "a" "a" 1, .addEdge "a" "a" 2, .setEdge "a" "a" 5, .addEdge "a" "b" 3, .removeFrame "a", .removeEdge "a" "b"]
      (init : GS DemoFrame Int)).map (fun r => (r.1, absEdge r.2.g "a" "a", numVertices r.2, numEdges r.2)) =
      some ([none, some (.edgeAlreadyExists "a" "a"), none, none, some (.frameStillConnected "a"), none], some (-5), 2, 2) ∧
    (outcomes [.addEdge "a" "a" 1, .addEdge "a" "b" 3] (init : GS DemoFrame Int)).map (fun r => [Cmd.removeEdge "a" "a", .disconnectFrame "a",
        .removeEdge "b" "a", .disconnectFrame "b"].map (fun c => (exec c r.2).st?.isNone)) =
      some [true, true, false, false] := by decide +kernel

/-- With self edges the statement of C04 fails without any view: the property read back is not the one written, one connection counts as
two edges, and its removal is undefined behaviour. -/
theorem C04_self_edge_fails : ∃ s s' : GS DemoFrame Int,
    run [.addEdge "a" "a" 1] init = some s ∧ numEdges s = 2 ∧ (∃ m, removeEdge "a" "a" s = .ub m) ∧
    setEdgeProperty "a" "a" 5 s = .ok () s' ∧ getEdgeProperty "a" "a" s' = .ok (-5) s' :=
  ⟨_, _, rfl, rfl, ⟨_, rfl⟩, rfl, rfl⟩

/-- with a view from `b` of the triangle a-b-c and a self edge at `b`: removing all edges of `b` throws before it gets to the self edge -/
example : (outcomes [.addEdge "a" "b" 1, .addEdge "b" "c" 2, .addEdge "c" "a" 3, .addEdge "b" "b" 4, .getTree "b" true 0, .disconnectFrame "b"]
      (init : GS DemoFrame Int)).map (fun r => (r.1, absEdge r.2.g "b" "b", numEdges r.2)) =
      some ([none, none, none, none, none, some (.runtimeError "NOT IMPLEMENTED")], some 4, 6) := by decide +kernel

end Verif
