import Verif.Lemmas.SimViews
import Verif.Spec.Demo
/-! # C04: the graph behaves like a set of frames plus a map of edges -/

namespace Verif
open GS
variable {F E : Type} [FrameProp F] [EdgeProp E]

/-- every query answers as the abstract graph `A` says -/
def C04_answers (s : GS F E) (A : AGraph E) : Prop :=
      (∀ f, containsFrame f s = true ↔ f ∈ A.frames) ∧
      (∀ a b, containsEdge a b s =
        if a ∉ A.frames then .throw (.unknownFrame a) s
        else if b ∉ A.frames then .throw (.unknownFrame b) s
        else .ok (A.edges a b).isSome s) ∧
      (∀ a b, getEdgeProperty a b s =
        if a ∉ A.frames then .throw (.unknownFrame a) s
        else if b ∉ A.frames then .throw (.unknownFrame b) s
        else match A.edges a b with
          | none => .throw (.unknownEdge a b) s
          | some p => .ok p s) ∧
      numVertices s = A.frames.card ∧ numEdges s = A.pairs.card

private theorem answers {s : GS F E} {A : AGraph E} (hsim : Sim s.bare A) : C04_answers s A := by
  have hv1 : ∀ {f}, f ∈ A.frames → ∃ v, s.g.vertexOf f = some v := fun hf => hsim.vertex_some hf
  have hv0 : ∀ {f}, f ∉ A.frames → s.g.vertexOf f = none := fun hf => hsim.vertex_none hf
  have hed : ∀ a b, absEdge s.g a b = A.edges a b := hsim.edges
  refine ⟨fun f => hsim.frames f, ?_, ?_, hsim.numVertices, hsim.numEdges⟩
  · intro a b
    by_cases ha : a ∈ A.frames
    · obtain ⟨u, hu⟩ := hv1 ha
      by_cases hb : b ∈ A.frames
      · obtain ⟨v, hv⟩ := hv1 hb
        simp only [ha, hb, not_true_eq_false, if_false, containsEdge, hu, hv]
        rw [← hed, absEdge_of hu hv]
        simp
      · simp only [ha, hb, not_true_eq_false, not_false_eq_true, if_false, if_true, containsEdge, hu, hv0 hb]
    · simp only [ha, not_false_eq_true, if_true, containsEdge, hv0 ha]
  · intro a b
    by_cases ha : a ∈ A.frames
    · obtain ⟨u, hu⟩ := hv1 ha
      by_cases hb : b ∈ A.frames
      · obtain ⟨v, hv⟩ := hv1 hb
        simp only [ha, hb, not_true_eq_false, if_false, getEdgeProperty, getEdge, hu, hv]
        rw [← hed, absEdge_of hu hv]
        cases s.g.edge u v <;> rfl
      · simp only [ha, hb, not_true_eq_false, not_false_eq_true, if_false, if_true, getEdgeProperty, getEdge, hu,
          hv0 hb]
    · simp only [ha, not_false_eq_true, if_true, getEdgeProperty, getEdge, hv0 ha]


/-- Missing compared to C04: subscribed tree views, see `C04_subscribed_view_fails` and the next theorems.  For every history without self
edges and subscribed views (`plain`) no call is undefined behaviour, each call ends as the abstract machine says, and
afterwards every query answers as the abstract graph says. -/
theorem C04_refines_abstract_graph_partial (cs : List (Cmd F E)) (hcs : ∀ c ∈ cs, c.plain) :
    ∃ s, outcomes cs init = some ((AGraph.empty.run cs).1, s) ∧ run cs init = some s ∧ C04_answers s (AGraph.empty.run cs).2 := by
  obtain ⟨s, h1, hsim, h2⟩ := Sim.outcomes hcs (Sim.init (F := F) (E := E))
  exact ⟨s, h1, h2, answers (hsim.of_g rfl)⟩

/-- Missing compared to C04: cycles, see `C04_subscribed_view_fails`.  With any subscribed views, but without cycles, again no call is undefined behaviour and every call and every query behaves as the
abstract machine says. -/
theorem C04_tree_history_partial (cs : List (Cmd F E)) (ht : TreeHistory cs (init : GS F E)) :
    ∃ s, outcomes cs init = some ((AGraph.empty.run cs).1, s) ∧ run cs init = some s ∧ C04_answers s (AGraph.empty.run cs).2 := by
  obtain ⟨s, S, h1, h2, h3⟩ := SimV.tree_outcomes TreeInv.init SimV.init ht
  exact ⟨s, h1, h2, answers h3.sim⟩

/-- a history without cycles: a view of the chain a-b-c, a removal and an exception -/
example : TreeHistory [.addEdge "a" "b" 1, .addEdge "b" "c" 2, .getTree "a" true 0, .removeEdge "b" "c", .removeEdge "b" "c",
      .addEdge "b" "d" 4] (init : GS DemoFrame Int) ∧
    (outcomes [.addEdge "a" "b" 1, .addEdge "b" "c" 2, .getTree "a" true 0, .removeEdge "b" "c", .removeEdge "b" "c",
      .addEdge "b" "d" 4] (init : GS DemoFrame Int)).map (fun r => (r.1, r.2.subs, numVertices r.2, numEdges r.2)) =
      some ([none, none, none, none, some (.unknownEdge "b" "c"), none], [0], 4, 4) :=
  ⟨⟨⟨by decide, Or.inr (noPath_new (by decide) rfl)⟩, ⟨by decide, Or.inr (noPath_new (by decide) rfl)⟩, rfl, trivial, trivial,
    ⟨by decide, Or.inr (noPath_new (by decide) rfl)⟩, trivial⟩, by decide⟩

/-- Missing compared to C04: see `C04_subscribed_view_fails`.  With any subscribed views and any graph without self edges, as long as no call was undefined behaviour: the only difference to the
abstract machine is that `remove_edge` and `disconnectFrame` can throw a `runtime_error` while a view is subscribed; then `remove_edge`
has removed the edge nevertheless, and `disconnectFrame` at least one of the edges.  All queries always answer consistently. -/
theorem C04_with_views_partial (cs : List (Cmd F E)) (hcs : ∀ a p, Cmd.addEdge a a p ∉ cs) {xs : List (Option Exn)} {s : GS F E}
    (h : outcomes cs init = some (xs, s)) : ∃ A S, AGraph.empty.RunV ∅ cs xs A S ∧ C04_answers s A ∧ ∀ p, p ∈ s.subs ↔ p ∈ S := by
  have hl : ∀ c ∈ cs, c.noLoop := by
    intro c hc
    cases c <;> first | trivial | (rintro rfl; exact hcs _ _ hc)
  obtain ⟨A, S, h1, h2⟩ := SimV.outcomes hl SimV.init h
  exact ⟨A, S, h1, answers h2.sim, h2.subs⟩

/-- the triangle a-b-c with a view: both kinds of failing removals -/
example : (outcomes [.addEdge "a" "b" 1, .addEdge "b" "c" 2, .addEdge "c" "a" 3, .getTree "a" true 0, .removeEdge "a" "b"]
      (init : GS DemoFrame Int)).map (fun r => (r.1, numEdges r.2)) =
      some ([none, none, none, none, some (.runtimeError "NOT IMPLEMENTED")], 4) ∧
    (outcomes [.addEdge "a" "b" 1, .addEdge "b" "c" 2, .addEdge "c" "a" 3, .getTree "a" true 0, .disconnectFrame "b"]
      (init : GS DemoFrame Int)).map (fun r => (r.1, numEdges r.2)) =
      some ([none, none, none, none, some (.runtimeError "NOT IMPLEMENTED")], 4) := by decide

/-- a history in which every kind of call succeeds and every kind of exception occurs -/
def C04_demo : List (Cmd DemoFrame Int) :=
  [.addFrame "a", .emplaceFrame "b" ⟨"", 3⟩, .addEdge "a" "b" 1, .addEdge "a" "c" 2, .addEdge "b" "a" 4, .setEdge "c" "a" 5,
   .setEdge "c" "b" 5, .removeFrame "a", .removeEdge "a" "b", .removeEdge "a" "b", .removeEdge "a" "z", .disconnectFrame "c",
   .disconnectFrame "z", .removeFrame "a", .addFrame "b", .unsubscribeView 0, .getTree "c" false 0]

example : ∀ c ∈ C04_demo, c.plain := by simp [C04_demo, Cmd.plain]

example : (outcomes C04_demo init).map (fun r => (r.1, numVertices r.2, numEdges r.2)) = some
    ([none, none, none, none, some (.edgeAlreadyExists "b" "a"), none, some (.unknownEdge "c" "b"),
      some (.frameStillConnected "a"), none, some (.unknownEdge "a" "b"), some (.unknownFrame "z"), none,
      some (.unknownFrame "z"), none, some (.frameAlreadyExists "b"), none, none], 2, 0) := by decide

/-- With a subscribed tree view the outcome of `remove_edge` can differ from the abstract machine: it throws after the edge
was removed. -/
theorem C04_subscribed_view_fails : ∃ s s' : GS DemoFrame Int,
    run [.addEdge "a" "b" 1, .addEdge "b" "c" 2, .addEdge "c" "a" 3, .getTree "a" true 0] init = some s ∧
    removeEdge "a" "b" s = .throw (.runtimeError "NOT IMPLEMENTED") s' ∧ containsEdge "a" "b" s' = .ok false s' :=
  ⟨_, _, rfl, rfl, rfl⟩

/-- when `remove_edge` throws, the removal has been announced, and the view is still subscribed -/
example : (outcomes [.addEdge "a" "b" 1, .addEdge "b" "c" 2, .addEdge "c" "a" 3, .getTree "a" true 0, .removeEdge "a" "b"]
      (init : GS DemoFrame Int)).map (fun r => ((r.2.trace.map Prod.fst).drop 6, r.2.subs)) = some ([.edgeRemoved "a" "b"], [0]) := by decide

end Verif
