import Verif.Props.C12
set_option linter.unusedSectionVars false
/-! # C12: what every handler of EdgeRemoved sees -/

namespace Verif
open GS
variable {F E : Type} [FrameProp F] [EdgeProp E]

/-- For every history, self edges included: whenever `EdgeRemoved(a,b)` is published the opposite edge from `b` to `a` is still in the
graph.  So the part of C12 about the opposite direction is false for every removed edge, not only in
`C12_inverse_edge_still_there`. -/
theorem C12_inverse_edge_always_there (cs : List (Cmd F E)) (s : GS F E) (h : run cs init = some s) (x : Event × G F E)
    (hx : x ∈ s.trace) (a b : FrameId) (he : x.1 = .edgeRemoved a b) :
    containsEdge b a (asSeen x.2) = .ok true (asSeen x.2) := by
  obtain ⟨l, h1, h2⟩ := run_advances WF.empty h
  have hl : s.trace = l := by rw [h2]; rfl
  rw [hl] at hx
  have main : ∀ {P : G F E → Event → Prop} {g g' : G F E} {l : List (Event × G F E)}, GSteps P g l g' → WF g → x ∈ l →
      containsEdge b a (asSeen x.2) = .ok true (asSeen x.2) := by
    intro P g g' l hs
    induction hs with
    | nil => intro _ hx; cases hx
    | @cons g g' g'' y l hs hP _ ih =>
      intro hw hy
      rcases List.mem_cons.1 hy with rfl | hy
      · cases hs with
        | @rmE g1 _ a' b' u v e1 e2 ha hb k1 k2 hg1 hg2 =>
          cases he
          obtain ⟨-, rfl⟩ := G.removeEdge_some hg1
          obtain ⟨⟨r, hr, hr2⟩, -⟩ := G.removeEdge_some hg2
          obtain ⟨m2, s2, t2⟩ := G.edge_some k2
          have hr1 := hr
          simp only [List.mem_filter, decide_eq_true_eq] at hr1
          obtain rfl := map_inj_of_nodup hw.enodup hr1.1 m2 hr2
          have hs : (G.edge { g with edges := g.edges.filter (fun r => r.id ≠ e1.id) } v u).isSome :=
            G.edge_isSome.2 ⟨r, hr, s2, t2⟩
          have hva : G.vertexOf { g with edges := g.edges.filter (fun r => r.id ≠ e1.id) } a = some u := ha
          have hvb : G.vertexOf { g with edges := g.edges.filter (fun r => r.id ≠ e1.id) } b = some v := hb
          simp only [containsEdge, asSeen, hva, hvb, hs]
        | _ => cases he
      · exact ih (hs.wf hw) hy
  exact main h1 WF.empty hx

/-- `disconnectFrame` of a frame with two edges publishes two such events; the handler of the second one sees one edge less -/
example : ∃ s : GS DemoFrame Int, run [.addEdge "a" "b" 1, .addEdge "a" "c" 2, .disconnectFrame "a"] init = some s ∧
    (s.trace.filter (fun x => match x.1 with | .edgeRemoved .. => true | _ => false)).map
      (fun x => (x.1, x.2.edges.length, ((containsEdge "b" "a" (asSeen x.2)).val?, (containsEdge "c" "a" (asSeen x.2)).val?))) =
      [(.edgeRemoved "a" "b", 3, some true, some true), (.edgeRemoved "a" "c", 1, some false, some true)] :=
  ⟨_, rfl, rfl⟩

end Verif
