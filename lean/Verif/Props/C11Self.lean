import Verif.Lemmas.SelfEdge
import Verif.Spec.Demo
set_option linter.unusedSectionVars false
/-! # C11, self edges: setEdgeProperty writes the inverse -/

namespace Verif
open GS
variable {F E : Type} [FrameProp F] [EdgeProp E]

/-- In every state: after a successful `setEdgeProperty(a,a,p)` the property of the edge from `a` to `a` is the inverse of `p`, because
the inverse edge that is written second is the same edge.  So for `a = b` the claim C11 holds exactly for the properties that are their
own inverse. -/
theorem C11_self_edge_always (s s' : GS F E) (a : FrameId) (p : E) (h : setEdgeProperty a a p s = .ok () s') :
    getEdgeProperty a a s' = .ok (EdgeProp.inverse p) s' ∧
    (getEdgeProperty a a s' = .ok p s' ↔ EdgeProp.inverse p = p) := by
  have main : getEdgeProperty a a s' = .ok (EdgeProp.inverse p) s' := by
    unfold setEdgeProperty at h
    cases ha : s.g.vertexOf a with
    | none => simp [ha] at h
    | some u =>
      cases he : s.g.edge u u with
      | none => simp [ha, he] at h
      | some e =>
        simp only [ha, he, G.edge_setProp, Option.map_some, if_true] at h
        simp only [Res.ok.injEq, true_and] at h
        subst h
        have h1 : ((s.g.setProp e.id p).setProp e.id (EdgeProp.inverse p)).edge u u =
            some { e with prop := EdgeProp.inverse p } := by
          rw [G.edge_setProp, G.edge_setProp, he]
          simp
        have h2 : ((s.g.setProp e.id p).setProp e.id (EdgeProp.inverse p)).vertexOf a = some u := ha
        simp only [getEdgeProperty, getEdge, notify, h2, h1]
  refine ⟨main, ?_⟩
  rw [main]
  simp

/-- such a call on a graph with other edges, next to a view -/
example : ∃ s s' : GS DemoFrame Int, run [.addEdge "a" "b" 1, .addEdge "b" "b" 2, .getTree "a" false 0] init = some s ∧
    setEdgeProperty "b" "b" 5 s = .ok () s' ∧ getEdgeProperty "b" "b" s' = .ok (-5) s' ∧ getEdgeProperty "a" "b" s' = .ok 1 s' :=
  ⟨_, _, rfl, rfl, rfl, rfl⟩

end Verif
