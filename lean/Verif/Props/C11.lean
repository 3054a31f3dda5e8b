import Verif.Lemmas.NoSelf
import Verif.Spec.Demo
/-! # C11: setEdgeProperty updates both directions and nothing else -/

namespace Verif
open GS
variable {F E : Type} [FrameProp F] [EdgeProp E]

/-- After any history (tree views and self edges allowed), for `a ≠ b`: if `setEdgeProperty(a,b,p)` succeeds, `getEdgeProperty` gives
`p` for (a,b) and `p.inverse()` for (b,a), every other query is unchanged, frames and views are unchanged, and exactly one event
`EdgeModified(a,b)` with the two edges was published.  Missing for the full claim: `a = b`, for which it is false
(`C11_self_edge_fails`). -/
theorem C11_setEdgeProperty_partial (cs : List (Cmd F E)) (s : GS F E)
    (h : run cs init = some s) (a b : FrameId) (hne : a ≠ b) (p : E) (s' : GS F E) (hset : setEdgeProperty a b p s = .ok () s') :
    getEdgeProperty a b s' = .ok p s' ∧ getEdgeProperty b a s' = .ok (EdgeProp.inverse p) s' ∧
    (∀ x y, ¬ (x = a ∧ y = b) → ¬ (x = b ∧ y = a) → ∀ q, getEdgeProperty x y s' = .ok q s' ↔ getEdgeProperty x y s = .ok q s) ∧
    (∀ f, s'.g.vertexOf f = s.g.vertexOf f) ∧ s'.g.verts = s.g.verts ∧ s'.views = s.views ∧ s'.subs = s.subs ∧
    (∃ e1 e2, s'.trace.map Prod.fst = s.trace.map Prod.fst ++ [.edgeModified a b e1 e2] ∧
      (∃ r, getEdge a b s' = .ok r s' ∧ r.id = e1) ∧ (∃ r, getEdge b a s' = .ok r s' ∧ r.id = e2)) := by
  have hw : WF s.g := run_wf WF.empty h
  have hget : ∀ (t : GS F E) f f' q, getEdgeProperty f f' t = .ok q t ↔ absEdge t.g f f' = some q := by
    intro t f f' q
    unfold getEdgeProperty getEdge
    cases hf : t.g.vertexOf f with
    | none => simp [absEdge_none_left hf]
    | some u =>
      cases hf' : t.g.vertexOf f' with
      | none => simp [absEdge_none_right hf']
      | some v =>
        rw [absEdge_of hf hf']
        cases he : t.g.edge u v <;> simp [he]
  unfold setEdgeProperty at hset
  cases ha : s.g.vertexOf a with
  | none => simp [ha] at hset
  | some u =>
    cases hb : s.g.vertexOf b with
    | none => simp [ha, hb] at hset
    | some v =>
      cases he : s.g.edge u v with
      | none => simp [ha, hb, he] at hset
      | some e1 =>
        simp only [ha, hb, he] at hset
        cases h2 : (s.g.setProp e1.id p).edge v u with
        | none => simp [h2] at hset
        | some e2 =>
          simp only [h2, Res.ok.injEq, true_and] at hset
          have hg : s'.g = (s.g.setProp e1.id p).setProp e2.id (EdgeProp.inverse p) := by rw [← hset]; rfl
          have huv : u ≠ v := by
            rintro rfl
            exact hne (hw.vertexOf_inj ha hb)
          have habs := absEdge_setPair_ne hw huv ha hb he h2
          refine ⟨?_, ?_, ?_, ?_, ?_, ?_, ?_, ?_⟩
          · rw [hget, hg, habs]; simp
          · rw [hget, hg, habs]
            simp [Ne.symm hne]
          · intro x y c1 c2 q
            rw [hget, hget, hg, habs, if_neg c1, if_neg c2]
          · intro f; rw [hg]; rfl
          · rw [hg]; rfl
          · rw [← hset]; rfl
          · rw [← hset]; rfl
          · refine ⟨e1.id, e2.id, ?_, ?_, ?_⟩
            · rw [← hset]; simp [notify]
            · have hva : s'.g.vertexOf a = some u := by rw [hg]; exact ha
              have hvb : s'.g.vertexOf b = some v := by rw [hg]; exact hb
              unfold getEdge
              simp only [hva, hvb]
              rw [hg, G.edge_setProp, G.edge_setProp, he]
              refine ⟨_, rfl, ?_⟩
              dsimp only
              split
              · split <;> rfl
              · first | rfl | (split <;> rfl)
            · have hva : s'.g.vertexOf a = some u := by rw [hg]; exact ha
              have hvb : s'.g.vertexOf b = some v := by rw [hg]; exact hb
              unfold getEdge
              simp only [hva, hvb]
              rw [hg, G.edge_setProp, h2]
              refine ⟨_, rfl, ?_⟩
              dsimp only
              split <;> rfl

/-- the call succeeds on an edge given in the opposite direction, next to another edge -/
example : ∃ s s' : GS DemoFrame Int, run [.addEdge "a" "b" 1, .addEdge "b" "c" 2] init = some s ∧
    setEdgeProperty "b" "a" 9 s = .ok () s' ∧ getEdgeProperty "a" "b" s' = .ok (-9) s' ∧ getEdgeProperty "b" "c" s' = .ok 2 s' :=
  ⟨_, _, rfl, rfl, rfl, rfl⟩

/-- the same beside a self edge: its property stays -/
example : ∃ s s' : GS DemoFrame Int, run [.addEdge "a" "a" 4, .addEdge "b" "a" 1] init = some s ∧
    setEdgeProperty "a" "b" 9 s = .ok () s' ∧ getEdgeProperty "b" "a" s' = .ok (-9) s' ∧ getEdgeProperty "a" "a" s' = .ok 4 s' :=
  ⟨_, _, rfl, rfl, rfl, rfl⟩

/-- The claim is false for a self edge: after `setEdgeProperty(a,a,p)` the property is `p.inverse()`. -/
theorem C11_self_edge_fails : ∃ s s' : GS DemoFrame Int, run [.addEdge "a" "a" 1] init = some s ∧
    setEdgeProperty "a" "a" 9 s = .ok () s' ∧ getEdgeProperty "a" "a" s' = .ok (-9) s' :=
  ⟨_, _, rfl, rfl, rfl⟩

end Verif
