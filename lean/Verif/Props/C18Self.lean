import Verif.Lemmas.TransformSelf
import Verif.Spec.DemoPose
/-! # C18, self edges: transforms over views of graphs with self edges -/

namespace Verif
open GS
variable {F T : Type} [FrameProp F] [Group T]

/-- After any history, self edges included.  Any view that was correct apart from self edges for some graph and whose connections are all still in
the graph: the call throws, or returns the product along a path in the view; every path from `a` to `b` in the view gives this product.
Missing compared to `C18_statement`: views with connections that were removed from the graph. -/
theorem C18_with_self_edges_partial (cs : List (Cmd F (Tf T))) (s : GS F (Tf T)) (h : run cs init = some s)
    (g0 : G F (Tf T)) (root : VId) (w : TreeView) (hw0 : IsTreeViewLoops g0 root w) (hi : w.Intact s.g) (a b : FrameId) :
    (∃ x, getTransformView a b w s = .throw x s) ∨
    ∃ t l, getTransformView a b w s = .ok ⟨0, t⟩ s ∧ IsPath (ViewConn s w) a b l ∧ Along s l t ∧
      ∀ l' t', IsPath (ViewConn s w) a b l' → Along s l' t' → t' = t := by
  have hw : WF s.g := run_wf WF.empty h
  have hp : Paired s.g.ns := run_paired_ns h
  cases ha : s.g.vertexOf a with
  | none => exact Or.inl ⟨.unknownFrame a, by simp [getTransformView, ha]⟩
  | some u =>
    cases hb : s.g.vertexOf b with
    | none => exact Or.inl ⟨.unknownFrame b, by simp [getTransformView, ha, hb]⟩
    | some v =>
      rcases getTransformView_intact_ns (w := w) hw hp hw0.view.root_eq hi hw0.view.rank ha hb with ⟨-, t, l, h1, h2, h3, h4⟩ | ⟨-, -, x, h1⟩
      · exact Or.inr ⟨t, l, h4, h1, h2, h3⟩
      · exact Or.inl ⟨x, h1⟩

/-- a view that was made before two self edges came and a transform was updated: the self edges have no influence -/
example : (run [.addEdge "a" "b" ⟨1, tn 1⟩, .addEdge "b" "c" ⟨2, sh 3⟩, .getTree "a" false 0, .addEdge "b" "b" ⟨3, sh 50⟩,
      .addEdge "a" "a" ⟨3, tn 7⟩, .setEdge "a" "b" ⟨4, sh 2⟩] (init : GS DemoFrame (Tf DemoPose))).map
        (fun s => (getTransformView "a" "c" (s.views 0) s).val?) =
    some (some ⟨0, sh 5⟩) := by decide +kernel

/-- A view that is correct apart from self edges gives a transform for exactly the pairs of frames in it (and for `a = b`). -/
theorem C18_up_to_date_with_self_edges (cs : List (Cmd F (Tf T))) (s : GS F (Tf T))
    (h : run cs init = some s) (root : VId) (w : TreeView) (hv : IsTreeViewLoops s.g root w)
    (a b : FrameId) (u v : VId) (hu : getVertex a s = .ok u s) (hv' : getVertex b s = .ok v s) :
    (a = b ∨ (w.vertexExists u = true ∧ w.vertexExists v = true) →
      ∃ t l, getTransformView a b w s = .ok ⟨0, t⟩ s ∧ IsPath (ViewConn s w) a b l ∧ Along s l t) ∧
    (¬ (a = b ∨ (w.vertexExists u = true ∧ w.vertexExists v = true)) → ∃ x, getTransformView a b w s = .throw x s) := by
  have hw : WF s.g := run_wf WF.empty h
  have hp : Paired s.g.ns := run_paired_ns h
  have ha := getVertex_ok hu
  have hb := getVertex_ok hv'
  have hab : u = v ↔ a = b := by
    constructor
    · rintro rfl; exact hw.vertexOf_inj ha hb
    · rintro rfl; rw [ha] at hb; exact Option.some.inj hb
  rw [hv.under_root hp, hv.under_root hp, ← hab]
  rcases getTransformView_intact_ns (w := w) hw hp hv.view.root_eq (hv.intact hp) hv.view.rank ha hb with ⟨h0, t, l, h1, h2, h3, h4⟩ | ⟨h0, h0', x, h1⟩
  · exact ⟨fun _ => ⟨t, l, h4, h1, h2⟩, fun hn => absurd h0 hn⟩
  · refine ⟨fun hh => ?_, fun _ => ⟨x, h1⟩⟩
    rcases hh with hh | hh
    · exact absurd hh h0
    · exact absurd hh h0'

/-- The view of a frame with a self edge.  A frame with itself gives the identity over the view (not the transform of the self edge, which
`getTransform` without the view returns); a frame outside the view gives an exception. -/
example : (run [.addEdge "a" "a" ⟨3, tn 7⟩, .addEdge "a" "b" ⟨1, sh 3⟩, .addFrame "c", .getTree "a" true 0]
      (init : GS DemoFrame (Tf DemoPose))).map (fun s =>
        ((getTransformView "a" "b" (s.views 0) s).val?, (getTransformView "a" "a" (s.views 0) s).val?, (getTransform "a" "a" s).val?,
          (getTransformView "a" "c" (s.views 0) s).val?)) =
    some (some ⟨0, sh 3⟩, some ⟨0, 1⟩, some ⟨3, tn 7⟩, none) := by decide +kernel

end Verif
