import Verif.Lemmas.PathLemmas
import Verif.Lemmas.TransformView
import Verif.Lemmas.Mirror
import Verif.Spec.DemoPose
/-! # C18: getTransform with a tree view never returns a wrong transform

True as long as the connections of the view exist (whether the view is up to date or not).  A connection that is missing in the
graph is skipped without any notice, see `C18_statement_fails`. -/

namespace Verif
open GS
variable {F T : Type} [FrameProp F] [Group T]

/-- Full statement: after any history, for every view object, a returned transform is the product of the current edge transforms
along a path from `a` to `b` in the view. -/
def C18_statement (F T : Type) [FrameProp F] [Group T] : Prop :=
  ∀ (cs : List (Cmd F (Tf T))) (s : GS F (Tf T)), (∀ a p, Cmd.addEdge a a p ∉ cs) → run cs init = some s →
    ∀ (q : Nat) (a b : FrameId) (r : Tf T), getTransformView a b (s.views q) s = .ok r s →
      ∃ l, IsPath (ViewConn s (s.views q)) a b l ∧ Along s l r.pose

/-- Any view that was correct for some graph (usually an earlier state of this one), whose connections are all still in the graph:
the call throws, or returns the product along a path in the view; every path from `a` to `b` in the view gives this product.
Transforms that were updated in the meantime are used with their current values.
Missing compared to `C18_statement`: views with connections that were removed from the graph. -/
theorem C18_view_transform_partial (cs : List (Cmd F (Tf T))) (hns : ∀ a p, Cmd.addEdge a a p ∉ cs) (s : GS F (Tf T))
    (h : run cs init = some s) (g0 : G F (Tf T)) (root : VId) (w : TreeView) (hw0 : IsTreeView g0 root w) (hi : w.Intact s.g)
    (a b : FrameId) :
    (∃ x, getTransformView a b w s = .throw x s) ∨
    ∃ t l, getTransformView a b w s = .ok ⟨0, t⟩ s ∧ IsPath (ViewConn s w) a b l ∧ Along s l t ∧
      ∀ l' t', IsPath (ViewConn s w) a b l' → Along s l' t' → t' = t := by
  have hw : WF s.g := run_wf WF.empty h
  have hp : Paired s.g := run_paired WF.empty Paired.empty h (noSelf_of hns)
  cases ha : s.g.vertexOf a with
  | none => exact Or.inl ⟨.unknownFrame a, by simp [getTransformView, ha]⟩
  | some u =>
    cases hb : s.g.vertexOf b with
    | none => exact Or.inl ⟨.unknownFrame b, by simp [getTransformView, ha, hb]⟩
    | some v =>
      rcases getTransformView_intact hw hp hw0.root_eq hi hw0.rank ha hb with ⟨-, t, l, h1, h2, h3, h4⟩ | ⟨-, -, x, h1⟩
      · exact Or.inr ⟨t, l, h4, h1, h2, h3⟩
      · exact Or.inl ⟨x, h1⟩

/-- a view that was made before an edge was added and another was updated: the old way with the new value -/
example : (run [.addEdge "a" "b" ⟨1, tn 1⟩, .addEdge "b" "c" ⟨2, sh 3⟩, .getTree "a" false 0, .addEdge "a" "c" ⟨3, sh 50⟩,
      .setEdge "a" "b" ⟨4, sh 2⟩] (init : GS DemoFrame (Tf DemoPose))).map (fun s => (getTransformView "a" "c" (s.views 0) s).val?) =
    some (some ⟨0, sh 5⟩) := by decide +kernel

/-- A view that is up to date gives a transform for exactly the pairs of frames in it (and for `a = b`). -/
theorem C18_up_to_date_view (cs : List (Cmd F (Tf T))) (hns : ∀ a p, Cmd.addEdge a a p ∉ cs) (s : GS F (Tf T))
    (h : run cs init = some s) (root : VId) (w : TreeView) (hv : IsTreeView s.g root w)
    (a b : FrameId) (u v : VId) (hu : getVertex a s = .ok u s) (hv' : getVertex b s = .ok v s) :
    (a = b ∨ (w.vertexExists u = true ∧ w.vertexExists v = true) →
      ∃ t l, getTransformView a b w s = .ok ⟨0, t⟩ s ∧ IsPath (ViewConn s w) a b l ∧ Along s l t) ∧
    (¬ (a = b ∨ (w.vertexExists u = true ∧ w.vertexExists v = true)) → ∃ x, getTransformView a b w s = .throw x s) := by
  have hw : WF s.g := run_wf WF.empty h
  have hp : Paired s.g := run_paired WF.empty Paired.empty h (noSelf_of hns)
  have ha := getVertex_ok hu
  have hb := getVertex_ok hv'
  have hab : u = v ↔ a = b := by
    constructor
    · rintro rfl; exact hw.vertexOf_inj ha hb
    · rintro rfl; rw [ha] at hb; exact Option.some.inj hb
  rw [hv.under_root hp, hv.under_root hp, ← hab]
  rcases getTransformView_intact hw hp hv.root_eq (hv.intact hp) hv.rank ha hb with ⟨h0, t, l, h1, h2, h3, h4⟩ | ⟨h0, h0', x, h1⟩
  · exact ⟨fun _ => ⟨t, l, h4, h1, h2⟩, fun hn => absurd h0 hn⟩
  · refine ⟨fun hh => ?_, fun _ => ⟨x, h1⟩⟩
    rcases hh with hh | hh
    · exact absurd hh h0
    · exact absurd hh h0'

/-- frames in the view, a frame outside of it, and the same frame outside of it twice -/
example : (run [.addEdge "a" "b" ⟨1, tn 1⟩, .addEdge "c" "d" ⟨2, sh 3⟩, .getTree "a" false 0] (init : GS DemoFrame (Tf DemoPose))).map
      (fun s => ((getTransformView "b" "a" (s.views 0) s).val?, (getTransformView "a" "c" (s.views 0) s).exn?,
        (getTransformView "c" "d" (s.views 0) s).val?, (getTransformView "c" "c" (s.views 0) s).val?)) =
    some (some ⟨0, tn 1⟩, some (.runtimeError "not in the tree"), none, some ⟨0, 1⟩) := by decide +kernel

omit [FrameProp F] in
/-- unknown frames -/
theorem C18_unknown_frames (s : GS F (Tf T)) (w : TreeView) (a b : FrameId) :
    (containsFrame a s = false → getTransformView a b w s = .throw (.unknownFrame a) s) ∧
    (containsFrame a s = true → containsFrame b s = false → getTransformView a b w s = .throw (.unknownFrame b) s) := by
  unfold containsFrame getTransformView
  cases ha : s.g.vertexOf a <;> cases hb : s.g.vertexOf b <;> simp

example : (run [.addEdge "a" "b" ⟨1, tn 1⟩, .getTree "a" false 0] (init : GS DemoFrame (Tf DemoPose))).map
      (fun s => ((getTransformView "x" "y" (s.views 0) s).exn?, (getTransformView "a" "y" (s.views 0) s).exn?)) =
    some (some (.unknownFrame "x"), some (.unknownFrame "y")) := by decide +kernel

/-- The full statement is false: a view that is not subscribed keeps a removed connection, and the transform over it is returned
as if the missing edge were the identity. -/
theorem C18_statement_fails : ¬ C18_statement DemoFrame DemoPose := by
  intro H
  have hw : ∃ s : GS DemoFrame (Tf DemoPose),
      run [.addEdge "a" "b" ⟨1, tn 1⟩, .getTree "a" false 0, .removeEdge "a" "b"] init = some s ∧
      s.g.edges = [] ∧ getTransformView "a" "b" (s.views 0) s = .ok ⟨0, 1⟩ s := ⟨_, rfl, rfl, rfl⟩
  obtain ⟨s, h1, h2, h3⟩ := hw
  obtain ⟨l, hl, ht⟩ := H _ s (by simp; rintro _ _ rfl hh; exact absurd hh (by decide)) h1 0 "a" "b" _ h3
  exact (Joined.edges ⟨l, hl.first, hl.last, ht.isPath.2⟩ (by decide)).1 h2

/-- a view with root `b`; after an update of a transform the view (not subscribed) gives the new value -/
example :
    (run [.addEdge "a" "b" ⟨1, tn 1⟩, .addEdge "b" "c" ⟨2, sh 3⟩, .addEdge "c" "d" ⟨3, tn 2⟩, .addFrame "e", .getTree "b" false 0,
      .addEdge "a" "d" ⟨3, sh 100⟩, .setEdge "c" "b" ⟨7, sh 5⟩] (init : GS DemoFrame (Tf DemoPose))).map (fun s =>
        ((getTransformView "a" "d" (s.views 0) s).val?, (getTransformView "d" "a" (s.views 0) s).val?,
          (getTransformView "a" "e" (s.views 0) s).exn?, (getTransformView "e" "e" (s.views 0) s).val?)) =
    some (some ⟨0, sh 4⟩, some ⟨0, sh (-4)⟩, some (.runtimeError "not in the tree"), some ⟨0, 1⟩) := by decide +kernel

/-- the view of the chain a-b-c-d is not kept up to date; after the removal of b-c the call from d to a gives the product of the
connections that are left -/
example :
    (run [.addEdge "a" "b" ⟨1, tn 1⟩, .addEdge "b" "c" ⟨2, sh 3⟩, .addEdge "c" "d" ⟨3, sh 2⟩, .getTree "a" false 0,
      .removeEdge "b" "c"] (init : GS DemoFrame (Tf DemoPose))).map (fun s =>
        ((getTransformView "d" "a" (s.views 0) s).val?.map (·.pose), (getTransformView "c" "a" (s.views 0) s).val?.map (·.pose),
          (getTransformView "d" "c" (s.views 0) s).val?.map (·.pose))) =
    some (some ((sh 2)⁻¹ * (tn 1)⁻¹), some (tn 1)⁻¹, some (sh 2)⁻¹) := by decide +kernel

end Verif
