import Verif.Lemmas.TransformSelf
import Verif.Lemmas.PathLemmas
import Verif.Spec.DemoPose
/-! # C16, self edges: transforms by a view of a graph with self edges -/

namespace Verif
open GS
variable {F T : Type} [FrameProp F] [Group T]

/-- After any history, self edges included: on a consistent graph any view that is correct apart from self edges and contains the frames gives the
same transform. -/
theorem C16_by_view_with_self_edges (cs : List (Cmd F (Tf T))) (s : GS F (Tf T)) (h : run cs init = some s)
    (pose : FrameId → T) (hc : Consistent s pose) (a b : FrameId) (u : VId) (hu : getVertex a s = .ok u s)
    (hb : containsFrame b s = true) (hj : Joined s a b)
    (root : VId) (w : TreeView) (hv : IsTreeViewLoops s.g root w) (hin : w.vertexExists u = true) :
    getTransformView a b w s = .ok ⟨0, (pose a)⁻¹ * pose b⟩ s := by
  have hw : WF s.g := run_wf WF.empty h
  have hp : Paired s.g.ns := run_paired_ns h
  have ha := getVertex_ok hu
  obtain ⟨v, hb⟩ := Option.isSome_iff_exists.1 hb
  obtain ⟨l, hl⟩ := hj
  have hr := reach_ns (reach_of_path hl ha hb)
  have hv' : w.vertexExists v = true := (hv.view.span v).2 (((hv.view.span u).1 hin).trans hr)
  rcases getTransformView_intact_ns (w := w) hw hp hv.view.root_eq (hv.intact hp) hv.view.rank ha hb with ⟨-, t, l', h1, h2, -, h3⟩ | ⟨-, h1, -⟩
  · rw [h3, h2.pose hc h1.first h1.last]
  · exact absurd ⟨(hv.under_root hp).1 hin, (hv.under_root hp).1 hv'⟩ h1

/-- the middle frame of a chain has a self edge (its transform is the identity, so the graph is consistent); the view is made at that frame -/
example : (run [.addEdge "a" "b" ⟨1, tn 1⟩, .addEdge "b" "b" ⟨7, 1⟩, .addEdge "b" "c" ⟨2, sh 3⟩, .getTree "b" true 0]
      (init : GS DemoFrame (Tf DemoPose))).map
      (fun s => ((getTransformView "a" "c" (s.views 0) s).val?, (getTransform "a" "c" s).val?)) =
    some (some ⟨0, (1 : DemoPose)⁻¹ * tn (-2)⟩, some ⟨0, (1 : DemoPose)⁻¹ * tn (-2)⟩) := by decide +kernel

end Verif
