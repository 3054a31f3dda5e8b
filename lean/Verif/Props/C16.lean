import Verif.Lemmas.PathLemmas
import Verif.Lemmas.TransformView
import Verif.Lemmas.Mirror
import Verif.Spec.DemoPose
/-! # C16: all ways of asking for a transform agree on consistent graphs -/

namespace Verif
open GS
variable {F T : Type} [FrameProp F] [Group T]

/-- by frames -/
theorem C16_by_frames (cs : List (Cmd F (Tf T))) (s : GS F (Tf T)) (h : run cs init = some s) (pose : FrameId → T)
    (hc : Consistent s pose) (a b : FrameId) (ha : containsFrame a s = true) (hj : Joined s a b) (hab : a ≠ b ∨ 0 < numEdges s) :
    ∃ r, getTransform a b s = .ok r s ∧ r.pose = (pose a)⁻¹ * pose b := by
  have hw : WF s.g := run_wf WF.empty h
  rcases getTransform_total hw a b with ⟨r, h1, l, h2, h3⟩ | ⟨x, h1, h2⟩
  · exact ⟨r, h1, h3.pose hc h2.first h2.last⟩
  · by_cases hne : a = b
    · subst hne
      obtain ⟨u, hu⟩ := Option.isSome_iff_exists.1 ha
      rcases getTransform_eq hw hu hu with ⟨h0, -⟩ | ⟨p, -, k⟩ | ⟨-, -, k, -⟩ | ⟨-, -, l, t, -, -, -, k⟩
      · rcases hab with hab | hab
        · exact absurd rfl hab
        · simp [numEdges, h0] at hab
      · rw [k] at h1; cases h1
      · exact absurd hj k
      · rw [k] at h1; cases h1
    · exact absurd hj (h2 hne)

/-- the chain a-b-c is consistent with these poses; both directions -/
example : ∃ s : GS DemoFrame (Tf DemoPose), run [.addEdge "a" "b" ⟨1, tn 1⟩, .addEdge "b" "c" ⟨2, sh 3⟩] init = some s ∧
    getTransform "a" "c" s = .ok ⟨0, (1 : DemoPose)⁻¹ * tn (-2)⟩ s ∧ getTransform "c" "a" s = .ok ⟨0, (tn (-2) : DemoPose)⁻¹ * 1⟩ s :=
  ⟨_, rfl, rfl, rfl⟩

/-- by any correct tree view of the graph that contains the frames -/
theorem C16_by_view (cs : List (Cmd F (Tf T))) (hns : ∀ a p, Cmd.addEdge a a p ∉ cs) (s : GS F (Tf T)) (h : run cs init = some s)
    (pose : FrameId → T) (hc : Consistent s pose) (a b : FrameId) (u : VId) (hu : getVertex a s = .ok u s)
    (hb : containsFrame b s = true) (hj : Joined s a b)
    (root : VId) (w : TreeView) (hv : IsTreeView s.g root w) (hin : w.vertexExists u = true) :
    getTransformView a b w s = .ok ⟨0, (pose a)⁻¹ * pose b⟩ s := by
  have hw : WF s.g := run_wf WF.empty h
  have hp : Paired s.g := run_paired WF.empty Paired.empty h (noSelf_of hns)
  have ha := getVertex_ok hu
  obtain ⟨v, hb⟩ := Option.isSome_iff_exists.1 hb
  obtain ⟨l, hl⟩ := hj
  have hr := reach_of_path hl ha hb
  have hv' : w.vertexExists v = true := (hv.span v).2 (((hv.span u).1 hin).trans hr)
  rcases getTransformView_intact hw hp hv.root_eq (hv.intact hp) hv.rank ha hb with ⟨-, t, l', h1, h2, -, h3⟩ | ⟨-, h1, -⟩
  · rw [h3, h2.pose hc h1.first h1.last]
  · exact absurd ⟨(hv.under_root hp).1 hin, (hv.under_root hp).1 hv'⟩ h1

/-- the same by a view from the middle -/
example : (run [.addEdge "a" "b" ⟨1, tn 1⟩, .addEdge "b" "c" ⟨2, sh 3⟩, .getTree "b" true 0] (init : GS DemoFrame (Tf DemoPose))).map
      (fun s => ((getTransformView "a" "c" (s.views 0) s).val?, (getTransformView "c" "a" (s.views 0) s).val?)) =
    some (some ⟨0, (1 : DemoPose)⁻¹ * tn (-2)⟩, some ⟨0, (tn (-2) : DemoPose)⁻¹ * 1⟩) := by decide +kernel

/-- by a path: any result is right, and there is one if the path is valid or dirty -/
theorem C16_by_path (cs : List (Cmd F (Tf T))) (s : GS F (Tf T)) (h : run cs init = some s) (pose : FrameId → T)
    (hc : Consistent s pose) (p : Path) (a b : FrameId) (ha : p.frames.head? = some a) (hb : p.frames.getLast? = some b) :
    (∀ r p', getTransformPath p s = .ok r p' → r.pose = (pose a)⁻¹ * pose b) ∧
    (p.dirty = false → p.frames.IsChain s.Conn → ∃ r, getTransformPath p s = .ok r p) ∧
    (p.dirty = true → a ≠ b → Joined s a b → ∃ r p', getTransformPath p s = .ok r p') := by
  have hw : WF s.g := run_wf WF.empty h
  by_cases h2 : 2 ≤ p.frames.length
  · cases hd : p.dirty with
    | false =>
      rw [getTransformPath_clean h2 hd]
      rcases pathProduct_total hw h2 ha hb with ⟨r, h1, l, k1, k2⟩ | ⟨x, h1, k⟩
      · refine ⟨?_, fun _ _ => ⟨r, h1⟩, by simp⟩
        intro r' p' hr
        rw [h1] at hr
        obtain ⟨rfl, -⟩ := Res.ok.inj hr
        exact k2.pose hc k1.first k1.last
      · refine ⟨?_, fun _ hch => absurd hch k, by simp⟩
        intro r' p' hr
        rw [h1] at hr; cases hr
    | true =>
      rw [getTransformPath_dirty h2 ha hb hd]
      by_cases hab : a = b
      · subst hab
        refine ⟨?_, by simp, fun _ hne => absurd rfl hne⟩
        intro r p' hr
        cases hg : getFrames a a s with
        | throw x s' => simp [hg] at hr
        | ub x => simp [hg] at hr
        | ok l s' =>
          have hl : l = [] := by
            cases hv : s.g.vertexOf a with
            | none => simp [getFrames, hv] at hg
            | some u =>
              obtain ⟨evs, lvl, -, -, hrr⟩ := getFrames_eq hw hv hv
              rcases hrr with ⟨-, k⟩ | ⟨-, k⟩ | ⟨k, -⟩
              · rw [k] at hg; exact (Res.ok.inj hg).1.symm
              · rw [k] at hg; exact (Res.ok.inj hg).1.symm
              · exact absurd rfl k
          subst hl
          simp [hg] at hr
      · rcases getFrames_api hw hab with ⟨hj, l, h1, h3, -⟩ | ⟨hj, h1 | ⟨x, h1⟩⟩
        · have hl2 := h3.two hab
          have hne : l.length ≠ 0 := by omega
          simp only [h1, hne, if_false]
          rcases pathProduct_total (p := { p.setFrames l with dirty := false }) hw hl2 h3.first h3.last with
            ⟨r, k0, l', k1, k2⟩ | ⟨x, k0, k⟩
          · refine ⟨?_, by simp, fun _ _ _ => ⟨r, _, k0⟩⟩
            intro r' p' hr
            rw [k0] at hr
            obtain ⟨rfl, -⟩ := Res.ok.inj hr
            exact k2.pose hc k1.first k1.last
          · exact absurd h3.steps k
        · exact ⟨by simp [h1], by simp, fun _ _ hj' => absurd hj' hj⟩
        · exact ⟨by simp [h1], by simp, fun _ _ hj' => absurd hj' hj⟩
  · have hlen : p.frames.length ≤ 1 := by omega
    have hid : getTransformPath p s = .ok Tf.ident p := by simp [getTransformPath, hlen]
    have hab : a = b := by
      match hf : p.frames, hlen with
      | [], _ => simp [hf] at ha
      | [x], _ =>
        rw [hf] at ha hb
        simp at ha hb
        exact ha.symm.trans hb
    subst hab
    refine ⟨?_, fun _ _ => ⟨_, hid⟩, fun _ _ _ => ⟨_, _, hid⟩⟩
    intro r p' hr
    rw [hid] at hr
    obtain ⟨rfl, -⟩ := Res.ok.inj hr
    simp [Tf.ident]

/-- A consistent square: both ways round, over a view and over a path that takes the long way. -/
example :
    (run [.addEdge "a" "b" ⟨1, tn 1⟩, .addEdge "b" "c" ⟨2, sh 3⟩, .addEdge "c" "d" ⟨3, tn 2⟩, .addEdge "a" "d" ⟨3, sh (-4)⟩,
      .getTree "c" false 0] (init : GS DemoFrame (Tf DemoPose))).map (fun s =>
        ((getTransform "a" "d" s).val?, (getTransformView "a" "d" (s.views 0) s).val?,
          (getTransformPath (.plain ["a", "b", "c", "d"]) s).val?)) =
    some (some ⟨3, sh (-4)⟩, some ⟨0, sh (-4)⟩, some ⟨1, sh (-4)⟩) := by decide +kernel

/-- two frames and one connection: the three ways agree -/
example : (run [.addEdge "a" "b" ⟨1, tn 1⟩, .getTree "b" false 0] (init : GS DemoFrame (Tf DemoPose))).map (fun s =>
    ((getTransform "a" "b" s).val?, (getTransformView "a" "b" (s.views 0) s).val?, (getTransformPath (.plain ["a", "b"]) s).val?)) =
    some (some ⟨1, tn 1⟩, some ⟨0, tn 1⟩, some ⟨1, tn 1⟩) := by decide +kernel

end Verif
