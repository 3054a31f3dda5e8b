import Verif.Lemmas.PathLemmas
import Verif.Lemmas.PathEvents
import Verif.Spec.DemoPose
/-! # C68: a dirty path is replaced by a valid shortest path -/

namespace Verif
open GS
variable {F T : Type} [FrameProp F] [Group T]

/-- After `getTransform` of a dirty path with connected ends the path is clean, keeps its ends and its subscription, is a shortest path
of the current graph without repeated frames, and becomes dirty by exactly the events that announce the removal of one of its
new edges in the direction of the path.
Missing compared to C68: removals that are announced in the opposite direction (`C28_remove_edge_backward_fails`). -/
theorem C68_dirty_path_replaced_partial (cs : List (Cmd F (Tf T))) (s : GS F (Tf T)) (h : run cs init = some s) (p : Path) (a b : FrameId)
    (h2 : 2 ≤ p.frames.length) (ha : p.frames.head? = some a) (hb : p.frames.getLast? = some b) (hd : p.dirty = true)
    (hab : a ≠ b) (hj : Joined s a b) :
    ∃ r p', getTransformPath p s = .ok r p' ∧ p'.dirty = false ∧ p'.auto = p.auto ∧ IsPath s.Conn a b p'.frames ∧ p'.frames.Nodup ∧
      (∀ l, IsPath s.Conn a b l → p'.frames.length ≤ l.length) ∧ Along s p'.frames r.pose ∧
      (p.auto = true → ∀ evs : List Event, ((p'.observe evs).dirty = true ↔
        ∃ x y, Consecutive p'.frames x y ∧ Event.edgeRemoved x y ∈ evs)) := by
  have hw : WF s.g := run_wf WF.empty h
  rw [getTransformPath_dirty h2 ha hb hd]
  rcases getFrames_api hw hab with ⟨-, l, h1, h3, h4, h5⟩ | ⟨hj', -⟩
  · have hl2 := h3.two hab
    have hne : l.length ≠ 0 := by omega
    simp only [h1, hne, if_false]
    match l, hl2, h3, h4, h5 with
    | f0 :: f1 :: l, _, h3, h4, h5 =>
      obtain ⟨q, t, q1, q2, q3⟩ := pathProduct_valid (p := { p.setFrames (f0 :: f1 :: l) with dirty := false }) hw rfl h3.steps
      refine ⟨_, _, q3, rfl, rfl, h3, h4, h5, q2, fun hau evs => ?_⟩
      rw [observe_dirty evs _ (by simpa [Path.setFrames] using hau)]
      simp only [Path.setFrames, Bool.false_eq_true, false_or, mem_createEdges]
  · exact absurd hj hj'

/-- The unprovable rest: the replaced path does not notice the removal of its edge from `d` to `c` when it is removed as `c`, `d`. -/
theorem C68_opposite_direction_fails : ∃ s0 s1 s2 : GS DemoFrame (Tf DemoPose),
    run [.addEdge "a" "b" ⟨1, tn 1⟩, .addEdge "b" "c" ⟨2, sh 1⟩, .addEdge "a" "d" ⟨5, sh 7⟩, .addEdge "d" "c" ⟨6, tn 2⟩] init = some s0 ∧
    getPath "a" "c" true s0 = .ok (.subscribed ["a", "b", "c"]) s0 ∧
    run [.removeEdge "a" "b"] s0 = some s1 ∧
    getTransformPath ((Path.subscribed ["a", "b", "c"]).observe (newEvents s0 s1)) s1 =
      .ok ⟨5, tn 9⟩ (.subscribed ["a", "d", "c"]) ∧
    run [.removeEdge "c" "d"] s1 = some s2 ∧
    ((Path.subscribed ["a", "d", "c"]).observe (newEvents s1 s2)).dirty = false ∧ containsEdge "d" "c" s2 = .ok false s2 :=
  ⟨_, _, _, rfl, rfl, rfl, rfl, rfl, rfl, rfl⟩

/-- a dirty path is replaced, is clean, and notices the removal of its new edges in its direction -/
example : (run [.addEdge "a" "b" ⟨1, tn 1⟩, .addEdge "b" "c" ⟨2, sh 1⟩, .addEdge "a" "d" ⟨5, sh 7⟩, .addEdge "d" "c" ⟨6, tn 2⟩]
      (init : GS DemoFrame (Tf DemoPose))).bind (fun s0 => (run [.removeEdge "a" "b"] s0).bind fun s1 =>
    (run [.removeEdge "a" "d"] s1).bind fun s2 =>
      match getTransformPath ((Path.subscribed ["a", "b", "c"]).observe (newEvents s0 s1)) s1 with
      | .ok r p => some (r, p.frames, p.dirty, (p.observe (newEvents s1 s2)).dirty)
      | _ => none) = some (⟨5, tn 9⟩, ["a", "d", "c"], false, true) := by decide +kernel

/-- a dirty path of two frames -/
example : (run [.addEdge "a" "b" ⟨1, tn 1⟩] (init : GS DemoFrame (Tf DemoPose))).bind (fun s0 =>
      match getTransformPath { Path.subscribed ["a", "b"] with dirty := true } s0 with
      | .ok r p => some (r, p.frames, p.edges, p.dirty)
      | _ => none) = some (⟨1, tn 1⟩, ["a", "b"], [("a", "b")], false) := by decide +kernel

end Verif
