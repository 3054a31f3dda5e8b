import Verif.Lemmas.ViewBuild
import Verif.Spec.Demo
/-! # C22: tree view paths to the root are shortest -/

namespace Verif
open GS TreeView
variable {F E : Type} [FrameProp F] [EdgeProp E]

/-- After any history: in the view returned by `getTree(r)` there is, for each frame of the view, a way along parents to the
root, and each such way has as many vertices as a shortest path from `r` to the frame in the graph. -/
theorem C22_view_depth_shortest (cs : List (Cmd F E)) (s : GS F E) (h : run cs init = some s) (r : FrameId) (w : TreeView)
    (s' : GS F E) (hw' : getTreeFresh r s = .ok w s') (u : VId) (hu : getVertex r s = .ok u s)
    (f : FrameId) (v : VId) (hf : getVertex f s = .ok v s) (hv : w.vertexExists v = true) :
    (∃ l, IsPath (fun x y => w.getParent (some x) = .ok (some y) w) v u l) ∧
    ∀ l, IsPath (fun x y => w.getParent (some x) = .ok (some y) w) v u l →
      (∃ l', IsPath s.Conn r f l' ∧ l'.length = l.length) ∧ ∀ l', IsPath s.Conn r f l' → l.length ≤ l'.length := by
  have hw : WF s.g := run_wf WF.empty h
  have hgv : ∀ f v, getVertex f s = .ok v s ↔ s.g.vertexOf f = some v := by
    intro f v
    unfold getVertex
    cases s.g.vertexOf f <;> simp
  have hr := (hgv r u).1 hu
  obtain ⟨evs, lvl, hd, he⟩ := getTreeFresh_eq hw hr
  rw [hw'] at he
  obtain rfl : w = _ := by injection he
  have hin : v ∈ discovered evs := by
    rw [TreeView.vertexExists, getTreeInto_get hd.good] at hv
    by_contra hh
    simp [hh] at hv
  have hp' := built_parentOf hd.good
  generalize hwv : (TreeView.empty.addRoot u).build evs = w at *
  have hpar : ∀ v p, w.getParent (some v) = .ok (some p) w ↔ w.parentOf v = some p := by
    intro v p
    unfold getParent TreeView.parentOf
    cases hg : w.tree.get v <;> simp [hg]
  obtain ⟨path, hp, hl, -⟩ := hd.good.path v hin
  obtain ⟨t1, -, t3⟩ := treePath_shortest hw hr ((hgv f v).1 hf) hd hp hl
  constructor
  · have := built_parent_path hd.good hp
    rw [hwv] at this
    exact ⟨_, this.first, this.last, this.steps.imp (fun x y hxy => (hpar x y).2 hxy)⟩
  · intro l hlp
    have hlen : l.length = path.length := by
      have hdec : ∀ x y, w.getParent (some x) = .ok (some y) w → lvl x = lvl y + 1 := by
        intro x y hxy
        rw [hpar, hp', hd.good.par_iff] at hxy
        obtain ⟨a, ha, rfl, rfl⟩ := hxy
        exact (hd.good.tree_arc ha).2.2.2
      have := (parent_path_length hdec hlp).1
      rw [this, hl, hd.good.lvl_root]
      rfl
    rw [List.length_map] at t3
    exact ⟨⟨_, t1, by rw [List.length_map, hlen]⟩, fun l' h' => hlen ▸ t3 l' h'⟩

/-- a cycle of five frames: d is reached over e, not over b and c -/
example : ∃ s : GS DemoFrame Int,
    run [.addEdge "a" "b" 1, .addEdge "b" "c" 2, .addEdge "c" "d" 3, .addEdge "d" "e" 4, .addEdge "e" "a" 5] init = some s ∧
    ∃ w, getTreeFresh "a" s = .ok w s ∧ w.getParent (some 3) = .ok (some 4) w ∧ w.getParent (some 4) = .ok (some 0) w :=
  ⟨_, rfl, _, rfl, rfl, rfl⟩

end Verif
