import Verif.Lemmas.ViewBuild
import Verif.Lemmas.Mirror
import Verif.Spec.Demo
/-! # C20: getTree spans exactly the connected component -/

namespace Verif
open GS TreeView
variable {F E : Type} [FrameProp F] [EdgeProp E]

/-- After any history and for every contained frame `r` with vertex `u`, `getTree(r)` succeeds, leaves the graph alone and
returns a view `w` such that
* a frame is in `w` iff there is a path from `r` to it, and every vertex of `w` belongs to such a frame,
* the root is `u`, it has no parent; every other vertex of `w` has one parent, and the graph has an edge from it,
* `c` is among the children of `p` iff `p` is the parent of `c`; no child is listed twice,
* following the parents from any vertex of `w` ends at the root. -/
theorem C20_getTree_spans (cs : List (Cmd F E)) (s : GS F E) (h : run cs init = some s) (r : FrameId) (u : VId)
    (hu : getVertex r s = .ok u s) :
    ∃ w, getTreeFresh r s = .ok w s ∧
      (∀ f v, getVertex f s = .ok v s → (w.vertexExists v = true ↔ ∃ l, IsPath s.Conn r f l)) ∧
      (∀ v, w.vertexExists v = true → ∃ f, getVertex f s = .ok v s) ∧
      w.isRoot u = true ∧ w.getParent (some u) = .ok none w ∧
      (∀ v, w.vertexExists v = true → v ≠ u → ∃ p a b, w.getParent (some v) = .ok (some p) w ∧
        getVertex a s = .ok p s ∧ getVertex b s = .ok v s ∧ s.Conn a b) ∧
      (∀ p rel, w.tree.get p = some rel → rel.children.Nodup ∧
        ∀ c, c ∈ rel.children ↔ w.getParent (some c) = .ok (some p) w) ∧
      (∀ v, w.vertexExists v = true → ∃ l, IsPath (fun x y => w.getParent (some x) = .ok (some y) w) v u l) := by
  have hw : WF s.g := run_wf WF.empty h
  have hgv : ∀ f v, getVertex f s = .ok v s ↔ s.g.vertexOf f = some v := by
    intro f v
    unfold getVertex
    cases s.g.vertexOf f <;> simp
  have hr := (hgv r u).1 hu
  obtain ⟨evs, lvl, hd, he⟩ := getTreeFresh_eq hw hr
  refine ⟨_, he, ?_⟩
  generalize hwv : (TreeView.empty.addRoot u).build evs = w
  have hget : ∀ v, w.tree.get v = if v ∈ discovered evs then some ⟨par (treeArcs evs) v, kids (treeArcs evs) v⟩ else none := by
    rw [← hwv]; exact getTreeInto_get hd.good
  have hin : ∀ v, w.vertexExists v = true ↔ v ∈ discovered evs := by
    intro v
    rw [TreeView.vertexExists, hget]
    by_cases hv : v ∈ discovered evs <;> simp [hv]
  have hlive : ∀ v, v ∈ discovered evs → Live s.g v := fun v hv => hd.live hw (hw.live hr) hv
  have hpar : ∀ v p, w.getParent (some v) = .ok (some p) w ↔ w.parentOf v = some p := by
    intro v p
    unfold getParent TreeView.parentOf
    cases hg : w.tree.get v <;> simp [hg]
  have hp' : ∀ v, w.parentOf v = par (treeArcs evs) v := by rw [← hwv]; exact built_parentOf hd.good
  refine ⟨?_, ?_, ?_, ?_, ?_, ?_, ?_⟩
  · intro f v hv
    rw [hin]
    have hv' := (hgv f v).1 hv
    constructor
    · intro hm
      obtain ⟨path, hp, hl, -⟩ := hd.good.path v hm
      exact ⟨_, (treePath_shortest hw hr hv' hd hp hl).1⟩
    · rintro ⟨l, hl⟩
      obtain ⟨p, p1, p2, p3, -⟩ := walk_of_path hl hr hv'
      exact (hd.walk p v p1 p2 p3).1
  · intro v hv
    exact ⟨nameOf s.g v, (hgv _ _).2 (vertexOf_nameOf hw (hlive v ((hin v).1 hv)))⟩
  · rw [TreeView.isRoot, ← hwv, (getTreeInto_cross hd.good).2.1]; simp
  · have h1 : par (treeArcs evs) u = none := by
      rw [par_none]
      intro hh
      obtain ⟨a, ha, h1⟩ := List.mem_map.1 hh
      exact (hd.good.tree_arc ha).2.2.1 h1
    simp [getParent, hget, hd.good.root_mem, h1]
  · intro v hv hne
    rw [hin, hd.good.tgts, List.mem_cons] at hv
    obtain ⟨a, ha, rfl⟩ := List.mem_map.1 (hv.resolve_left hne)
    have ht := hd.good.tree_arc ha
    refine ⟨a.src, nameOf s.g a.src, nameOf s.g a.tgt, ?_, (hgv _ _).2 (vertexOf_nameOf hw (hlive _ ht.1)),
      (hgv _ _).2 (vertexOf_nameOf hw (hlive _ ht.2.1)), ?_⟩
    · rw [hpar, hp', hd.good.par_iff]; exact ⟨a, ha, rfl, rfl⟩
    · exact conn_of_arcs hw (hlive _ ht.1)
        ⟨a, (hd.tree_out outArcs_src (mem_arcsOf.2 (Or.inl (mem_treeArcs.1 ha)))).2, rfl⟩
  · intro p rel hrel
    rw [hget] at hrel
    by_cases hv : p ∈ discovered evs
    · rw [if_pos hv] at hrel
      obtain rfl := Option.some.inj hrel
      constructor
      · have hn := hd.nodup
        rw [hd.good.tgts, List.nodup_cons] at hn
        exact hn.2.sublist (List.filter_sublist.map _)
      · intro c
        rw [hpar, hp', hd.good.par_iff, mem_kids]
        constructor
        · rintro ⟨a, h1, h2, h3⟩; exact ⟨a, h1, h3, h2⟩
        · rintro ⟨a, h1, h2, h3⟩; exact ⟨a, h1, h3, h2⟩
    · rw [if_neg hv] at hrel; cases hrel
  · intro v hv
    obtain ⟨path, hp, -, -⟩ := hd.good.path v ((hin v).1 hv)
    have := built_parent_path hd.good hp
    rw [hwv] at this
    exact ⟨_, this.first, this.last, this.steps.imp (fun x y hxy => (hpar x y).2 hxy)⟩

/-- For a frame that is not in the graph `getTree` throws `UnknownFrameException`. -/
theorem C20_getTree_unknown_frame (s : GS F E) (r : FrameId) (hr : containsFrame r s = false) :
    getTreeFresh r s = .throw (.unknownFrame r) s := by
  have : s.g.vertexOf r = none := by simpa [containsFrame] using hr
  simp [getTreeFresh, this]

/-- a square with a tail; frame e is not connected -/
example : ∃ s : GS DemoFrame Int,
    run [.addEdge "a" "b" 1, .addEdge "b" "c" 2, .addEdge "c" "d" 3, .addEdge "a" "d" 4, .addFrame "e"] init = some s ∧
    ∃ w, getTreeFresh "a" s = .ok w s ∧ w.tree.map Prod.fst = [0, 1, 3, 2] ∧ w.vertexExists 4 = false ∧
      w.getParent (some 2) = .ok (some 1) w :=
  ⟨_, rfl, _, rfl, rfl, rfl, rfl⟩

/-- the view knows its root -/
example : (run [.addFrame "x", .addEdge "a" "b" 1, .getTree "b" false 0] (init : GS DemoFrame Int)).map (fun s => (s.views 0).root) =
    some (some 2) := by decide +kernel

end Verif
