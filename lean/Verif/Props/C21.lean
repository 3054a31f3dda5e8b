import Verif.Lemmas.ViewBuild
import Verif.Lemmas.Mirror
import Verif.Spec.Demo
/-! # C21: every connection is either a tree edge or listed once as cross edge -/

namespace Verif
open GS TreeView
variable {F E : Type} [FrameProp F] [EdgeProp E]

/-- After any history without self edges: in the view returned by `getTree(r)` a connection between two frames of the view is
either a tree edge (one vertex is the parent of the other) and no cross edge joins the two, or it is no tree edge and exactly one
entry of `crossEdges` joins the two.  Every entry of `crossEdges` is an edge of the graph between vertices of the view. -/
theorem C21_tree_or_cross (cs : List (Cmd F E)) (hns : ∀ a p, Cmd.addEdge a a p ∉ cs) (s : GS F E)
    (h : run cs init = some s) (r : FrameId) (w : TreeView) (s' : GS F E) (hw' : getTreeFresh r s = .ok w s') :
    (∀ a b u v, getVertex a s = .ok u s → getVertex b s = .ok v s → s.Conn a b → w.vertexExists u = true →
      ((w.getParent (some u) = .ok (some v) w ∨ w.getParent (some v) = .ok (some u) w) ∧
        ∀ c ∈ w.crossEdges, ¬ c.Joins u v) ∨
      (¬ (w.getParent (some u) = .ok (some v) w ∨ w.getParent (some v) = .ok (some u) w) ∧
        (w.crossEdges.filter (fun c => c.Joins u v)).length = 1)) ∧
    (∀ c ∈ w.crossEdges, ∃ a b e, getVertex a s = .ok c.origin s ∧ getVertex b s = .ok c.target s ∧
      getEdge a b s = .ok e s ∧ e.id = c.edge ∧ w.vertexExists c.origin = true ∧ w.vertexExists c.target = true) := by
  have hw : WF s.g := run_wf WF.empty h
  have hp : Paired s.g := run_paired WF.empty Paired.empty h (noSelf_of hns)
  have hgv : ∀ f v, getVertex f s = .ok v s ↔ s.g.vertexOf f = some v := by
    intro f v
    unfold getVertex
    cases s.g.vertexOf f <;> simp
  cases hr : s.g.vertexOf r with
  | none => simp [getTreeFresh, hr] at hw'
  | some u0 =>
    obtain ⟨evs, lvl, hd, he⟩ := getTreeFresh_eq hw hr
    have hv := built_isTreeView hw hp hd
    rw [hw'] at he
    obtain rfl : w = _ := by injection he
    generalize hwv : (TreeView.empty.addRoot u0).build evs = w at hv
    have hpar : ∀ v p, w.getParent (some v) = .ok (some p) w ↔ w.parentOf v = some p := by
      intro v p
      unfold getParent TreeView.parentOf
      cases hg : w.tree.get v <;> simp [hg]
    constructor
    · intro a b u v ha hb hc hin
      obtain ⟨u', v', e1, e2, e3⟩ := conn_iff.1 hc
      rw [(hgv a u).1 ha] at e1
      rw [(hgv b v).1 hb] at e2
      obtain rfl := Option.some.inj e1
      obtain rfl := Option.some.inj e2
      have hadj := adj_iff_arcs.2 e3
      have hreach := (hv.span u).1 hin
      rw [hpar, hpar]
      by_cases ht : w.TreeEdge u v
      · left
        refine ⟨ht, ?_⟩
        have := hv.tree_not_cross u v hadj hreach ht
        intro c hc hj
        have : c ∈ w.crossEdges.filter (fun c => c.Joins u v) := List.mem_filter.2 ⟨hc, by simpa using hj⟩
        simp_all
      · exact Or.inr ⟨ht, hv.cross_once u v hadj hreach ht⟩
    · intro c hc
      obtain ⟨e, he, h1, h2, h3, h4⟩ := hv.cross_edge c hc
      have hadj : s.g.Adj e.src e.tgt := ⟨e, he, rfl, rfl⟩
      have hs : Live s.g e.src := hw.esrc e he
      have ht : Live s.g e.tgt := hw.etgt e he
      refine ⟨nameOf s.g e.src, nameOf s.g e.tgt, e, ?_, ?_, ?_, h1, ?_, ?_⟩
      · rw [← h2]; exact (hgv _ _).2 (vertexOf_nameOf hw hs)
      · rw [← h3]; exact (hgv _ _).2 (vertexOf_nameOf hw ht)
      · have : s.g.edge e.src e.tgt = some e := by
          cases hx : s.g.edge e.src e.tgt with
          | none => exact absurd ⟨rfl, rfl⟩ (G.edge_none.1 hx e he)
          | some e' =>
            obtain ⟨i1, i2, i3⟩ := G.edge_some hx
            rw [hp.uniq e' i1 e he i2 i3]
        simp [getEdge, vertexOf_nameOf hw hs, vertexOf_nameOf hw ht, this]
      · rw [hv.span, ← h2]; exact h4
      · rw [hv.span, ← h3]; exact .tail h4 hadj

/-- a square a-b-c-d-a with a diagonal a-c: three tree edges, two cross edges -/
example : ∃ s : GS DemoFrame Int,
    run [.addEdge "a" "b" 1, .addEdge "b" "c" 2, .addEdge "c" "d" 3, .addEdge "a" "d" 4, .addEdge "a" "c" 5] init = some s ∧
    ∃ w, getTreeFresh "a" s = .ok w s ∧ w.crossEdges.map (fun c => (c.origin, c.target)) = [(1, 2), (3, 2)] :=
  ⟨_, rfl, _, rfl, rfl⟩

end Verif
