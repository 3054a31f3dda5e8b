import Verif.Lemmas.ViewSelf
import Verif.Lemmas.Mirror
import Verif.Spec.Demo
/-! # C21: tree edges and cross edges in graphs with self edges -/

namespace Verif
open GS TreeView
variable {F E : Type} [FrameProp F] [EdgeProp E]

/-- After any history, with or without self edges: in the view returned by `getTree(r)` a connection between two different frames of the view is
either a tree edge and no cross edge joins the two, or it is no tree edge and exactly one entry of `crossEdges` joins the two.  An edge of a frame
of the view to itself is no tree edge and is listed twice.  Every entry of `crossEdges` is an edge of the graph between vertices of the view, and
entries are listed once. -/
theorem C21_with_self_edges (cs : List (Cmd F E)) (s : GS F E) (h : run cs init = some s) (r : FrameId) (w : TreeView) (s' : GS F E)
    (hw' : getTreeFresh r s = .ok w s') :
    (∀ a b u v, a ≠ b → getVertex a s = .ok u s → getVertex b s = .ok v s → s.Conn a b → w.vertexExists u = true →
      ((w.getParent (some u) = .ok (some v) w ∨ w.getParent (some v) = .ok (some u) w) ∧
        ∀ c ∈ w.crossEdges, ¬ c.Joins u v) ∨
      (¬ (w.getParent (some u) = .ok (some v) w ∨ w.getParent (some v) = .ok (some u) w) ∧
        (w.crossEdges.filter (fun c => c.Joins u v)).length = 1)) ∧
    (∀ a u, getVertex a s = .ok u s → w.vertexExists u = true → w.getParent (some u) ≠ .ok (some u) w ∧
      (containsEdge a a s = .ok true s → (w.crossEdges.filter (fun c => c.Joins u u)).length = 2) ∧
      (containsEdge a a s = .ok false s → ∀ c ∈ w.crossEdges, ¬ c.Joins u u)) ∧
    (∀ c ∈ w.crossEdges, (∃ e ∈ getEdges s, e.id = c.edge ∧ e.src = c.origin ∧ e.tgt = c.target) ∧
      w.vertexExists c.origin = true ∧ w.vertexExists c.target = true) ∧
    (w.crossEdges.map CrossEdge.edge).Nodup := by
  have hw : WF s.g := run_wf WF.empty h
  have hp : Paired s.g.ns := run_paired_ns h
  have h2s : SelfTwo s.g := run_selfTwo h
  have hgv : ∀ f v, getVertex f s = .ok v s ↔ s.g.vertexOf f = some v := by
    intro f v
    unfold getVertex
    cases s.g.vertexOf f <;> simp
  cases hr : s.g.vertexOf r with
  | none => simp [getTreeFresh, hr] at hw'
  | some u0 =>
    obtain ⟨evs, lvl, hd, he⟩ := getTreeFresh_eq hw hr
    rw [hw'] at he
    obtain rfl : w = _ := by injection he
    have ho := outArcs_paired_ne hw hp
    have hget := getTreeInto_get hd.good
    have hpar := built_parentOf hd.good
    obtain ⟨hcross, -, -⟩ := getTreeInto_cross hd.good
    have hin : ∀ v, ((TreeView.empty.addRoot u0).build evs).vertexExists v = true ↔ v ∈ discovered evs := by
      intro v
      rw [TreeView.vertexExists, hget]
      by_cases hv : v ∈ discovered evs <;> simp [hv]
    have hgp : ∀ v p, ((TreeView.empty.addRoot u0).build evs).getParent (some v) = .ok (some p) ((TreeView.empty.addRoot u0).build evs) ↔
        ∃ a ∈ treeArcs evs, a.tgt = v ∧ a.src = p := by
      intro v p
      rw [← hd.good.par_iff, ← hpar]
      unfold getParent TreeView.parentOf
      cases hg : ((TreeView.empty.addRoot u0).build evs).tree.get v <;> simp [hg]
    generalize (TreeView.empty.addRoot u0).build evs = w at *
    refine ⟨?_, ?_, ?_, ?_⟩
    · intro a b u v hab ha hb hc hu
      obtain ⟨u', v', e1, e2, e3⟩ := conn_iff.1 hc
      rw [(hgv a u).1 ha] at e1
      rw [(hgv b v).1 hb] at e2
      obtain rfl := Option.some.inj e1
      obtain rfl := Option.some.inj e2
      obtain ⟨x, hx, rfl⟩ := e3
      have hne : x.tgt ≠ u := fun hh => hab (hw.vertexOf_inj ((hgv a u).1 ha) (hh ▸ (hgv b _).1 hb))
      have htree : (w.getParent (some u) = .ok (some x.tgt) w ∨ w.getParent (some x.tgt) = .ok (some u) w) ↔
          ∃ t ∈ treeArcs evs, t.Joins u x.tgt := by
        rw [hgp, hgp]
        constructor
        · rintro (⟨a, h1, h2, h3⟩ | ⟨a, h1, h2, h3⟩)
          · exact ⟨a, h1, Or.inr ⟨h3, h2⟩⟩
          · exact ⟨a, h1, Or.inl ⟨h3, h2⟩⟩
        · rintro ⟨a, h1, ⟨h2, h3⟩ | ⟨h2, h3⟩⟩
          · exact Or.inr ⟨a, h1, h3, h2⟩
          · exact Or.inl ⟨a, h1, h3, h2⟩
      rw [htree, hcross]
      rcases hd.joins_ne ho ((hin u).1 hu) hx hne with ⟨k1, k2⟩ | ⟨k1, k2⟩
      · refine Or.inl ⟨k1, ?_⟩
        intro c hc hj
        have : c ∈ ((grayArcs evs).map (fun a => (⟨a.src, a.tgt, a.id⟩ : CrossEdge))).filter (fun c => c.Joins u x.tgt) :=
          List.mem_filter.2 ⟨hc, by simpa using hj⟩
        rw [filter_map_joins, k2] at this
        cases this
      · refine Or.inr ⟨k1, ?_⟩
        rw [filter_map_joins, List.length_map]
        exact k2
    · intro a u ha hu
      have ha' := (hgv a u).1 ha
      refine ⟨?_, ?_⟩
      · rw [Ne, hgp]
        rintro ⟨x, hx, h1, h2⟩
        have := (hd.good.tree_arc hx).2.2.2
        rw [h1, h2] at this
        omega
      · have hcount : (w.crossEdges.filter (fun c => c.Joins u u)).length = (s.g.selfs u).length := by
          rw [hcross, filter_map_joins, List.length_map, hd.self_count ho ((hin u).1 hu), outArcs_self_length]
        have hiff : containsEdge a a s = .ok true s ↔ s.g.selfs u ≠ [] := by
          rw [containsEdge_iff, absEdge_isSome_iff]
          constructor
          · rintro ⟨x, y, k1, k2, e, he, k3, k4⟩ hn
            obtain rfl := Option.some.inj (k1.symm.trans ha')
            obtain rfl := Option.some.inj (k2.symm.trans ha')
            have : e ∈ s.g.selfs e.tgt := by
              rw [G.selfs, List.mem_filter]
              exact ⟨he, by simp [k3, k4]⟩
            rw [k4, hn] at this
            cases this
          · intro hn
            obtain ⟨e, he⟩ := List.exists_mem_of_ne_nil _ hn
            rw [G.selfs, List.mem_filter] at he
            obtain ⟨he, hh⟩ := he
            rw [decide_eq_true_eq] at hh
            exact ⟨u, u, ha', ha', e, he, hh.1, hh.2⟩
        rw [hcount]
        refine ⟨?_, ?_⟩
        · intro hc
          rcases h2s u with h0 | h2
          · exact absurd (List.length_eq_zero_iff.1 h0) (hiff.1 hc)
          · exact h2
        · intro hc c hcm hj
          have hm : c ∈ w.crossEdges.filter (fun c => c.Joins u u) := List.mem_filter.2 ⟨hcm, by simpa using hj⟩
          have hpos := List.length_pos_of_mem hm
          rw [hcount] at hpos
          have := hiff.2 (List.ne_nil_of_length_pos hpos)
          rw [hc] at this
          simp at this
    · intro c hc
      rw [hcross] at hc
      obtain ⟨a, ha, rfl⟩ := List.mem_map.1 hc
      obtain ⟨h1, h2⟩ := hd.tree_out ho.src (mem_arcsOf.2 (Or.inr (Or.inl (mem_grayArcs.1 ha))))
      have h3 := (hd.closed _ h1 a h2).1
      obtain ⟨e, he, -, rfl⟩ := mem_outArcs.1 h2
      exact ⟨⟨e, he, rfl, rfl, rfl⟩, (hin _).2 h1, (hin _).2 h3⟩
    · rw [hcross, List.map_map]
      have hgn : (grayArcs evs).Nodup := (grayArcs_sublist evs).nodup (hd.arcs_nodup_ne ho)
      refine List.Nodup.map_on ?_ hgn
      intro x hx y hy hxy
      obtain ⟨-, hx'⟩ := hd.tree_out ho.src (mem_arcsOf.2 (Or.inr (Or.inl (mem_grayArcs.1 hx))))
      obtain ⟨-, hy'⟩ := hd.tree_out ho.src (mem_arcsOf.2 (Or.inr (Or.inl (mem_grayArcs.1 hy))))
      obtain ⟨e, he, -, rfl⟩ := mem_outArcs.1 hx'
      obtain ⟨e', he', -, rfl⟩ := mem_outArcs.1 hy'
      rw [map_inj_of_nodup hw.enodup he he' hxy]

/-- a triangle with a self edge at "b": one cross edge between "b" and "c", two from "b" to itself -/
example : ∃ s : GS DemoFrame Int,
    run [.addEdge "a" "b" 1, .addEdge "b" "c" 2, .addEdge "a" "c" 3, .addEdge "b" "b" 4] init = some s ∧
    ∃ w, getTreeFresh "a" s = .ok w s ∧ w.crossEdges.map (fun c => (c.origin, c.target, c.edge)) = [(1, 2, 2), (1, 1, 6), (1, 1, 7)] :=
  ⟨_, rfl, _, rfl, rfl⟩

/-- A view that follows the addition of a self edge lists it once, a view made afterwards lists it twice: updating and making anew differ. -/
theorem C21_self_edge_follow_differs : ∃ (s : GS DemoFrame Int) (w : TreeView),
    run [.addEdge "a" "b" 1, .getTree "a" true 0, .addEdge "b" "b" 4] init = some s ∧ getTreeFresh "a" s = .ok w s ∧
    (s.views 0).crossEdges.map (fun c => (c.origin, c.target, c.edge)) = [(1, 1, 2)] ∧
    w.crossEdges.map (fun c => (c.origin, c.target, c.edge)) = [(1, 1, 2), (1, 1, 3)] :=
  ⟨_, _, rfl, rfl, rfl, rfl⟩

/-- the same at the root of the view -/
example : ∃ (s : GS DemoFrame Int) (w : TreeView),
    run [.addEdge "a" "b" 1, .getTree "a" true 0, .addEdge "a" "a" 4] init = some s ∧ getTreeFresh "a" s = .ok w s ∧
    (s.views 0).crossEdges.length = 1 ∧ w.crossEdges.length = 2 :=
  ⟨_, _, rfl, rfl, rfl, rfl⟩

end Verif
