import Verif.Lemmas.ForestHistory
import Verif.Lemmas.Mirror
import Verif.Spec.Demo
/-! # C24: a subscribed tree view follows the removal of edges

This holds as long as no cross edge is involved (`C24_view_follows_removal_partial`, and without any such condition for graphs
without cycles, `C24_tree_history`).  It does not hold in general: see `C24_cross_edge_stale` and `C24_leaving_fails`. -/

namespace Verif
open GS TreeView
variable {F E : Type} [FrameProp F] [EdgeProp E]

/-- Full statement of the property: `remove_edge` of an existing edge returns normally and every correct subscribed view is a
correct view of the new graph, with the same root. -/
def C24_statement (F E : Type) [FrameProp F] [EdgeProp E] : Prop :=
  ∀ (cs : List (Cmd F E)) (s : GS F E), (∀ a p, Cmd.addEdge a a p ∉ cs) → run cs init = some s →
    (∀ q ∈ s.subs, ∃ root, IsTreeView s.g root (s.views q)) →
    ∀ o t, s.Conn o t → ∃ s', GS.removeEdge o t s = .ok () s' ∧
      ∀ q ∈ s.subs, ∀ root, IsTreeView s.g root (s.views q) → IsTreeView s'.g root (s'.views q)

/-- Partial: if for each subscribed view the removed connection is no cross edge, and (if it is a tree edge) no cross edge leads
out of the subtree behind it and at most one is inside, then `remove_edge` returns normally and every view follows.
Missing: views with other cross edges, where it is false. -/
theorem C24_view_follows_removal_partial (cs : List (Cmd F E)) (hns : ∀ a p, Cmd.addEdge a a p ∉ cs) (s : GS F E)
    (h : run cs init = some s) (hok : ∀ q ∈ s.subs, ∃ root, IsTreeView s.g root (s.views q))
    (o t : FrameId) (u v : VId) (ho : getVertex o s = .ok u s) (ht : getVertex t s = .ok v s) (hc : s.Conn o t)
    (hclean : ∀ q ∈ s.subs, (s.views q).CleanCut u v) :
    ∃ s', GS.removeEdge o t s = .ok () s' ∧ s'.subs = s.subs ∧ ¬ s'.Conn o t ∧
      ∀ q ∈ s.subs, ∀ root, IsTreeView s.g root (s.views q) → IsTreeView s'.g root (s'.views q) := by
  have hw : WF s.g := run_wf WF.empty h
  have hp : Paired s.g := run_paired WF.empty Paired.empty h (noSelf_of hns)
  have hsub := run_subsInv init_subsInv h
  have hu := getVertex_ok ho
  have hv := getVertex_ok ht
  obtain ⟨e, he, h1, h2⟩ := (adj_iff_conn hu hv).1 hc
  obtain ⟨s', h3, h4, h5⟩ := removeEdgeBoth_follows hw hp ⟨hsub.1, hok⟩ o t (hp.edge_iff.2 ⟨he, h1, h2⟩) hclean
  refine ⟨s', by simp [GS.removeEdge, hu, hv, h3], h5.1, ?_, h5.2⟩
  intro hc'
  have := (adj_iff_conn (s := s') (u := u) (v := v) (by rw [h4]; exact hu) (by rw [h4]; exact hv)).1 hc'
  rw [h4] at this
  exact (cut_adj.1 this).2 (Or.inl ⟨rfl, rfl⟩)

/-- In a graph without cycles nothing can go wrong: for every history that never closes a cycle (any calls, including `remove_edge`
and `disconnectFrame`), no call has undefined behaviour, and at the end every subscribed view is a correct view without cross
edges. -/
theorem C24_tree_history (cs : List (Cmd F E)) (ht : TreeHistory cs (init : GS F E)) :
    ∃ s, run cs (init : GS F E) = some s ∧
      ∀ q ∈ s.subs, (s.views q).crossEdges = [] ∧ ∃ root, IsTreeView s.g root (s.views q) := by
  obtain ⟨s, h1, h2⟩ := TreeInv.init.run ht
  refine ⟨s, h1, fun q hq => ?_⟩
  obtain ⟨root, hr⟩ := h2.views.2 q hq
  exact ⟨h2.forest.no_cross h2.paired hr, root, hr⟩

/-- In every history without cycles, `remove_edge` of an existing edge returns normally and every view follows, keeping its root. -/
theorem C24_tree_removal (cs : List (Cmd F E)) (hth : TreeHistory cs (init : GS F E)) (s : GS F E) (h : run cs init = some s)
    (o t : FrameId) (hc : s.Conn o t) :
    ∃ s', GS.removeEdge o t s = .ok () s' ∧ s'.subs = s.subs ∧
      ∀ q ∈ s.subs, ∀ root, IsTreeView s.g root (s.views q) → IsTreeView s'.g root (s'.views q) := by
  obtain ⟨s1, h1, h2⟩ := TreeInv.init.run hth
  rw [h] at h1
  obtain rfl := Option.some.inj h1
  obtain ⟨u, v, hu, hv, -⟩ := conn_iff.1 hc
  obtain ⟨e, he, a1, a2⟩ := (adj_iff_conn hu hv).1 hc
  obtain ⟨s', h3, -, h5⟩ := removeEdgeBoth_follows h2.wf h2.paired h2.views o t (h2.paired.edge_iff.2 ⟨he, a1, a2⟩)
    (h2.views.clean h2.paired h2.forest _ _)
  exact ⟨s', by simp [GS.removeEdge, hu, hv, h3], h5.1, h5.2⟩

/-- Negative: when the removed edge is a cross edge of a correct view, then the view is never correct afterwards, whatever root
one takes, however the call ends: it still lists an edge that is not in the graph any more. -/
theorem C24_cross_edge_stale (cs : List (Cmd F E)) (hns : ∀ a p, Cmd.addEdge a a p ∉ cs) (s s' : GS F E)
    (h : run cs init = some s) (o t : FrameId) (u v : VId) (ho : getVertex o s = .ok u s) (ht : getVertex t s = .ok v s)
    (q : Nat) (root : VId) (hq : IsTreeView s.g root (s.views q)) (c : CrossEdge) (hc : c ∈ (s.views q).crossEdges)
    (hj : c.Joins u v) (hr : (GS.removeEdge o t s).st? = some s') :
    s'.views q = s.views q ∧ ∀ root', ¬ IsTreeView s'.g root' (s'.views q) := by
  have hw : WF s.g := run_wf WF.empty h
  have hp : Paired s.g := run_paired WF.empty Paired.empty h (noSelf_of hns)
  have hu := getVertex_ok ho
  have hv := getVertex_ok ht
  obtain ⟨hab, hba, hoin, htin⟩ := joins_adj hp hq hc hj
  have hnt : ¬ (s.views q).TreeEdge u v := by
    intro hte
    have h1 := hq.tree_not_cross _ _ hab ((hq.span _).1 hoin) hte
    have : c ∈ (s.views q).crossEdges.filter (fun x => x.Joins u v) := by
      simp only [List.mem_filter, decide_eq_true_eq]; exact ⟨hc, hj⟩
    rw [h1] at this; cases this
  obtain ⟨e, he, a1, a2⟩ := hab
  have hedge := hp.edge_iff.2 ⟨he, a1, a2⟩
  simp only [GS.removeEdge, hu, hv, removeEdgeBoth_eq hw hp o t hedge] at hr
  have key : ∀ vs', (removeEdgeFromTreeViews u v s.subs s.views).st? = some vs' → vs' q = s.views q := fun vs' hvs =>
    removeEdgeFromTreeViews_stale s.subs s.views vs' (hq.edgeExists_false hnt) hvs
  have hres : s'.views q = s.views q ∧ s'.g = s.g.cut u v := by
    cases hx : removeEdgeFromTreeViews u v s.subs s.views with
    | ok a vs =>
      rw [hx] at hr key
      simp only [Res.st?, Option.some.injEq] at hr
      subst hr
      exact ⟨key vs rfl, rfl⟩
    | throw a vs =>
      rw [hx] at hr key
      simp only [Res.st?, Option.some.injEq] at hr
      subst hr
      exact ⟨key vs rfl, rfl⟩
    | ub r => rw [hx] at hr; cases hr
  refine ⟨hres.1, fun root' hv' => ?_⟩
  rw [hres.1] at hv'
  rw [hres.2] at hv'
  obtain ⟨e', he', -, b1, b2, -⟩ := hv'.cross_edge c hc
  simp only [G.cut, List.mem_filter, decide_eq_true_eq] at he'
  apply he'.2
  rw [b1, b2]
  exact hj

/-- Negative: when the removed edge is a tree edge of a correct subscribed view and a cross edge of this view leads out of the
subtree behind it, then `remove_edge` never returns normally (it throws or has undefined behaviour). -/
theorem C24_leaving_fails (cs : List (Cmd F E)) (hns : ∀ a p, Cmd.addEdge a a p ∉ cs) (s : GS F E)
    (h : run cs init = some s) (o t : FrameId) (u v : VId) (ho : getVertex o s = .ok u s) (ht : getVertex t s = .ok v s)
    (q : Nat) (hqs : q ∈ s.subs) (root : VId) (hq : IsTreeView s.g root (s.views q)) (hte : (s.views q).TreeEdge u v)
    (c : CrossEdge) (hc : c ∈ (s.views q).crossEdges)
    (hl : ¬ ((s.views q).Cut u v c.origin ↔ (s.views q).Cut u v c.target)) (s' : GS F E) :
    GS.removeEdge o t s ≠ .ok () s' := by
  have hw : WF s.g := run_wf WF.empty h
  have hp : Paired s.g := run_paired WF.empty Paired.empty h (noSelf_of hns)
  have hsub := run_subsInv init_subsInv h
  have hu := getVertex_ok ho
  have hv := getVertex_ok ht
  intro hr
  simp only [GS.removeEdge, hu, hv] at hr
  cases hedge : s.g.edge u v with
  | none => simp [removeEdgeBoth, hedge] at hr
  | some e =>
    rw [removeEdgeBoth_eq hw hp o t hedge] at hr
    cases hx : removeEdgeFromTreeViews u v s.subs s.views with
    | ok a vs =>
      obtain ⟨w', hw'⟩ := removeEdgeFromTreeViews_ok s.subs s.views vs hsub.1 hqs (hq.edgeExists_true hp hte) hx
      exact removeEdge_leaving hp hq hte hc hl w' hw'
    | throw a vs => rw [hx] at hr; cases hr
    | ub r => rw [hx] at hr; cases hr

/-- The full statement is false: the triangle a-b-c with a view rooted at a, removal of a-b. -/
theorem C24_statement_fails : ¬ C24_statement DemoFrame Int := by
  intro hst
  obtain ⟨s0, h0, hv0, hq0, hsub0, hconn0, x, s2, hrm⟩ : ∃ s0 : GS DemoFrame Int,
      run [.addEdge "a" "b" 1, .addEdge "b" "c" 2, .addEdge "c" "a" 3] init = some s0 ∧ s0.g.vertexOf "a" = some 0 ∧
      s0.views 0 = TreeView.empty ∧ s0.subs = [] ∧ s0.Conn "a" "b" ∧
      ∃ x s2, (match getTree "a" true 0 s0 with | .ok _ s1 => GS.removeEdge "a" "b" s1 | r => r) = .throw x s2 :=
    ⟨_, rfl, rfl, rfl, rfl, rfl, _, _, rfl⟩
  have hns : ∀ a p, Cmd.addEdge a a p ∉ [.addEdge "a" "b" 1, .addEdge "b" "c" 2, .addEdge "c" "a" 3,
      (.getTree "a" true 0 : Cmd DemoFrame Int)] := by
    intro a p h
    simp only [List.mem_cons, Cmd.addEdge.injEq, List.not_mem_nil, reduceCtorEq, or_false] at h
    rcases h with ⟨rfl, h, -⟩ | ⟨rfl, h, -⟩ | ⟨rfl, h, -⟩ <;> exact absurd h (by decide)
  have hw : WF s0.g := run_wf WF.empty h0
  have hp : Paired s0.g := run_paired WF.empty Paired.empty h0 (noSelf_of (by
    intro a p h
    exact hns a p (List.mem_append_left [_] h)))
  obtain ⟨s1, h1, h2, h3, -, h5⟩ := getTree_keep (q := 0) (r := "a") (u := 0) hw hp hv0 hq0
  have hrun : run [.addEdge "a" "b" 1, .addEdge "b" "c" 2, .addEdge "c" "a" 3, .getTree "a" true 0] init = some s1 := by
    have := run_append (cs := [.addEdge "a" "b" 1, .addEdge "b" "c" 2, .addEdge "c" "a" 3]) (ds := [.getTree "a" true 0]) h0
    rw [List.cons_append, List.cons_append, List.cons_append, List.nil_append] at this
    rw [this, run_of_exec (s1 := s1) (by simp only [exec, h1, Res.st?])]
    rfl
  rw [h1] at hrm
  have hconn : s1.Conn "a" "b" := by
    obtain ⟨u, v, e1, e2, -⟩ := conn_iff.1 hconn0
    have := (adj_iff_conn e1 e2).1 hconn0
    rw [← h2] at e1 e2 this
    exact (adj_iff_conn e1 e2).2 this
  obtain ⟨s', hs', -⟩ := hst _ s1 hns hrun (by
    intro q hq
    rw [h3, hsub0] at hq
    have : q = 0 := List.mem_singleton.1 hq
    subst this
    exact ⟨0, by rw [h2]; exact h5⟩) "a" "b" hconn
  simp only at hrm
  rw [hs'] at hrm
  cases hrm

/-- a history without cycles: chain a-b-c, view, removal, disconnect, and the frame connected elsewhere -/
example : TreeHistory [.addEdge "a" "b" 1, .addEdge "b" "c" 2, .getTree "a" true 0, .removeEdge "b" "c", .disconnectFrame "c",
    .removeFrame "c", .addEdge "a" "c" 3] (init : GS DemoFrame Int) := by
  refine ⟨⟨by decide, Or.inr (noPath_new (by decide) rfl)⟩, ⟨by decide, Or.inr (noPath_new (by decide) rfl)⟩, rfl, trivial, trivial,
    trivial, ⟨by decide, Or.inr (noPath_new (by decide) rfl)⟩, trivial⟩

/-- the chain a-b-c-d and the pair e-f; the removal of b-c takes c and d out of the view -/
example : ∃ s s' : GS DemoFrame Int,
    run [.addEdge "a" "b" 1, .addEdge "b" "c" 2, .addEdge "c" "d" 3, .addEdge "e" "f" 3, .getTree "a" true 0] init = some s ∧
    GS.removeEdge "c" "b" s = .ok () s' ∧
    (s.views 0).tree.map (fun p => (p.1, p.2.parent)) = [(0, none), (1, some 0), (2, some 1), (3, some 2)] ∧
    (s'.views 0).tree.map (fun p => (p.1, p.2.parent)) = [(0, none), (1, some 0)] :=
  ⟨_, _, rfl, rfl, rfl, rfl⟩

/-- the triangle a-b-c: the removal of the tree edge a-b throws, although the edge is gone afterwards -/
example : ∃ s s' : GS DemoFrame Int, ∃ x,
    run [.addEdge "a" "b" 1, .addEdge "b" "c" 2, .addEdge "c" "a" 3, .getTree "a" true 0] init = some s ∧
    GS.removeEdge "a" "b" s = .throw x s' ∧ s'.g.edges.length = 4 :=
  ⟨_, _, _, rfl, rfl, rfl⟩

/-- ... and the removal of the cross edge b-c leaves it in the view -/
example : ∃ s s' : GS DemoFrame Int,
    run [.addEdge "a" "b" 1, .addEdge "b" "c" 2, .addEdge "c" "a" 3, .getTree "a" true 0] init = some s ∧
    GS.removeEdge "b" "c" s = .ok () s' ∧ s'.g.edges.length = 4 ∧
    (s'.views 0).crossEdges.map (fun c => (c.origin, c.target)) = [(1, 2)] :=
  ⟨_, _, rfl, rfl, rfl, rfl⟩

/-- two cross edges inside the subtree (a triangle behind it has one, a square with a diagonal two): undefined behaviour -/
example : ∃ s : GS DemoFrame Int, ∃ r,
    run [.addEdge "a" "b" 1, .addEdge "b" "c" 2, .addEdge "b" "d" 3, .addEdge "b" "e" 4, .addEdge "c" "d" 5, .addEdge "d" "e" 6,
      .getTree "a" true 0] init = some s ∧
    GS.removeEdge "a" "b" s = .ub r :=
  ⟨_, _, rfl, rfl⟩

/-- the chain a-b-c in the view, then the connection a-c: the removal of a-b takes the whole subtree out, only the root is left, and
the call throws because the cross edge leaves the subtree -/
example : (run [.addEdge "a" "b" 1, .addEdge "b" "c" 2, .getTree "a" true 0, .addEdge "a" "c" 3] (init : GS DemoFrame Int)).map
    (fun s => ((GS.removeEdge "a" "b" s).exn?, (s.views 0).crossEdges.map (fun c => (c.origin, c.target)))) =
    some (some (.runtimeError "NOT IMPLEMENTED"), [(0, 2)]) := by decide +kernel

/-- three cross edges inside the subtree of b; the last of the vector is erased first, then the first one: the iterator of the second
one is invalid -/
example : (run [.addEdge "a" "b" 1, .addEdge "b" "c" 2, .addEdge "b" "d" 3, .addEdge "b" "e" 4, .addEdge "b" "f" 4,
      .getTree "a" true 0, .addEdge "c" "e" 5, .addEdge "c" "f" 6, .addEdge "c" "d" 7] (init : GS DemoFrame Int)).map
    (fun s => ((GS.removeEdge "a" "b" s) matches .ub _, (s.views 0).crossEdges.map (fun c => (c.origin, c.target)))) =
    some (true, [(2, 4), (2, 5), (2, 3)]) := by decide +kernel

end Verif
