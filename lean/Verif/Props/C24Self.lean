import Verif.Lemmas.ViewRemoveSelf
import Verif.Lemmas.Subs
import Verif.Spec.Demo
/-! # C24 (continued): self edges behind a removed edge

The exact condition of `C24_exact` also decides for graphs with self edges.  A self edge that a view lists once does no harm.  A self edge that
a view lists twice, as each view does that was made by `getTree` while the self edge was there, makes it impossible to remove an edge
above it: `TreeView::removeEdge` uses an iterator into the vector of cross edges after it was invalidated. -/

namespace Verif
open GS TreeView
variable {F E : Type} [FrameProp F] [EdgeProp E]

/-- **Exact condition with self edges**: in every history and every state in which all subscribed views are correct (self edges listed once or
twice), `remove_edge` of an existing connection of two different frames returns normally if and only if for each subscribed view in which it is
a tree edge no cross edge leads out of the part behind it and the cross edges inside, self edges included, are closed in the reverse order
of the list.  Then a view is correct for the new graph if and only if the connection was not one of its cross edges. -/
theorem C24_exact_with_self_edges (cs : List (Cmd F E)) (s : GS F E)
    (h : run cs init = some s) (hok : ∀ q ∈ s.subs, ∃ root, IsTreeViewLoops s.g root (s.views q))
    (o t : FrameId) (hot : o ≠ t) (u v : VId) (ho : getVertex o s = .ok u s) (ht : getVertex t s = .ok v s) (hc : s.Conn o t) :
    ((∃ s', GS.removeEdge o t s = .ok () s') ↔ ∀ q ∈ s.subs, (s.views q).Sealed u v ∧ (s.views q).ClosedBackwards u v) ∧
    (∀ s', GS.removeEdge o t s = .ok () s' → ∀ q ∈ s.subs, ∀ root, IsTreeViewLoops s.g root (s.views q) →
      (IsTreeViewLoops s'.g root (s'.views q) ↔ ∀ c ∈ (s.views q).crossEdges, ¬ c.Joins u v)) := by
  have hw : WF s.g := run_wf WF.empty h
  have hp : Paired s.g.ns := run_paired_ns h
  have hsub := run_subsInv init_subsInv h
  have hu := getVertex_ok ho
  have hv := getVertex_ok ht
  have huv : u ≠ v := fun e => hot (hw.vertexOf_inj hu (e ▸ hv))
  have hadj := (adj_iff_conn hu hv).1 hc
  obtain ⟨e, hedge⟩ := Option.isSome_iff_exists.1 (G.edge_isSome.2 hadj)
  have hr : GS.removeEdge o t s = removeEdgeBoth o t u v s := by simp [GS.removeEdge, hu, hv]
  have key := views_return_iff_loops hp hsub.1 hok (u := u) (v := v)
  rw [hr, removeEdgeBoth_eq_ns hw hp o t huv hedge]
  constructor
  · rw [← key]
    constructor
    · rintro ⟨s', hs'⟩
      cases hx : removeEdgeFromTreeViews u v s.subs s.views with
      | ok x vs => exact ⟨vs, rfl⟩
      | throw x vs => rw [hx] at hs'; cases hs'
      | ub r => rw [hx] at hs'; cases hs'
    · rintro ⟨vs, hvs⟩
      rw [hvs]; exact ⟨_, rfl⟩
  · intro s' hs' q hq root hroot
    cases hx : removeEdgeFromTreeViews u v s.subs s.views with
    | throw x vs => rw [hx] at hs'; cases hs'
    | ub r => rw [hx] at hs'; cases hs'
    | ok x vs =>
      rw [hx] at hs'
      simp only [Res.ok.injEq, true_and] at hs'
      subst hs'
      obtain ⟨vs2, hvs2, hview⟩ := views_ok_loops hp s.subs s.views hsub.1 hok (key.1 ⟨vs, hx⟩)
      rw [hx] at hvs2
      simp only [Res.ok.injEq, true_and] at hvs2
      subst hvs2
      obtain ⟨v1, v2⟩ := hview q hq root hroot
      by_cases hte : (s.views q).TreeEdge u v
      · refine ⟨fun _ c hcm hj => ?_, fun _ => v1 hte⟩
        have hne : c.origin ≠ c.target := by
          rcases hj with ⟨h1, h2⟩ | ⟨h1, h2⟩
          · rw [h1, h2]; exact huv
          · rw [h1, h2]; exact huv.symm
        have hcm' : c ∈ (s.views q).crossEdges.filter (fun c => c.origin ≠ c.target) := List.mem_filter.2 ⟨hcm, by simpa using hne⟩
        obtain ⟨hab, -, hoin, -⟩ := joins_adj hp hroot.view hcm' hj
        have h3 := hroot.view.tree_not_cross _ _ hab ((hroot.view.span _).1 hoin) hte
        have : c ∈ ((s.views q).crossEdges.filter (fun c => c.origin ≠ c.target)).filter (fun x => x.Joins u v) := by
          rw [List.mem_filter]; exact ⟨hcm', by simpa using hj⟩
        simp only at h3
        rw [h3] at this; cases this
      · simp only [v2 hte]
        exact hroot.not_tree hp huv hadj hte

/-- a self edge at `b` that was added after the view was made is listed once: `a`-`b` can be removed and the view follows -/
example : (run [.addEdge "a" "b" 1, .getTree "a" true 0, .addEdge "b" "b" 2, .removeEdge "a" "b"] (init : GS DemoFrame Int)).map (fun s =>
      ((s.views 0).tree, (s.views 0).crossEdges)) = some ([(0, ⟨none, []⟩)], []) := by decide +kernel

/-- the condition fails for a self edge that is listed twice ... -/
theorem twice_not_closed {w : TreeView} {u v x : VId} (hte : w.TreeEdge u v) (hx : w.Cut u v x)
    (h2 : (w.crossEdges.filter (fun c => c.Joins x x)).length = 2) : ¬ w.ClosedBackwards u v := by
  intro hcl
  have h := (hcl hte).sublist (List.filter_sublist (p := fun c => decide (c.Joins x x)))
  have hj : ∀ c ∈ w.crossEdges.filter (fun c => c.Joins x x), c.origin = x ∧ c.target = x := by
    intro c hc
    simpa [CrossEdge.Joins] using (List.mem_filter.1 hc).2
  generalize w.crossEdges.filter (fun c => c.Joins x x) = l at *
  match l, h2 with
  | [c, c'], _ =>
    have a := (List.pairwise_cons.1 h).1 c' (by simp) (by rw [(hj c (by simp)).1]; exact hx) (by rw [(hj c' (by simp)).1]; exact hx)
    unfold lastVisit at a
    rw [(hj c (by simp)).1, (hj c (by simp)).2, (hj c' (by simp)).1, (hj c' (by simp)).2] at a
    omega

/-- Negative: when a correct subscribed view lists a self edge twice, no connection above its frame in the view can be removed: if no cross
edge leads out of the part behind it (in any subscribed view), the call has undefined behaviour.  In no case does it return normally. -/
theorem C24_self_edge_fails (cs : List (Cmd F E)) (s : GS F E)
    (h : run cs init = some s) (hok : ∀ q ∈ s.subs, ∃ root, IsTreeViewLoops s.g root (s.views q))
    (o t : FrameId) (hot : o ≠ t) (u v : VId) (ho : getVertex o s = .ok u s) (ht : getVertex t s = .ok v s) (hc : s.Conn o t)
    (q : Nat) (hq : q ∈ s.subs) (hte : (s.views q).TreeEdge u v) (x : VId) (hx : (s.views q).Cut u v x)
    (h2 : ((s.views q).crossEdges.filter (fun c => c.Joins x x)).length = 2) :
    (∀ s', GS.removeEdge o t s ≠ .ok () s') ∧
    ((∀ q ∈ s.subs, (s.views q).Sealed u v) → ∃ r, GS.removeEdge o t s = .ub r) := by
  have hw : WF s.g := run_wf WF.empty h
  have hp : Paired s.g.ns := run_paired_ns h
  have hsub := run_subsInv init_subsInv h
  have hnc := twice_not_closed hte hx h2
  refine ⟨fun s' hs' => hnc (((C24_exact_with_self_edges cs s h hok o t hot u v ho ht hc).1.1 ⟨s', hs'⟩ q hq).2), fun hs => ?_⟩
  have hu := getVertex_ok ho
  have hv := getVertex_ok ht
  have huv : u ≠ v := fun e => hot (hw.vertexOf_inj hu (e ▸ hv))
  obtain ⟨e, hedge⟩ := Option.isSome_iff_exists.1 (G.edge_isSome.2 ((adj_iff_conn hu hv).1 hc))
  have hr : GS.removeEdge o t s = removeEdgeBoth o t u v s := by simp [GS.removeEdge, hu, hv]
  rw [hr, removeEdgeBoth_eq_ns hw hp o t huv hedge]
  obtain ⟨r, hy⟩ := views_ub_loops hp s.subs s.views hsub.1 hok hs ⟨q, hq, hnc⟩
  rw [hy]
  exact ⟨r, rfl⟩

/-- the same calls as above in another order, so that `getTree` comes after the self edge: undefined behaviour, also when a connection further
up is removed -/
example : (run [.addEdge "a" "b" 1, .addEdge "b" "b" 2, .getTree "a" true 0] (init : GS DemoFrame Int)).map (fun s =>
      (((s.views 0).crossEdges.map (fun c => (c.origin, c.target))), (GS.removeEdge "a" "b" s).st?.isSome)) =
        some ([(1, 1), (1, 1)], false) ∧
    (run [.addEdge "a" "b" 1, .addEdge "b" "c" 1, .addEdge "c" "c" 2, .getTree "a" true 0] (init : GS DemoFrame Int)).map (fun s =>
      ((GS.removeEdge "a" "b" s).st?.isSome, (GS.removeEdge "b" "c" s).st?.isSome)) = some (false, false) ∧
    -- a self edge at the root is not behind any connection
    (run [.addEdge "a" "b" 1, .addEdge "b" "c" 1, .addEdge "a" "a" 2, .getTree "a" true 0] (init : GS DemoFrame Int)).map (fun s =>
      ((GS.removeEdge "a" "b" s).val?.isSome, (GS.removeEdge "b" "c" s).val?.isSome)) = some (true, true) := by decide +kernel

/-- The only exception that comes out of the update of correct views is the "NOT IMPLEMENTED" one; it means that a cross edge of a
subscribed view leads out of the part behind the connection, and the connection is gone from the graph all the same. -/
theorem C24_throws_only_with_self_edges (cs : List (Cmd F E)) (s : GS F E)
    (h : run cs init = some s) (hok : ∀ q ∈ s.subs, ∃ root, IsTreeViewLoops s.g root (s.views q))
    (o t : FrameId) (hot : o ≠ t) (u v : VId) (ho : getVertex o s = .ok u s) (ht : getVertex t s = .ok v s) (hc : s.Conn o t)
    (x : Exn) (s' : GS F E) (hx : GS.removeEdge o t s = .throw x s') :
    x = .runtimeError "NOT IMPLEMENTED" ∧ ¬ s'.Conn o t ∧ ∃ q ∈ s.subs, ¬ (s.views q).Sealed u v := by
  have hw : WF s.g := run_wf WF.empty h
  have hp : Paired s.g.ns := run_paired_ns h
  have hsub := run_subsInv init_subsInv h
  have hu := getVertex_ok ho
  have hv := getVertex_ok ht
  have huv : u ≠ v := fun e => hot (hw.vertexOf_inj hu (e ▸ hv))
  obtain ⟨e, hedge⟩ := Option.isSome_iff_exists.1 (G.edge_isSome.2 ((adj_iff_conn hu hv).1 hc))
  have hr : GS.removeEdge o t s = removeEdgeBoth o t u v s := by simp [GS.removeEdge, hu, hv]
  rw [hr, removeEdgeBoth_eq_ns hw hp o t huv hedge] at hx
  cases hy : removeEdgeFromTreeViews u v s.subs s.views with
  | ok a vs => rw [hy] at hx; cases hx
  | ub r => rw [hy] at hx; cases hx
  | throw y vs =>
    rw [hy] at hx
    simp only [Res.throw.injEq] at hx
    obtain ⟨rfl, rfl⟩ := hx
    obtain ⟨h3, h4⟩ := views_throw_loops hp s.subs s.views hsub.1 hok _ _ hy
    refine ⟨h3, ?_, h4⟩
    intro hc'
    have := (adj_iff_conn (u := u) (v := v) (by exact hu) (by exact hv)).1 hc'
    exact (cut_adj.1 this).2 (Or.inl ⟨rfl, rfl⟩)

/-- a triangle with a self edge at the root: the exception, and `a`-`b` is gone -/
example : (run [.addEdge "a" "b" 1, .addEdge "b" "c" 1, .addEdge "c" "a" 1, .addEdge "a" "a" 2, .getTree "a" true 0]
      (init : GS DemoFrame Int)).map (fun s => ((GS.removeEdge "a" "b" s).exn?,
        (GS.removeEdge "a" "b" s).st?.map (fun s' => (containsEdge "a" "b" s').val?))) =
    some (some (.runtimeError "NOT IMPLEMENTED"), some (some false)) := by decide +kernel

end Verif
