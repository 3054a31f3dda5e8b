import Verif.Lemmas.ViewRemoveExact
import Verif.Lemmas.Mirror
import Verif.Lemmas.ForestHistory
import Verif.Spec.Demo
/-! # C24 (continued): exactly which removals subscribed tree views follow

`C24_exact` decides for every state with correct subscribed views whether `remove_edge` returns normally and whether each view follows.
It holds for every order of the children in the view, so also for every iteration order of `std::unordered_set`. -/

namespace Verif
open GS TreeView
variable {F E : Type} [FrameProp F] [EdgeProp E]

private theorem setView_self (vs : Nat → TreeView) (p : Nat) : setView vs p (vs p) = vs := by
  funext q; unfold setView; split
  · rename_i hq; rw [hq]
  · rfl

private theorem views_ok {g : G F E} (hp : Paired g) {a b : VId} :
    ∀ (ps : List Nat) (vs : Nat → TreeView), ps.Nodup → (∀ p ∈ ps, ∃ root, IsTreeView g root (vs p)) →
    (∀ p ∈ ps, (vs p).Sealed a b ∧ (vs p).ClosedBackwards a b) →
    ∃ vs', removeEdgeFromTreeViews a b ps vs = .ok () vs' ∧
      ∀ p ∈ ps, ∀ root, IsTreeView g root (vs p) →
        ((vs p).TreeEdge a b → IsTreeView (g.cut a b) root (vs' p)) ∧ (¬ (vs p).TreeEdge a b → vs' p = vs p) := by
  classical
  intro ps
  induction ps with
  | nil => intro vs _ _ _; exact ⟨vs, rfl, by simp⟩
  | cons p ps ih =>
    intro vs hnd hok hcl
    obtain ⟨hpn, hnd⟩ := List.nodup_cons.1 hnd
    obtain ⟨root, hroot⟩ := hok p (by simp)
    have hc := hcl p (by simp)
    have hw' : ∃ w', ((vs p).TreeEdge a b → (vs p).removeEdge a b = .ok () w' ∧ IsTreeView (g.cut a b) root w') ∧
        (¬ (vs p).TreeEdge a b → w' = vs p) := by
      by_cases ht : (vs p).TreeEdge a b
      · obtain ⟨w', h1, h2⟩ := (removeEdge_exact hp hroot ht).1 hc.1 hc.2
        exact ⟨w', fun _ => ⟨h1, h2⟩, fun h => absurd ht h⟩
      · exact ⟨vs p, fun h => absurd h ht, fun _ => rfl⟩
    obtain ⟨w', hw1, hw2⟩ := hw'
    have hsame : ∀ q ∈ ps, setView vs p w' q = vs q := by
      intro q hq
      have : q ≠ p := by rintro rfl; exact hpn hq
      simp [setView, this]
    obtain ⟨vs', h3, h4⟩ := ih (setView vs p w') hnd
      (by intro q hq; rw [hsame q hq]; exact hok q (List.mem_cons_of_mem _ hq))
      (by intro q hq; rw [hsame q hq]; exact hcl q (List.mem_cons_of_mem _ hq))
    refine ⟨vs', ?_, ?_⟩
    · unfold removeEdgeFromTreeViews
      by_cases ht : (vs p).TreeEdge a b
      · rw [hroot.edgeExists_true hp ht]
        simp only [(hw1 ht).1]
        exact h3
      · rw [hroot.edgeExists_false ht]
        rw [hw2 ht, setView_self] at h3
        exact h3
    · intro q hq root' hr'
      rcases List.mem_cons.1 hq with rfl | hq
      · have hv' : vs' q = w' := by
          have := (removeEdgeFromTreeViews_same ps (setView vs q w') vs' (by rw [h3]; rfl)).1 q hpn
          rw [this]; simp [setView]
        rw [hv']
        have : root' = root := by
          have e1 := hr'.root_eq
          rw [hroot.root_eq] at e1
          exact (Option.some.inj e1).symm
        rw [this]; exact ⟨fun ht => (hw1 ht).2, hw2⟩
      · have := h4 q hq root' (by rw [hsame q hq]; exact hr')
        rw [hsame q hq] at this
        exact this

private theorem views_ub {g : G F E} (hp : Paired g) {a b : VId} :
    ∀ (ps : List Nat) (vs : Nat → TreeView), ps.Nodup → (∀ p ∈ ps, ∃ root, IsTreeView g root (vs p)) →
    (∀ p ∈ ps, (vs p).Sealed a b) → (∃ p ∈ ps, ¬ (vs p).ClosedBackwards a b) →
    ∃ r, removeEdgeFromTreeViews a b ps vs = .ub r := by
  classical
  intro ps
  induction ps with
  | nil => intro vs _ _ _ h; obtain ⟨p, hp', -⟩ := h; cases hp'
  | cons p ps ih =>
    intro vs hnd hok hsl hex
    obtain ⟨hpn, hnd⟩ := List.nodup_cons.1 hnd
    obtain ⟨root, hroot⟩ := hok p (by simp)
    have hs := hsl p (by simp)
    have hsame : ∀ w', ∀ q ∈ ps, setView vs p w' q = vs q := by
      intro w' q hq
      have : q ≠ p := by rintro rfl; exact hpn hq
      simp [setView, this]
    have hrest : (vs p).ClosedBackwards a b → ∀ w', ∃ r, removeEdgeFromTreeViews a b ps (setView vs p w') = .ub r := by
      intro hc w'
      refine ih _ hnd (by intro q hq; rw [hsame w' q hq]; exact hok q (List.mem_cons_of_mem _ hq))
        (by intro q hq; rw [hsame w' q hq]; exact hsl q (List.mem_cons_of_mem _ hq)) ?_
      obtain ⟨q, hq, hqc⟩ := hex
      rcases List.mem_cons.1 hq with rfl | hq
      · exact absurd hc hqc
      · exact ⟨q, hq, by rw [hsame w' q hq]; exact hqc⟩
    unfold removeEdgeFromTreeViews
    by_cases ht : (vs p).TreeEdge a b
    · rw [hroot.edgeExists_true hp ht]
      simp only
      by_cases hc : (vs p).ClosedBackwards a b
      · obtain ⟨w', h1, -⟩ := (removeEdge_exact hp hroot ht).1 hs hc
        simp only [h1]
        exact hrest hc w'
      · obtain ⟨r, hr⟩ := (removeEdge_exact hp hroot ht).2.1 hs hc
        exact ⟨r, by simp only [hr]⟩
    · rw [hroot.edgeExists_false ht]
      simp only
      have hc : (vs p).ClosedBackwards a b := fun h => absurd h ht
      have := hrest hc (vs p)
      rw [setView_self] at this
      exact this

private theorem views_throw {g : G F E} (hp : Paired g) {a b : VId} :
    ∀ (ps : List Nat) (vs : Nat → TreeView), ps.Nodup → (∀ p ∈ ps, ∃ root, IsTreeView g root (vs p)) →
    ∀ x vs', removeEdgeFromTreeViews a b ps vs = .throw x vs' →
      x = .runtimeError "NOT IMPLEMENTED" ∧ ∃ p ∈ ps, ¬ (vs p).Sealed a b := by
  classical
  intro ps
  induction ps with
  | nil => intro vs _ _ x vs' h; simp [removeEdgeFromTreeViews] at h
  | cons p ps ih =>
    intro vs hnd hok x vs' h
    obtain ⟨hpn, hnd⟩ := List.nodup_cons.1 hnd
    obtain ⟨root, hroot⟩ := hok p (by simp)
    have hsame : ∀ w', ∀ q ∈ ps, setView vs p w' q = vs q := by
      intro w' q hq
      have : q ≠ p := by rintro rfl; exact hpn hq
      simp [setView, this]
    have hrest : ∀ w', removeEdgeFromTreeViews a b ps (setView vs p w') = .throw x vs' →
        x = .runtimeError "NOT IMPLEMENTED" ∧ ∃ q ∈ p :: ps, ¬ (vs q).Sealed a b := by
      intro w' h
      obtain ⟨h1, q, hq, h2⟩ := ih _ hnd (by intro q hq; rw [hsame w' q hq]; exact hok q (List.mem_cons_of_mem _ hq)) x vs' h
      exact ⟨h1, q, List.mem_cons_of_mem _ hq, by rw [hsame w' q hq] at h2; exact h2⟩
    unfold removeEdgeFromTreeViews at h
    by_cases ht : (vs p).TreeEdge a b
    · rw [hroot.edgeExists_true hp ht] at h
      simp only at h
      obtain ⟨e1, e2, e3⟩ := removeEdge_exact hp hroot ht
      by_cases hs : (vs p).Sealed a b
      · by_cases hc : (vs p).ClosedBackwards a b
        · obtain ⟨w', h1, -⟩ := e1 hs hc
          rw [h1] at h
          exact hrest w' h
        · obtain ⟨r, hr⟩ := e2 hs hc
          rw [hr] at h; cases h
      · rcases e3 hs with ⟨r, hr⟩ | ⟨w', hr⟩
        · rw [hr] at h; cases h
        · rw [hr] at h
          simp only [Res.throw.injEq] at h
          exact ⟨h.1.symm, p, by simp, hs⟩
    · rw [hroot.edgeExists_false ht] at h
      simp only at h
      refine hrest (vs p) ?_
      rw [setView_self]; exact h

private theorem views_return_iff {s : GS F E} (hp : Paired s.g) (hsub : s.subs.Nodup)
    (hok : ∀ q ∈ s.subs, ∃ root, IsTreeView s.g root (s.views q)) {u v : VId} :
    (∃ vs, removeEdgeFromTreeViews u v s.subs s.views = .ok () vs) ↔
      ∀ q ∈ s.subs, (s.views q).Sealed u v ∧ (s.views q).ClosedBackwards u v := by
  constructor
  · rintro ⟨vs, hvs⟩ q hq
    obtain ⟨root, hroot⟩ := hok q hq
    by_cases hte : (s.views q).TreeEdge u v
    · obtain ⟨w', hw'⟩ := removeEdgeFromTreeViews_ok s.subs s.views vs hsub hq (hroot.edgeExists_true hp hte) hvs
      obtain ⟨-, e2, e3⟩ := removeEdge_exact hp hroot hte
      have hs : (s.views q).Sealed u v := by
        by_contra hs
        rcases e3 hs with ⟨r, hr⟩ | ⟨w'', hr⟩ <;> rw [hr] at hw' <;> cases hw'
      refine ⟨hs, ?_⟩
      by_contra hcl
      obtain ⟨r, hr⟩ := e2 hs hcl
      rw [hr] at hw'; cases hw'
    · exact ⟨fun hh => absurd hh hte, fun hh => absurd hh hte⟩
  · intro hall
    obtain ⟨vs, hvs, -⟩ := views_ok hp s.subs s.views hsub hok hall
    exact ⟨vs, hvs⟩

/-- `remove_edge` of an existing connection in a state with correct views: when it returns normally -/
theorem removeEdge_returns_iff {s : GS F E} (hw : WF s.g) (hp : Paired s.g) (hsub : s.subs.Nodup)
    (hok : ∀ q ∈ s.subs, ∃ root, IsTreeView s.g root (s.views q)) {o t : FrameId} {u v : VId} (hu : s.g.vertexOf o = some u)
    (hv : s.g.vertexOf t = some v) (hc : s.Conn o t) :
    (∃ s', GS.removeEdge o t s = .ok () s') ↔ ∀ q ∈ s.subs, (s.views q).Sealed u v ∧ (s.views q).ClosedBackwards u v := by
  obtain ⟨e, he, h1, h2⟩ := (adj_iff_conn hu hv).1 hc
  have hr : GS.removeEdge o t s = removeEdgeBoth o t u v s := by simp [GS.removeEdge, hu, hv]
  rw [hr, removeEdgeBoth_eq hw hp o t (hp.edge_iff.2 ⟨he, h1, h2⟩), ← views_return_iff hp hsub hok]
  constructor
  · rintro ⟨s', hs'⟩
    cases hx : removeEdgeFromTreeViews u v s.subs s.views with
    | ok x vs => exact ⟨vs, rfl⟩
    | throw x vs => rw [hx] at hs'; cases hs'
    | ub r => rw [hx] at hs'; cases hs'
  · rintro ⟨vs, hvs⟩
    rw [hvs]; exact ⟨_, rfl⟩

/-- **Exact condition**: in every history without self edges and every state in which all subscribed views are correct, `remove_edge` of
an existing connection returns normally if and only if for each subscribed view in which it is a tree edge (1) no cross edge leads out of
the part behind it, and (2) the cross edges inside that part are closed in the reverse order of the list of cross edges.  Then a view is a
correct view of the new graph if and only if the connection was not one of its cross edges. -/
theorem C24_exact (cs : List (Cmd F E)) (hns : ∀ a p, Cmd.addEdge a a p ∉ cs) (s : GS F E)
    (h : run cs init = some s) (hok : ∀ q ∈ s.subs, ∃ root, IsTreeView s.g root (s.views q))
    (o t : FrameId) (u v : VId) (ho : getVertex o s = .ok u s) (ht : getVertex t s = .ok v s) (hc : s.Conn o t) :
    ((∃ s', GS.removeEdge o t s = .ok () s') ↔ ∀ q ∈ s.subs, (s.views q).Sealed u v ∧ (s.views q).ClosedBackwards u v) ∧
    (∀ s', GS.removeEdge o t s = .ok () s' → ∀ q ∈ s.subs, ∀ root, IsTreeView s.g root (s.views q) →
      (IsTreeView s'.g root (s'.views q) ↔ ∀ c ∈ (s.views q).crossEdges, ¬ c.Joins u v)) := by
  have hw : WF s.g := run_wf WF.empty h
  have hp : Paired s.g := run_paired WF.empty Paired.empty h (noSelf_of hns)
  have hsub := run_subsInv init_subsInv h
  have hu := getVertex_ok ho
  have hv := getVertex_ok ht
  obtain ⟨e, he, h1, h2⟩ := (adj_iff_conn hu hv).1 hc
  have hadj : s.g.Adj u v := ⟨e, he, h1, h2⟩
  have hedge := hp.edge_iff.2 ⟨he, h1, h2⟩
  have hr : GS.removeEdge o t s = removeEdgeBoth o t u v s := by simp [GS.removeEdge, hu, hv]
  refine ⟨removeEdge_returns_iff hw hp hsub.1 hok hu hv hc, ?_⟩
  rw [hr, removeEdgeBoth_eq hw hp o t hedge]
  have key := views_return_iff hp hsub.1 hok (u := u) (v := v)
  · intro s' hs' q hq root hroot
    cases hx : removeEdgeFromTreeViews u v s.subs s.views with
    | throw x vs => rw [hx] at hs'; cases hs'
    | ub r => rw [hx] at hs'; cases hs'
    | ok x vs =>
      rw [hx] at hs'
      simp only [Res.ok.injEq, true_and] at hs'
      subst hs'
      obtain ⟨vs2, hvs2, hview⟩ := views_ok hp s.subs s.views hsub.1 hok (key.1 ⟨vs, hx⟩)
      rw [hx] at hvs2
      simp only [Res.ok.injEq, true_and] at hvs2
      subst hvs2
      obtain ⟨v1, v2⟩ := hview q hq root hroot
      by_cases hte : (s.views q).TreeEdge u v
      · refine ⟨fun _ c hcm hj => ?_, fun _ => v1 hte⟩
        have hroot' := hroot
        obtain ⟨hab, -, hoin, -⟩ := joins_adj hp hroot hcm hj
        have h3 := hroot.tree_not_cross _ _ hab ((hroot.span _).1 hoin) hte
        have : c ∈ (s.views q).crossEdges.filter (fun x => x.Joins u v) := by
          simp only [List.mem_filter, decide_eq_true_eq]; exact ⟨hcm, hj⟩
        rw [h3] at this; cases this
      · have hsame := v2 hte
        constructor
        · intro hv' c hcm hj
          simp only [hsame] at hv'
          obtain ⟨e', he', -, b1, b2, -⟩ := hv'.cross_edge c hcm
          simp only [G.cut, List.mem_filter, decide_eq_true_eq] at he'
          exact he'.2 (by rw [b1, b2]; exact hj)
        · intro hno
          obtain ⟨n1, n2⟩ := hroot.outside hp hadj hte hno
          simp only [hsame]
          exact hroot.cut_outside n1 n2

/-- Negative: if no cross edge of a subscribed view leads out, but two inner ones of some view are closed in the order of the list, then
the call has undefined behaviour (an iterator is used after an erase before its position). -/
theorem C24_inner_fails (cs : List (Cmd F E)) (hns : ∀ a p, Cmd.addEdge a a p ∉ cs) (s : GS F E)
    (h : run cs init = some s) (hok : ∀ q ∈ s.subs, ∃ root, IsTreeView s.g root (s.views q))
    (o t : FrameId) (u v : VId) (ho : getVertex o s = .ok u s) (ht : getVertex t s = .ok v s) (hc : s.Conn o t)
    (hs : ∀ q ∈ s.subs, (s.views q).Sealed u v) (hn : ∃ q ∈ s.subs, ¬ (s.views q).ClosedBackwards u v) :
    ∃ r, GS.removeEdge o t s = .ub r := by
  have hw : WF s.g := run_wf WF.empty h
  have hp : Paired s.g := run_paired WF.empty Paired.empty h (noSelf_of hns)
  have hsub := run_subsInv init_subsInv h
  have hu := getVertex_ok ho
  have hv := getVertex_ok ht
  obtain ⟨e, he, h1, h2⟩ := (adj_iff_conn hu hv).1 hc
  have hr : GS.removeEdge o t s = removeEdgeBoth o t u v s := by simp [GS.removeEdge, hu, hv]
  rw [hr, removeEdgeBoth_eq hw hp o t (hp.edge_iff.2 ⟨he, h1, h2⟩)]
  obtain ⟨r, hx⟩ := views_ub hp s.subs s.views hsub.1 hok hs hn
  rw [hx]
  exact ⟨r, rfl⟩

/-- The only exception that comes out of the update of correct views is the "NOT IMPLEMENTED" one; it means that a cross edge of a
subscribed view leads out of the part behind the connection, and the connection is gone from the graph all the same. -/
theorem C24_throws_only (cs : List (Cmd F E)) (hns : ∀ a p, Cmd.addEdge a a p ∉ cs) (s : GS F E)
    (h : run cs init = some s) (hok : ∀ q ∈ s.subs, ∃ root, IsTreeView s.g root (s.views q))
    (o t : FrameId) (u v : VId) (ho : getVertex o s = .ok u s) (ht : getVertex t s = .ok v s) (hc : s.Conn o t)
    (x : Exn) (s' : GS F E) (hx : GS.removeEdge o t s = .throw x s') :
    x = .runtimeError "NOT IMPLEMENTED" ∧ ¬ s'.Conn o t ∧ ∃ q ∈ s.subs, ¬ (s.views q).Sealed u v := by
  have hw : WF s.g := run_wf WF.empty h
  have hp : Paired s.g := run_paired WF.empty Paired.empty h (noSelf_of hns)
  have hsub := run_subsInv init_subsInv h
  have hu := getVertex_ok ho
  have hv := getVertex_ok ht
  obtain ⟨e, he, h1, h2⟩ := (adj_iff_conn hu hv).1 hc
  have hr : GS.removeEdge o t s = removeEdgeBoth o t u v s := by simp [GS.removeEdge, hu, hv]
  rw [hr, removeEdgeBoth_eq hw hp o t (hp.edge_iff.2 ⟨he, h1, h2⟩)] at hx
  cases hy : removeEdgeFromTreeViews u v s.subs s.views with
  | ok a vs => rw [hy] at hx; cases hx
  | ub r => rw [hy] at hx; cases hx
  | throw y vs =>
    rw [hy] at hx
    simp only [Res.throw.injEq] at hx
    obtain ⟨rfl, rfl⟩ := hx
    obtain ⟨a1, a2⟩ := views_throw hp s.subs s.views hsub.1 hok _ _ hy
    refine ⟨a1, ?_, a2⟩
    intro hc'
    have := (adj_iff_conn (s := { s with g := s.g.cut u v, views := vs, trace := _ }) (u := u) (v := v) hu hv).1 hc'
    exact (cut_adj.1 this).2 (Or.inl ⟨rfl, rfl⟩)

/-- The part behind a-b with cross edges c-d and d-e: the list closes c-d first, so the removal is undefined ... -/
example : ∃ s : GS DemoFrame Int,
    run [.addEdge "a" "b" 1, .addEdge "b" "c" 2, .addEdge "b" "d" 3, .addEdge "b" "e" 4, .addEdge "c" "d" 5, .addEdge "d" "e" 6,
      .getTree "a" true 0] init = some s ∧
    (s.views 0).crossEdges.map (fun c => (c.origin, c.target)) = [(2, 3), (3, 4)] ∧
    (s.views 0).cutOrder 0 1 = [1, 2, 3, 4] ∧
    (s.views 0).crossEdges.map (lastVisit ((s.views 0).cutOrder 0 1)) = [2, 3] ∧
    ∃ r, GS.removeEdge "a" "b" s = .ub r :=
  ⟨_, rfl, rfl, rfl, rfl, _, rfl⟩

/-- ... and if the same connections were made in another order (d-e before c-d, while the view was subscribed), it works. -/
example : ∃ s s' : GS DemoFrame Int,
    run [.addEdge "a" "b" 1, .addEdge "b" "c" 2, .addEdge "b" "d" 3, .addEdge "b" "e" 4, .getTree "a" true 0, .addEdge "d" "e" 6,
      .addEdge "c" "d" 5] init = some s ∧
    (s.views 0).crossEdges.map (lastVisit ((s.views 0).cutOrder 0 1)) = [3, 2] ∧
    GS.removeEdge "a" "b" s = .ok () s' ∧
    (s'.views 0).tree.map Prod.fst = [0] ∧ (s'.views 0).crossEdges.length = 0 :=
  ⟨_, _, rfl, rfl, rfl, rfl, rfl⟩

end Verif
