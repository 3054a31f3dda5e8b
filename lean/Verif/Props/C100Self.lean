import Verif.Lemmas.ShuffleExact
import Verif.Lemmas.ViewRemoveSelf
import Verif.Props.C100
/-! # C100 (continued): the order of the children in graphs with self edges -/

namespace Verif
open GS TreeView
variable {F E : Type} [FrameProp F] [EdgeProp E]

private theorem returns_iff_loops {s : GS F E} (hw : WF s.g) (hp : Paired s.g.ns) (hsub : s.subs.Nodup)
    (hok : ∀ q ∈ s.subs, ∃ root, IsTreeViewLoops s.g root (s.views q)) {o t : FrameId} {u v : VId} (huv : u ≠ v)
    (hu : s.g.vertexOf o = some u) (hv : s.g.vertexOf t = some v) (hc : s.Conn o t) :
    (∃ s', GS.removeEdge o t s = .ok () s') ↔ ∀ q ∈ s.subs, (s.views q).Sealed u v ∧ (s.views q).ClosedBackwards u v := by
  have hadj := (adj_iff_conn hu hv).1 hc
  obtain ⟨e, hedge⟩ := Option.isSome_iff_exists.1 (G.edge_isSome.2 hadj)
  have hr : GS.removeEdge o t s = removeEdgeBoth o t u v s := by simp [GS.removeEdge, hu, hv]
  rw [hr, removeEdgeBoth_eq_ns hw hp o t huv hedge, ← views_return_iff_loops hp hsub hok (u := u) (v := v)]
  constructor
  · rintro ⟨s', hs'⟩
    cases hx : removeEdgeFromTreeViews u v s.subs s.views with
    | ok x vs => exact ⟨vs, rfl⟩
    | throw x vs => rw [hx] at hs'; cases hs'
    | ub r => rw [hx] at hs'; cases hs'
  · rintro ⟨vs, hvs⟩
    rw [hvs]; exact ⟨_, rfl⟩

omit [FrameProp F] [EdgeProp E] in
private theorem shuffle_loops {g : G F E} {root : VId} {w w' : TreeView} (h : w.Shuffle w') (hv : IsTreeViewLoops g root w) :
    IsTreeViewLoops g root w' := by
  have hs : TreeView.Shuffle { w with crossEdges := w.crossEdges.filter (fun c => c.origin ≠ c.target) }
      { w' with crossEdges := w'.crossEdges.filter (fun c => c.origin ≠ c.target) } :=
    ⟨h.get, by simp only [h.cross], h.root, h.publisher, h.signals⟩
  refine ⟨hs.isTreeView hv.view, ?_, ?_⟩
  · rw [h.cross]; exact hv.loops_le
  · rw [h.cross]
    intro u
    rw [hv.loops_pos u, h.vertexExists]

private theorem loops_tidy {g : G F E} (hp : Paired g.ns) {root : VId} {w : TreeView} (h : IsTreeViewLoops g root w) : w.Tidy := by
  have := IsTreeView.tidy (g := g.ns) hp h.view
  exact ⟨this.children, this.parent, this.rank⟩

/-- **Exact condition for `remove_edge` with self edges**, for every order of the children, in every history with correct subscribed views (self
edges listed once or twice).  A self edge behind the connection counts as a cross edge that is as deep as its frame; so it must not be listed
twice, and not after a cross edge that is as deep or less deep. -/
theorem C100_removeEdge_exact_with_self_edges (cs : List (Cmd F E)) (s : GS F E)
    (h : run cs init = some s) (hok : ∀ q ∈ s.subs, ∃ root, IsTreeViewLoops s.g root (s.views q))
    (o t : FrameId) (hot : o ≠ t) (u v : VId) (ho : getVertex o s = .ok u s) (ht : getVertex t s = .ok v s) (hc : s.Conn o t) :
    (∀ s', s.Shuffle s' → ∃ r, GS.removeEdge o t s' = .ok () r) ↔
      ∀ q ∈ s.subs, (s.views q).Sealed u v ∧ (s.views q).DeepestFirst u v := by
  have hw : WF s.g := run_wf WF.empty h
  have hp : Paired s.g.ns := run_paired_ns h
  have hsub := (run_subsInv init_subsInv h).1
  have hu := getVertex_ok ho
  have hv := getVertex_ok ht
  have huv : u ≠ v := fun e => hot (hw.vertexOf_inj hu (e ▸ hv))
  have key : ∀ s', s.Shuffle s' → ((∃ r, GS.removeEdge o t s' = .ok () r) ↔
      ∀ q ∈ s.subs, (s'.views q).Sealed u v ∧ (s'.views q).ClosedBackwards u v) := by
    intro s' hs
    have := returns_iff_loops (s := s') (by rw [hs.g]; exact hw) (by rw [hs.g]; exact hp) (by rw [hs.subs]; exact hsub)
      (by rw [hs.subs, hs.g]; intro q hq; obtain ⟨r, hr⟩ := hok q hq; exact ⟨r, shuffle_loops (hs.views q) hr⟩)
      (o := o) (t := t) huv (by rw [hs.g]; exact hu) (by rw [hs.g]; exact hv) ((hs.connEq o t).2 hc)
    rw [this, hs.subs]
  constructor
  · intro hall q hq
    have hs := ((key s (.refl s)).1 (hall s (.refl s)) q hq).1
    refine ⟨hs, ?_⟩
    by_cases ht : (s.views q).TreeEdge u v
    · obtain ⟨root, hroot⟩ := hok q hq
      refine (closed_all_orders (loops_tidy hp hroot) ht hs).1 ?_
      intro w' hw'
      have hsh : s.Shuffle { s with views := setView s.views q w' } := by
        refine ⟨rfl, rfl, rfl, ?_⟩
        intro p
        show (s.views p).Shuffle (setView s.views q w' p)
        unfold setView
        split
        · rename_i h; rw [h]; exact hw'
        · exact .refl _
      have := ((key _ hsh).1 (hall _ hsh) q hq).2
      simpa [setView] using this
    · exact fun h => absurd h ht
  · intro hall s' hs
    rw [key s' hs]
    intro q hq
    obtain ⟨h1, h2⟩ := hall q hq
    refine ⟨((hs.views q).sealed_iff u v).2 h1, ?_⟩
    by_cases ht : (s.views q).TreeEdge u v
    · obtain ⟨root, hroot⟩ := hok q hq
      exact (closed_all_orders (loops_tidy hp hroot) ht h1).2 h2 _ (hs.views q)
    · exact fun h => absurd (((hs.views q).treeEdge u v).1 h) ht

/-- `b` has the children `c` and `d`; the self edge at `d` was made after the view and is listed once, before or after the cross edge `c`-`d` -/
example : (run [.addEdge "a" "b" 1, .addEdge "b" "c" 2, .addEdge "b" "d" 3, .getTree "a" true 0, .addEdge "d" "d" 4] (init : GS DemoFrame Int)).map
      (fun s => ((s.views 0).crossEdges.map (fun c => (c.origin, c.target)), (GS.removeEdge "a" "b" s).val?.isSome,
        (GS.removeEdge "a" "b" (C100.late 2 s)).val?.isSome)) = some ([(3, 3)], true, true) ∧
    -- both end at the same depth: one order of the children is fine, the other is not
    (run [.addEdge "a" "b" 1, .addEdge "b" "c" 2, .addEdge "b" "d" 3, .getTree "a" true 0, .addEdge "d" "d" 4, .addEdge "c" "c" 5]
      (init : GS DemoFrame Int)).map (fun s => ((s.views 0).crossEdges.map (fun c => (c.origin, c.target)), (GS.removeEdge "a" "b" s).val?.isSome,
        (GS.removeEdge "a" "b" (C100.late 2 s)).val?.isSome)) = some ([(3, 3), (2, 2)], true, false) := by decide +kernel

/-- Views that are correct apart from self edges, which are listed once or twice, are tidy; so `C100_calls_partial` and `C100_history_partial` apply. -/
theorem C100_correct_tidy_with_self_edges (cs : List (Cmd F E)) (s : GS F E) (h : run cs init = some s)
    (hok : ∀ q ∈ s.subs, ∃ root, IsTreeViewLoops s.g root (s.views q)) : ∀ q ∈ s.subs, (s.views q).Tidy := by
  intro q hq
  obtain ⟨root, hr⟩ := hok q hq
  exact loops_tidy (run_paired_ns h) hr

/-- a view that lists a self edge twice: following the parents leads to the root from everywhere -/
example : (run [.addEdge "a" "b" 1, .addEdge "b" "b" 2, .addEdge "b" "c" 3, .getTree "a" true 0] (init : GS DemoFrame Int)).map (fun s =>
      ((s.views 0).crossEdges.length, (s.views 0).tree)) = some (2, [(0, ⟨none, [1]⟩), (1, ⟨some 0, [2]⟩), (2, ⟨some 1, []⟩)]) := by decide +kernel

end Verif
