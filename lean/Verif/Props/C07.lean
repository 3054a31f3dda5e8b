import Verif.Lemmas.NoSelf
import Verif.Spec.Demo
/-! # C07: disconnectFrame terminates and removes exactly the edges of the frame -/

namespace Verif
open GS
variable {F E : Type} [FrameProp F] [EdgeProp E]

/-- Missing compared to C07: graphs with subscribed tree views (see `C07_subscribed_view_fails`).  After any history without self
edges and subscribed tree views, `disconnectFrame(f)` on a contained frame terminates without
exception; then no edge touches `f`, all other edges and all frames are as before, and the published events are exactly one
`EdgeRemovedEvent(f, n)` per former neighbour `n`. -/
theorem C07_disconnectFrame_partial (cs : List (Cmd F E)) (hcs : ∀ c ∈ cs, c.plain) (s : GS F E) (h : run cs init = some s)
    (f : FrameId) (hf : containsFrame f s = true) :
    ∃ s', disconnectFrame f s = .ok () s' ∧
      (∀ x, containsEdge f x s' ≠ .ok true s' ∧ containsEdge x f s' ≠ .ok true s') ∧
      (∀ x y, x ≠ f → y ≠ f → ∀ p, getEdgeProperty x y s' = .ok p s' ↔ getEdgeProperty x y s = .ok p s) ∧
      (∀ x, s'.g.vertexOf x = s.g.vertexOf x) ∧ s'.g.verts = s.g.verts ∧
      ∃ nbrs : List FrameId, nbrs.Nodup ∧ (∀ n, n ∈ nbrs ↔ containsEdge f n s = .ok true s) ∧
        s'.trace.map Prod.fst = s.trace.map Prod.fst ++ nbrs.map (fun n => .edgeRemoved f n) := by
  obtain ⟨s0, -, hsim, hrun⟩ := Sim.outcomes hcs (Sim.init (F := F) (E := E))
  obtain rfl : s0 = s := Option.some.inj (hrun.symm.trans h)
  obtain ⟨v, hv⟩ := Option.isSome_iff_exists.1 hf
  obtain ⟨l, h1, h2⟩ := disconnectFrame_eq hsim.wf hsim.paired hsim.subs hv
  have hw := hsim.wf
  have hlive : ∀ e ∈ s0.g.outEdges v, e ∈ s0.g.edges ∧ e.src = v := by
    intro e he; simpa [G.outEdges] using he
  refine ⟨_, h1, ?_, ?_, fun x => rfl, rfl, (s0.g.outEdges v).map (fun e => nameOf s0.g e.tgt), ?_, ?_, ?_⟩
  · intro x
    have hvo : ∀ y, (s0.g.isolate v).vertexOf y = s0.g.vertexOf y := fun y => rfl
    simp only [containsEdge, hvo, hv, edge_isolate]
    cases s0.g.vertexOf x <;> simp
  · intro x y hx hy p
    have hvo : ∀ y, (s0.g.isolate v).vertexOf y = s0.g.vertexOf y := fun y => rfl
    simp only [getEdgeProperty, getEdge, hvo, edge_isolate]
    cases hvx : s0.g.vertexOf x with
    | none => simp
    | some u =>
      cases hvy : s0.g.vertexOf y with
      | none => simp
      | some w =>
        have n1 : u ≠ v := by rintro rfl; exact hx (hw.vertexOf_inj hvx hv)
        have n2 : w ≠ v := by rintro rfl; exact hy (hw.vertexOf_inj hvy hv)
        simp only [n1, n2, or_self, if_false]
        cases s0.g.edge u w <;> simp
  · have hnd : (s0.g.outEdges v).Nodup := (List.Nodup.of_map _ hw.enodup).filter _
    refine (List.nodup_map_iff_inj_on hnd).2 ?_
    intro e he e' he' hn
    obtain ⟨m, hs⟩ := hlive e he
    obtain ⟨m', hs'⟩ := hlive e' he'
    have t1 := vertexOf_nameOf hw (hw.etgt e m)
    have t2 := vertexOf_nameOf hw (hw.etgt e' m')
    rw [hn, t2] at t1
    exact hsim.paired.uniq e m e' m' (hs.trans hs'.symm) (Option.some.inj t1).symm
  · intro n
    simp only [List.mem_map]
    constructor
    · rintro ⟨e, he, rfl⟩
      obtain ⟨m, hs⟩ := hlive e he
      have t1 := vertexOf_nameOf hw (hw.etgt e m)
      simp only [containsEdge, hv, t1, Res.ok.injEq, and_true]
      exact G.edge_isSome.2 ⟨e, m, hs, rfl⟩
    · intro hn
      unfold containsEdge at hn
      cases hvn : s0.g.vertexOf n with
      | none => simp [hv, hvn] at hn
      | some w =>
        simp only [hv, hvn, Res.ok.injEq, and_true] at hn
        obtain ⟨e, he, a1, a2⟩ := G.edge_isSome.1 hn
        refine ⟨e, by simp [G.outEdges, he, a1], ?_⟩
        rw [a2]; exact nameOf_eq hw hvn
  · simp only [List.map_append, h2, List.map_map]
    rfl

/-- the neighbours of "b" are "a" and "c"; the edge c-d stays -/
example : ∃ s s' : GS DemoFrame Int, run [.addEdge "a" "b" 1, .addEdge "c" "b" 2, .addEdge "c" "d" 3] init = some s ∧
    disconnectFrame "b" s = .ok () s' ∧ getEdgeProperty "d" "c" s' = .ok (-3) s' ∧ containsEdge "b" "c" s' = .ok false s' ∧
    (s'.trace.map Prod.fst).drop 7 = [.edgeRemoved "b" "a", .edgeRemoved "b" "c"] :=
  ⟨_, _, rfl, rfl, rfl, rfl, rfl⟩

/-- From `s` to `s'` exactly the connections of `f` with the different frames `nbrs` were removed, both directions, and for each of them
`EdgeRemovedEvent(f, n)` was published; all other edges, all frames and all items are as before. -/
def C07_removed (s s' : GS F E) (f : FrameId) (nbrs : List FrameId) : Prop :=
  nbrs.Nodup ∧ (∀ n ∈ nbrs, containsEdge f n s = .ok true s) ∧
  (∀ x y p, getEdgeProperty x y s' = .ok p s' ↔ getEdgeProperty x y s = .ok p s ∧ ¬ ((x = f ∧ y ∈ nbrs) ∨ (y = f ∧ x ∈ nbrs))) ∧
  (∀ x, s'.g.vertexOf x = s.g.vertexOf x) ∧ s'.g.verts = s.g.verts ∧
  s'.trace.map Prod.fst = s.trace.map Prod.fst ++ nbrs.map (fun n => .edgeRemoved f n)

private theorem removed {s s' : GS F E} {f : FrameId} {v : VId} {ws : List VId} (hw : WF s.g) (hv : s.g.vertexOf f = some v)
    (h : SimV.CutTo s s' f v ws) : C07_removed s s' f (ws.map (nameOf s.g)) := by
  have hvo : ∀ w ∈ ws, s.g.vertexOf (nameOf s.g w) = some w := by
    intro w hm
    obtain ⟨e, he, a1, a2⟩ := G.edge_isSome.1 (h.conn w hm)
    exact a2 ▸ vertexOf_nameOf hw (hw.etgt e he)
  have hmem : ∀ {x u}, s.g.vertexOf x = some u → (x ∈ ws.map (nameOf s.g) ↔ u ∈ ws) := by
    intro x u hx
    rw [List.mem_map]
    constructor
    · rintro ⟨w, hm, rfl⟩
      rw [hvo w hm] at hx
      cases hx; exact hm
    · intro hm; exact ⟨u, hm, nameOf_eq hw hx⟩
  have hf : ∀ {x u}, s.g.vertexOf x = some u → (x = f ↔ u = v) := by
    intro x u hx
    constructor
    · rintro rfl; rw [hx] at hv; exact Option.some.inj hv
    · rintro rfl; exact hw.vertexOf_inj hx hv
  refine ⟨(List.nodup_map_iff_inj_on h.nodup).2 ?_, ?_, ?_, h.label, h.verts, ?_⟩
  · intro a ha b hb hab
    have := hvo a ha
    rw [hab, hvo b hb] at this
    exact (Option.some.inj this).symm
  · intro n hn
    obtain ⟨w, hm, rfl⟩ := List.mem_map.1 hn
    have := h.conn w hm
    simp [containsEdge, hv, hvo w hm, this]
  · intro x y p
    simp only [getEdgeProperty, getEdge, h.label]
    cases hx : s.g.vertexOf x with
    | none => simp
    | some u =>
      cases hy : s.g.vertexOf y with
      | none => simp
      | some w =>
        simp only [h.edge, hmem hx, hmem hy, hf hx, hf hy]
        by_cases hc : (u = v ∧ w ∈ ws) ∨ (w = v ∧ u ∈ ws)
        · simp [hc]
        · simp only [hc, if_false, not_false_eq_true, and_true]
          cases s.g.edge u w <;> simp
  · rw [h.trace, List.map_map]; rfl

private theorem all {s s' : GS F E} {f : FrameId} {v : VId} {ws : List VId} (hw : WF s.g) (hv : s.g.vertexOf f = some v)
    (h : SimV.CutTo s s' f v ws) (h0 : s'.g.outEdges v = []) (n : FrameId) (hn : containsEdge f n s = .ok true s) :
    n ∈ ws.map (nameOf s.g) := by
  unfold containsEdge at hn
  cases hvn : s.g.vertexOf n with
  | none => simp [hv, hvn] at hn
  | some w =>
    simp only [hv, hvn, Res.ok.injEq, and_true] at hn
    refine List.mem_map.2 ⟨w, ?_, nameOf_eq hw hvn⟩
    by_contra hm
    have h1 := h.edge v w
    by_cases hc : (v = v ∧ w ∈ ws) ∨ (w = v ∧ v ∈ ws)
    · rcases hc with hc | hc
      · exact hm hc.2
      · exact hm (hc.1 ▸ hc.2)
    · rw [if_neg hc] at h1
      rw [← h1] at hn
      obtain ⟨e, he, a1, -⟩ := G.edge_isSome.1 hn
      have : e ∈ s'.g.outEdges v := by simp [G.outEdges, he, a1]
      rw [h0] at this
      cases this

/-- Missing compared to C07: exceptions and undefined behaviour while tree views are subscribed (`C07_subscribed_view_fails`).  After any
history, with any subscribed views and self edges: if `disconnectFrame(f)` returns, all connections of `f` and nothing else were
removed; if it throws, then a `runtime_error` while a view is subscribed, and at least one connection of `f` was removed, and nothing
else. -/
theorem C07_with_views_partial (cs : List (Cmd F E)) (s : GS F E) (h : run cs init = some s)
    (f : FrameId) (hf : containsFrame f s = true) :
    (∀ s', disconnectFrame f s = .ok () s' →
      ∃ nbrs, C07_removed s s' f nbrs ∧ ∀ n, containsEdge f n s = .ok true s → n ∈ nbrs) ∧
    (∀ x s', disconnectFrame f s = .throw x s' →
      s.subs ≠ [] ∧ (∃ m, x = .runtimeError m) ∧ ∃ nbrs, nbrs ≠ [] ∧ C07_removed s s' f nbrs) := by
  have hw := run_wf WF.empty h
  have hp := run_paired_ns h
  obtain ⟨v, hv⟩ := Option.isSome_iff_exists.1 hf
  obtain ⟨h1, h2⟩ := disconnectLoop_cut_ns s.g.edges.length hw hp hv
  unfold disconnectFrame
  rw [hv]
  refine ⟨fun s' hs => ?_, fun x s' hs => ?_⟩
  · obtain ⟨ws, a1, a2⟩ := h1 s' hs
    exact ⟨_, removed hw hv a1, all hw hv a1 a2⟩
  · obtain ⟨a1, a2, ws, a3, a4⟩ := h2 x s' hs
    exact ⟨a1, a2, _, by simpa using a3, removed hw hv a4⟩

/-- the triangle a-b-c with a view: the call throws after the connection b-a was removed, and nothing else was removed -/
example : ∃ s s' : GS DemoFrame Int, run [.addEdge "a" "b" 1, .addEdge "b" "c" 2, .addEdge "c" "a" 3, .getTree "a" true 0] init = some s ∧
    disconnectFrame "b" s = .throw (.runtimeError "NOT IMPLEMENTED") s' ∧ s.subs = [0] ∧ numEdges s' = 4 ∧
    containsEdge "a" "b" s' = .ok false s' ∧ (s'.trace.map Prod.fst).drop 6 = [.edgeRemoved "b" "a"] :=
  ⟨_, _, rfl, rfl, rfl, rfl, rfl, rfl⟩

/-- a triangle with a view and a self edge at the frame c: b is disconnected as far as the view permits, the self edge stays -/
example : ∃ s s' : GS DemoFrame Int, run [.addEdge "a" "b" 1, .addEdge "c" "c" 7, .addEdge "b" "c" 2, .addEdge "c" "a" 3, .getTree "a" true 0] init = some s ∧
    disconnectFrame "b" s = .throw (.runtimeError "NOT IMPLEMENTED") s' ∧ s.subs = [0] ∧ numEdges s = 8 ∧ numEdges s' = 6 ∧
    containsEdge "c" "c" s' = .ok true s' ∧ (s'.trace.map Prod.fst).drop 8 = [.edgeRemoved "b" "a"] :=
  ⟨_, _, rfl, rfl, rfl, rfl, rfl, rfl, rfl⟩

/-- Missing compared to C07: states with subscribed tree views.  After any history, self edges at other frames and views that are no longer
subscribed included: `disconnectFrame(f)` for a contained frame without a self edge returns and removes all connections of `f` and nothing
else. -/
theorem C07_beside_self_edges_partial (cs : List (Cmd F E)) (s : GS F E) (h : run cs init = some s) (hs : s.subs = [])
    (f : FrameId) (hf : containsFrame f s = true) (hn : containsEdge f f s = .ok false s) :
    ∃ s', disconnectFrame f s = .ok () s' ∧ ∃ nbrs, C07_removed s s' f nbrs ∧ ∀ n, containsEdge f n s = .ok true s → n ∈ nbrs := by
  have hw := run_wf WF.empty h
  obtain ⟨v, hv⟩ := Option.isSome_iff_exists.1 hf
  have hn : s.g.edge v v = none := by
    simpa [containsEdge, hv] using hn
  obtain ⟨s', hx⟩ := disconnectLoop_ends_ns s.g.edges.length hw (run_paired_ns h) hv hs hn (List.length_filter_le _ _)
  have hx : disconnectFrame f s = .ok () s' := by
    unfold disconnectFrame
    rw [hv]; exact hx
  exact ⟨s', hx, (C07_with_views_partial cs s h f hf).1 s' hx⟩

/-- the frame b next to a frame with a self edge, after a view was given up -/
example : ∃ s s' : GS DemoFrame Int, run [.addEdge "c" "c" 7, .addEdge "b" "c" 2, .getTree "b" true 0, .addEdge "a" "b" 1, .unsubscribeView 0] init = some s ∧
    s.subs = [] ∧ containsFrame "b" s = true ∧ containsEdge "b" "b" s = .ok false s ∧ disconnectFrame "b" s = .ok () s' ∧
    numEdges s' = 2 ∧ containsEdge "c" "c" s' = .ok true s' ∧ (s'.trace.map Prod.fst).drop 7 = [.edgeRemoved "b" "c", .edgeRemoved "b" "a"] :=
  ⟨_, _, rfl, rfl, rfl, rfl, rfl, rfl, rfl, rfl⟩

/-- In graphs without cycles, with any subscribed views, the call returns and removes all connections of `f` and nothing else. -/
theorem C07_tree_history_partial (cs : List (Cmd F E)) (ht : TreeHistory cs (init : GS F E)) (s : GS F E) (h : run cs init = some s)
    (f : FrameId) (hf : containsFrame f s = true) :
    ∃ s', disconnectFrame f s = .ok () s' ∧ ∃ nbrs, C07_removed s s' f nbrs ∧ ∀ n, containsEdge f n s = .ok true s → n ∈ nbrs := by
  obtain ⟨s0, h0, hi⟩ := TreeInv.init.run ht
  obtain rfl : s0 = s := Option.some.inj (h0.symm.trans h)
  obtain ⟨v, hv⟩ := Option.isSome_iff_exists.1 hf
  obtain ⟨h1, -⟩ := SimV.disconnectLoop_cut s0.g.edges.length hi.wf hi.paired hv
  obtain ⟨s1, h2, -, -⟩ := disconnectLoop_follows s0.g.edges.length hi.wf hi.paired hi.forest hi.views (hi.wf.live hv)
    (List.length_filter_le _ _)
  obtain ⟨ws, a1, a2⟩ := h1 s1 h2
  refine ⟨s1, ?_, _, removed hi.wf hv a1, all hi.wf hv a1 a2⟩
  unfold disconnectFrame
  rw [hv]; exact h2

/-- the star b-a, b-c, b-d with a view from a: the removal of all edges of b returns, with a view that then has a single vertex -/
example : TreeHistory [.addEdge "a" "b" 1, .addEdge "b" "c" 2, .addEdge "b" "d" 3, .getTree "a" true 0] (init : GS DemoFrame Int) ∧
    ∃ s s' : GS DemoFrame Int, run [.addEdge "a" "b" 1, .addEdge "b" "c" 2, .addEdge "b" "d" 3, .getTree "a" true 0] init = some s ∧
    s.subs = [0] ∧ (s.views 0).tree.length = 4 ∧ disconnectFrame "b" s = .ok () s' ∧ numEdges s' = 0 ∧ (s'.views 0).tree.length = 1 ∧
    (s'.trace.map Prod.fst).drop 7 = [.edgeRemoved "b" "a", .edgeRemoved "b" "c", .edgeRemoved "b" "d"] :=
  ⟨⟨⟨by decide, Or.inr (noPath_new (by decide) rfl)⟩, ⟨by decide, Or.inr (noPath_new (by decide) rfl)⟩,
    ⟨by decide, Or.inr (noPath_new (by decide) rfl)⟩, rfl, trivial⟩, _, _, rfl, rfl, rfl, rfl, rfl, rfl, rfl⟩

/-- a frame with two neighbours among other edges -/
example : ∃ s : GS DemoFrame Int, run [.addEdge "a" "b" 1, .addEdge "c" "a" 2, .addEdge "b" "c" 3] init = some s ∧
    containsFrame "a" s = true ∧
    ∃ s', disconnectFrame "a" s = .ok () s' ∧ numEdges s' = 2 ∧
      (s'.trace.map Prod.fst).drop 6 = [.edgeRemoved "a" "b", .edgeRemoved "a" "c"] :=
  ⟨_, rfl, rfl, _, rfl, rfl, rfl⟩

/-- With a self edge `disconnectFrame` erases the same edge twice: the restriction is needed. -/
theorem C07_self_edge_fails : ∃ s : GS DemoFrame Int, run [.addEdge "a" "a" 1] init = some s ∧
    disconnectFrame "a" s = .ub "remove_edge: edge removed twice" :=
  ⟨_, rfl, rfl⟩

/-- With a subscribed tree view the call can throw half-way: here one of the two edges of `b` is gone, the other one is not. -/
theorem C07_subscribed_view_fails : ∃ s s' : GS DemoFrame Int,
    run [.addEdge "a" "b" 1, .addEdge "b" "c" 2, .addEdge "c" "a" 3, .getTree "a" true 0] init = some s ∧
    disconnectFrame "b" s = .throw (.runtimeError "NOT IMPLEMENTED") s' ∧
    containsEdge "b" "a" s' = .ok false s' ∧ containsEdge "b" "c" s' = .ok true s' :=
  ⟨_, _, rfl, rfl, rfl, rfl⟩

end Verif
