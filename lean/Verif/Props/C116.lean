import Verif.Model.Descriptors
import Verif.Model.Reuse
import Verif.Lemmas.Descriptors
import Verif.Lemmas.ItemChain
import Verif.Spec.Between
import Verif.Spec.Demo
import Verif.Lemmas.ReuseRun
import Verif.Lemmas.ReuseKept
/-! # C116: handles of frames and edges stay valid until an event announces the removal

Full statement: a vertex descriptor that `addFrame`, `emplaceFrame` or `getVertex` returned denotes the frame until a `FrameRemovedEvent` for the
frame is published; an edge descriptor that `getEdge` returned denotes the edge between the same two frames, with its current property, until an
`EdgeRemovedEvent` for the two frames is published, in either direction.  Other calls, also failing ones, do not matter. -/

set_option linter.unusedSectionVars false

namespace Verif
open GS
variable {F E : Type} [FrameProp F] [EdgeProp E]

private theorem getVertex_ok {f : FrameId} {v : VId} {s : GS F E} : getVertex f s = .ok v s ↔ s.g.vertexOf f = some v := by
  unfold getVertex
  cases s.g.vertexOf f <;> simp

private theorem getFrameId_ok {s : GS F E} (hw : WFA s.g) {f : FrameId} {v : VId} (h : s.g.vertexOf f = some v) :
    getFrameId (some v) s = .ok f s := by
  obtain ⟨r, hr, hf⟩ := hw.live h
  simp [getFrameId, hr, hf]

private theorem getEdge_ok {a b : FrameId} {e : ERec E} {s : GS F E} (h : getEdge a b s = .ok e s) :
    ∃ u v, s.g.vertexOf a = some u ∧ s.g.vertexOf b = some v ∧ s.g.edge u v = some e := by
  unfold getEdge at h
  split at h
  · cases h
  · rename_i u hu
    split at h
    · cases h
    · rename_i v hv
      split at h
      · cases h
      · rename_i e' he
        cases h
        exact ⟨u, v, hu, hv, he⟩

/-- what a user can do with the handle `v` of the frame `f` -/
def C116_denotes_frame (v : VId) (f : FrameId) (s : GS F E) : Prop :=
  getFrameId (some v) s = .ok f s ∧ getVertex f s = .ok v s

/-- what a user can do with the handle `e` of the edge from `a` to `b`: its ends are the two frames and it gives the property that is
found with the names -/
def C116_denotes_edge (e : ERec E) (a b : FrameId) (s : GS F E) : Prop :=
  getFrameId (some (getSourceVertex e)) s = .ok a s ∧ getFrameId (some (getTargetVertex e)) s = .ok b s ∧
  containsEdgeD (getSourceVertex e) (getTargetVertex e) s = .ok true s ∧
  ∃ p, getEdgePropertyE e s = .ok p s ∧ getEdgeProperty a b s = .ok p s

private theorem denotes_edge_of {s : GS F E} (hw : WFA s.g) {a b : FrameId} {u v : VId} {e e' : ERec E} (ha : s.g.vertexOf a = some u)
    (hb : s.g.vertexOf b = some v) (he : s.g.edge u v = some e') (hid : e'.id = e.id) (hu : e.src = u) (hv : e.tgt = v) :
    C116_denotes_edge e a b s := by
  obtain ⟨m, -, -⟩ := G.edge_some he
  obtain ⟨ra, hra, -⟩ := hw.live ha
  obtain ⟨rb, hrb, -⟩ := hw.live hb
  refine ⟨?_, ?_, ?_, e'.prop, ?_, ?_⟩
  · rw [getSourceVertex, hu]; exact getFrameId_ok hw ha
  · rw [getTargetVertex, hv]; exact getFrameId_ok hw hb
  · simp [containsEdgeD, getSourceVertex, getTargetVertex, hu, hv, hra, hrb, he]
  · simp [getEdgePropertyE, ← hid, show findE s.g e'.id = some e' from hw.findE m]
  · simp [getEdgeProperty, getEdge, ha, hb, he]

/-- The handle that `addFrame` or `emplaceFrame` returns is the handle of the new frame. -/
theorem C116_new_frame (cs : List (Cmd F E)) (s s' : GS F E) (h : run cs init = some s) (f : FrameId) (v : VId)
    (ha : addFrame f s = .ok v s' ∨ ∃ p, emplaceFrame f p s = .ok v s') : C116_denotes_frame v f s' := by
  have hw := run_wf WF.empty h
  have key : ∀ p : F, s.g.vertexOf f = none → FrameProp.getId p = f → (addVertexN f p s).2 = v → (addVertexN f p s).1 = s' →
      C116_denotes_frame v f s' := by
    rintro p hn hp rfl rfl
    have h1 : (addVertexN f p s).1.g.vertexOf f = some (addVertexN f p s).2 := by
      show (s.g.addVertex f p).1.vertexOf f = some (s.g.addVertex f p).2
      rw [G.vertexOf_addVertex p hn, if_pos rfl, G.addVertex_new p hn]
    exact ⟨getFrameId_ok (hw.addVertex hp).toA h1, getVertex_ok.2 h1⟩
  rcases ha with ha | ⟨p, ha⟩
  · unfold addFrame at ha
    split at ha
    · rename_i hn
      injection ha with h1 h2
      exact key _ hn (FrameProp.getId_setId ..) h1 h2
    · cases ha
  · unfold emplaceFrame at ha
    split at ha
    · rename_i hn
      injection ha with h1 h2
      exact key _ hn (FrameProp.getId_setId ..) h1 h2
    · cases ha

/-- a frame gets its handle while another one is connected -/
example : (run [.addEdge "a" "b" 1] (init : GS DemoFrame Int)).map (fun s => ((addFrame "c" s).val?, (addFrame "a" s).exn?)) =
    some (some 2, some (.frameAlreadyExists "a")) := by decide

/-- Handles of frames stay valid. -/
theorem C116_frame (cs ds : List (Cmd F E)) (s s' : GS F E) (h : run cs init = some s) (h' : run ds s = some s') (f : FrameId) (v : VId)
    (hv : getVertex f s = .ok v s) (hx : .frameRemoved f ∉ eventsBetween s s') : C116_denotes_frame v f s' := by
  have hw := run_wf WF.empty h
  obtain ⟨l, h1, h2⟩ := run_advances hw h'
  rw [eventsBetween_of h2] at hx
  have k := h1.vertex_kept (getVertex_ok.1 hv) (fun x m hh => hx (List.mem_map.2 ⟨x, m, hh⟩))
  exact ⟨getFrameId_ok (h1.wf hw).toA k, getVertex_ok.2 k⟩

/-- the handle of `b` survives the removal of `a` and of all its edges, and a failing call -/
example : ∃ s s' : GS DemoFrame Int, run [.addEdge "a" "b" 1] init = some s ∧
    run [.removeFrame "b", .disconnectFrame "b", .removeFrame "a", .addFrame "c"] s = some s' ∧ getVertex "b" s = .ok 1 s ∧
    eventsBetween s s' = [.edgeRemoved "b" "a", .frameRemoved "a", .frameAdded "c"] ∧ getFrameId (some 1) s' = .ok "b" s' :=
  ⟨_, _, rfl, rfl, rfl, rfl, rfl⟩

/-- The event is the end of the handle, in a program that never uses the memory of a removed frame again. -/
theorem C116_frame_end (cs ds : List (Cmd F E)) (s s' : GS F E) (h : run cs init = some s) (h' : run ds s = some s') (f : FrameId) (v : VId)
    (hv : getVertex f s = .ok v s) (hx : .frameRemoved f ∈ eventsBetween s s') : ∃ m, getFrameId (some v) s' = .ub m := by
  have hw := run_wf WF.empty h
  obtain ⟨l, h1, h2⟩ := run_advances hw h'
  rw [eventsBetween_of h2] at hx
  obtain ⟨x, hx, hxf⟩ := List.mem_map.1 hx
  have k := h1.vertex_gone hw (getVertex_ok.1 hv) ⟨x, hx, hxf⟩
  refine ⟨"getFrameId: dangling descriptor", ?_⟩
  simp [getFrameId, G.findV_none.2 k.2]

/-- also if a frame of the same name is added later -/
example : ∃ s s' : GS DemoFrame Int, run [.addFrame "a"] init = some s ∧ run [.removeFrame "a", .addFrame "a"] s = some s' ∧
    getVertex "a" s = .ok 0 s ∧ .frameRemoved "a" ∈ eventsBetween s s' ∧ getFrameId (some 0) s' = .ub "getFrameId: dangling descriptor" ∧
    getVertex "a" s' = .ok 1 s' :=
  ⟨_, _, rfl, rfl, rfl, List.mem_cons_self, rfl, rfl⟩

/-- Handles of edges stay valid; this includes edges from a frame to itself. -/
theorem C116_edge (cs ds : List (Cmd F E)) (s s' : GS F E) (h : run cs init = some s) (h' : run ds s = some s') (a b : FrameId) (e : ERec E)
    (he : getEdge a b s = .ok e s) (hx : .edgeRemoved a b ∉ eventsBetween s s') (hx' : .edgeRemoved b a ∉ eventsBetween s s') :
    C116_denotes_edge e a b s' := by
  have hw := run_wf WF.empty h
  obtain ⟨l, h1, h2⟩ := run_advances hw h'
  rw [eventsBetween_of h2] at hx hx'
  obtain ⟨u, v, ha, hb, hee⟩ := getEdge_ok he
  obtain ⟨-, q1, q2⟩ := G.edge_some hee
  obtain ⟨k1, k2, e', k3, k4⟩ := h1.edge_kept hw ha hb hee
    (fun x m => ⟨fun hh => hx (List.mem_map.2 ⟨x, m, hh⟩), fun hh => hx' (List.mem_map.2 ⟨x, m, hh⟩)⟩)
  exact denotes_edge_of (h1.wf hw).toA k1 k2 k3 k4 q1 q2

/-- the handle of b→a reads the property that was written later by way of a→b -/
example : ∃ (s s' : GS DemoFrame Int) (e : ERec Int), run [.addEdge "a" "b" 1] init = some s ∧
    run [.addEdge "b" "c" 2, .setEdge "a" "b" 5, .removeFrame "a", .disconnectFrame "c"] s = some s' ∧ getEdge "b" "a" s = .ok e s ∧
    e.prop = -1 ∧ eventsBetween s s' = [.frameAdded "c", .edgeAdded "b" "c" 2, .edgeModified "a" "b" 0 1, .edgeRemoved "c" "b"] ∧
    getEdgePropertyE e s' = .ok (-5) s' :=
  ⟨_, _, _, rfl, rfl, rfl, rfl, rfl, rfl⟩

/-- The event, in either direction, is the end of the handle, in a program that never uses the memory of a removed edge again. -/
theorem C116_edge_end (cs ds : List (Cmd F E)) (s s' : GS F E) (h : run cs init = some s) (h' : run ds s = some s') (a b : FrameId) (e : ERec E)
    (he : getEdge a b s = .ok e s) (hx : .edgeRemoved a b ∈ eventsBetween s s' ∨ .edgeRemoved b a ∈ eventsBetween s s') :
    ∃ m, getEdgePropertyE e s' = .ub m := by
  have hw := run_wf WF.empty h
  obtain ⟨l, h1, h2⟩ := run_advances hw h'
  rw [eventsBetween_of h2] at hx
  obtain ⟨u, v, ha, hb, hee⟩ := getEdge_ok he
  have k := h1.edge_gone hw ha hb hee (by
    rcases hx with hx | hx <;> obtain ⟨x, hx, hxf⟩ := List.mem_map.1 hx
    · exact ⟨x, hx, Or.inl hxf⟩
    · exact ⟨x, hx, Or.inr hxf⟩)
  refine ⟨"getEdgeProperty: dangling descriptor", ?_⟩
  have : findE s'.g e.id = none := by
    unfold findE
    simpa using k.2
  simp [getEdgePropertyE, this]

/-- `disconnectFrame("b")` announces the removal of b→a only; the handle of a→b ends -/
example : ∃ (s s' : GS DemoFrame Int) (e : ERec Int), run [.addEdge "a" "b" 1] init = some s ∧
    run [.disconnectFrame "b", .addEdge "a" "b" 1] s = some s' ∧ getEdge "a" "b" s = .ok e s ∧
    eventsBetween s s' = [.edgeRemoved "b" "a", .edgeAdded "a" "b" 2] ∧
    getEdgePropertyE e s' = .ub "getEdgeProperty: dangling descriptor" :=
  ⟨_, _, _, rfl, rfl, rfl, rfl, rfl⟩

private theorem chain_kept {E : Type} [EdgeProp E] {P : Cmd EFrame E → Prop} {s s' : EG E} (h : EG.Chain P s s') (hw : WF s.gs.g) :
    ∃ l, s'.gs.trace = s.gs.trace ++ l ∧
    (∀ f v, s.gs.g.vertexOf f = some v → (∀ x ∈ l, x.1 ≠ .frameRemoved f) → s'.gs.g.vertexOf f = some v) ∧
    (∀ a b u v e, s.gs.g.vertexOf a = some u → s.gs.g.vertexOf b = some v → s.gs.g.edge u v = some e →
      (∀ x ∈ l, x.1 ≠ .edgeRemoved a b ∧ x.1 ≠ .edgeRemoved b a) →
      s'.gs.g.vertexOf a = some u ∧ s'.gs.g.vertexOf b = some v ∧ ∃ e', s'.gs.g.edge u v = some e' ∧ e'.id = e.id) := by
  induction h with
  | refl => exact ⟨[], by simp, fun _ _ h _ => h, fun _ _ _ _ e h1 h2 h3 _ => ⟨h1, h2, e, h3, rfl⟩⟩
  | tail h0 h1 ih =>
    have hw1 := EG.Chain.wf h0 hw
    obtain ⟨l, t1, k1, k2⟩ := ih
    have quiet : ∀ {s1 s2 : EG E} {m : List (Event × G EFrame E)}, s1.gs.trace = s.gs.trace ++ l → s2.gs.trace = s1.gs.trace ++ m →
        (∀ f, s2.gs.g.vertexOf f = s1.gs.g.vertexOf f) → (∀ u v, s2.gs.g.edge u v = s1.gs.g.edge u v) →
        (∀ f v, s.gs.g.vertexOf f = some v → (∀ x ∈ l, x.1 ≠ .frameRemoved f) → s1.gs.g.vertexOf f = some v) →
        (∀ a b u v e, s.gs.g.vertexOf a = some u → s.gs.g.vertexOf b = some v → s.gs.g.edge u v = some e →
          (∀ x ∈ l, x.1 ≠ .edgeRemoved a b ∧ x.1 ≠ .edgeRemoved b a) →
          s1.gs.g.vertexOf a = some u ∧ s1.gs.g.vertexOf b = some v ∧ ∃ e', s1.gs.g.edge u v = some e' ∧ e'.id = e.id) →
        ∃ l', s2.gs.trace = s.gs.trace ++ l' ∧
          (∀ f v, s.gs.g.vertexOf f = some v → (∀ x ∈ l', x.1 ≠ .frameRemoved f) → s2.gs.g.vertexOf f = some v) ∧
          (∀ a b u v e, s.gs.g.vertexOf a = some u → s.gs.g.vertexOf b = some v → s.gs.g.edge u v = some e →
            (∀ x ∈ l', x.1 ≠ .edgeRemoved a b ∧ x.1 ≠ .edgeRemoved b a) →
            s2.gs.g.vertexOf a = some u ∧ s2.gs.g.vertexOf b = some v ∧ ∃ e', s2.gs.g.edge u v = some e' ∧ e'.id = e.id) := by
      intro s1 s2 m ht hm hv he q1 q2
      refine ⟨l ++ m, by rw [hm, ht, List.append_assoc], fun f v h hx => ?_, fun a b u v e h1 h2 h3 hx => ?_⟩
      · rw [hv]; exact q1 f v h (fun x mx => hx x (List.mem_append_left _ mx))
      · rw [hv, hv, he]; exact q2 a b u v e h1 h2 h3 (fun x mx => hx x (List.mem_append_left _ mx))
    cases h1 with
    | call hc hx =>
      obtain ⟨m, a1, a2⟩ := GS.exec_advances hw1 hx
      refine ⟨l ++ m, by rw [a2, t1, List.append_assoc], fun f v h hx => ?_, fun a b u v e q1 q2 q3 hx => ?_⟩
      · exact a1.vertex_kept (k1 f v h (fun x mx => hx x (List.mem_append_left _ mx))) (fun x mx => hx x (List.mem_append_right _ mx))
      · obtain ⟨r1, r2, e', r3, r4⟩ := k2 a b u v e q1 q2 q3 (fun x mx => hx x (List.mem_append_left _ mx))
        obtain ⟨w1, w2, e2, w3, w4⟩ := a1.edge_kept hw1 r1 r2 r3 (fun x mx => hx x (List.mem_append_right _ mx))
        exact ⟨w1, w2, e2, w3, w4.trans r4⟩
    | mod v hid => exact quiet (m := []) t1 (by simp [EG.modFrame]) (fun _ => rfl) (fun _ _ => rfl) k1 k2
    | heap hp => exact quiet (m := []) t1 (by simp) (fun _ => rfl) (fun _ _ => rfl) k1 k2
    | added f i => exact quiet t1 rfl (fun _ => rfl) (fun _ _ => rfl) k1 k2
    | removed f i => exact quiet t1 rfl (fun _ => rfl) (fun _ _ => rfl) k1 k2

/-- The same for an `EnvireGraph` and all its calls: adding and removing items, `clearFrame` and `clear` end no handle without the event. -/
theorem C116_items {E : Type} [EdgeProp E] (heap : ItemId → ItemObj) (cs ds : List (EG.Cmd E)) (s s' : EG E)
    (h : EG.run cs (EG.init heap) = some s) (h' : EG.run ds s = some s') :
    (∀ f v, getVertex f s.gs = .ok v s.gs → .frameRemoved f ∉ eventsBetween s.gs s'.gs → C116_denotes_frame v f s'.gs) ∧
    (∀ a b e, getEdge a b s.gs = .ok e s.gs → .edgeRemoved a b ∉ eventsBetween s.gs s'.gs → .edgeRemoved b a ∉ eventsBetween s.gs s'.gs →
      C116_denotes_edge e a b s'.gs) := by
  have hw := EG.run_wf h
  have ch : EG.Chain (fun _ => True) s s' := EG.run_chain (fun c _ => by cases c <;> simp [EG.Cmd.within]) h'
  have hw' := EG.Chain.wf ch hw
  obtain ⟨l, t, k1, k2⟩ := chain_kept ch hw
  rw [eventsBetween_of t]
  refine ⟨fun f v hv hx => ?_, fun a b e he hx hx' => ?_⟩
  · have k := k1 f v (getVertex_ok.1 hv) (fun x m hh => hx (List.mem_map.2 ⟨x, m, hh⟩))
    exact ⟨getFrameId_ok hw'.toA k, getVertex_ok.2 k⟩
  · obtain ⟨u, v, ha, hb, hee⟩ := getEdge_ok he
    obtain ⟨-, q1, q2⟩ := G.edge_some hee
    obtain ⟨r1, r2, e', r3, r4⟩ := k2 a b u v e ha hb hee
      (fun x m => ⟨fun hh => hx (List.mem_map.2 ⟨x, m, hh⟩), fun hh => hx' (List.mem_map.2 ⟨x, m, hh⟩)⟩)
    exact denotes_edge_of hw'.toA r1 r2 r3 r4 q1 q2

/-- an item is added to `a` and all items of `a` are removed; the handles of `a` and of the edge remain -/
example : ∃ (s s' : EG Int) (e : ERec Int), EG.run [.graph (.addEdge "a" "b" 1)] (EG.init fun _ => ⟨0, ""⟩) = some s ∧
    EG.run [.addItemToFrame "a" 7, .clearFrame "a"] s = some s' ∧ eventsBetween s.gs s'.gs = [.itemAdded "a" 7, .itemRemoved "a" 7] ∧
    getEdge "a" "b" s.gs = .ok e s.gs ∧ getEdgePropertyE e s'.gs = .ok 1 s'.gs ∧ getFrameId (some 0) s'.gs = .ok "a" s'.gs :=
  ⟨_, _, _, rfl, rfl, rfl, rfl, rfl, rfl⟩

/-- Handles of frames stay valid, whatever memory the allocator uses for new frames and edges, as long as that memory is free. -/
theorem C116_frame_any (cs ds : List (Alloc F E × Cmd F E)) (hcs : ∀ x ∈ cs, x.1.Sound) (hds : ∀ x ∈ ds, x.1.Sound) (s s' : GS F E)
    (h : runA cs init = some s) (h' : runA ds s = some s') (f : FrameId) (v : VId) (hv : getVertex f s = .ok v s)
    (hx : .frameRemoved f ∉ eventsBetween s s') : C116_denotes_frame v f s' := by
  obtain ⟨l0, a0⟩ := runA_adv hcs WFA.empty h
  obtain ⟨l, a⟩ := runA_adv hds (a0.wf WFA.empty) h'
  rw [eventsBetween_of_map a.trace] at hx
  have k := a.vertex_kept (getVertex_ok.1 hv) hx
  exact ⟨getFrameId_ok (a.wf (a0.wf WFA.empty)) k, getVertex_ok.2 k⟩

/-- the memory of `a` is used for `c`, the handle of `b` stays valid -/
example : ∃ s s' : GS DemoFrame Int, runA [(Alloc.lowest, .addEdge "a" "b" 1)] init = some s ∧
    runA [(Alloc.lowest, .disconnectFrame "b"), (Alloc.lowest, .removeFrame "a"), (Alloc.lowest, .addFrame "c")] s = some s' ∧
    getVertex "b" s = .ok 1 s ∧ eventsBetween s s' = [.edgeRemoved "b" "a", .frameRemoved "a", .frameAdded "c"] ∧
    getVertex "a" s = .ok 0 s ∧ getVertex "c" s' = .ok 0 s' ∧ getFrameId (some 1) s' = .ok "b" s' :=
  ⟨_, _, rfl, rfl, rfl, rfl, rfl, rfl, rfl⟩

/-- Handles of edges stay valid, whatever memory the allocator uses. -/
theorem C116_edge_any (cs ds : List (Alloc F E × Cmd F E)) (hcs : ∀ x ∈ cs, x.1.Sound) (hds : ∀ x ∈ ds, x.1.Sound) (s s' : GS F E)
    (h : runA cs init = some s) (h' : runA ds s = some s') (a b : FrameId) (e : ERec E)
    (he : getEdge a b s = .ok e s) (hx : .edgeRemoved a b ∉ eventsBetween s s') (hx' : .edgeRemoved b a ∉ eventsBetween s s') :
    C116_denotes_edge e a b s' := by
  obtain ⟨l0, a0⟩ := runA_adv hcs WFA.empty h
  obtain ⟨l, ad⟩ := runA_adv hds (a0.wf WFA.empty) h'
  rw [eventsBetween_of_map ad.trace] at hx hx'
  obtain ⟨u, v, ha, hb, hee⟩ := getEdge_ok he
  obtain ⟨-, q1, q2⟩ := G.edge_some hee
  obtain ⟨k1, k2, e', k3, k4⟩ := ad.edge_kept (a0.wf WFA.empty) ha hb hee hx hx'
  exact denotes_edge_of (ad.wf (a0.wf WFA.empty)) k1 k2 k3 k4 q1 q2

/-- the memory of the edges a-b is used for the edges c-d, the handle of the edge c→b still gives its property -/
example : ∃ (s s' : GS DemoFrame Int) (e : ERec Int),
    runA [(Alloc.lowest, .addEdge "a" "b" 1), (Alloc.lowest, .addEdge "b" "c" 2)] init = some s ∧
    runA [(Alloc.lowest, .removeEdge "a" "b"), (Alloc.lowest, .addEdge "c" "d" 5), (Alloc.lowest, .setEdge "b" "c" 7)] s = some s' ∧
    getEdge "c" "b" s = .ok e s ∧ e.id = 3 ∧
    eventsBetween s s' = [.edgeRemoved "a" "b", .frameAdded "d", .edgeAdded "c" "d" 0, .edgeModified "b" "c" 2 3] ∧
    getEdgePropertyE e s' = .ok (-7) s' :=
  ⟨_, _, _, rfl, rfl, rfl, rfl, rfl, rfl⟩

/-- After the event a handle must not be used: the memory can belong to something else.  Here the handle of `a` becomes a handle of `b`, and the
handle of the edge a-b gives the property of the edge c-d. -/
theorem C116_reused : (Alloc.lowest : Alloc DemoFrame Int).Sound ∧
    (∃ s s' : GS DemoFrame Int, runA [(Alloc.lowest, .addFrame "a")] init = some s ∧ getVertex "a" s = .ok 0 s ∧
      runA [(Alloc.lowest, .removeFrame "a"), (Alloc.lowest, .addFrame "b")] s = some s' ∧ getFrameId (some 0) s' = .ok "b" s') ∧
    ∃ (s s' : GS DemoFrame Int) (e : ERec Int), runA [(Alloc.lowest, .addEdge "a" "b" 1)] init = some s ∧ getEdge "a" "b" s = .ok e s ∧
      runA [(Alloc.lowest, .removeEdge "a" "b"), (Alloc.lowest, .addEdge "c" "d" 5)] s = some s' ∧ getEdgePropertyE e s' = .ok 5 s' :=
  ⟨lowest_sound, ⟨_, _, rfl, rfl, rfl, rfl⟩, _, _, _, rfl, rfl, rfl, rfl⟩

end Verif
