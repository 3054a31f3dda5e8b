import Verif.Spec.Opaque
import Verif.Lemmas.Steps
set_option linter.unusedSectionVars false
/-! All functions of the graph commute with translations of the properties. -/

namespace Verif
variable {F F' E E' : Type} [FrameProp F] [FrameProp F'] [EdgeProp E] [EdgeProp E'] (m : PropMap F F' E E')

/-- translated records -/
abbrev VRec.trans (r : VRec F) : VRec F' := ⟨r.id, r.idx, m.frame r.prop⟩
abbrev ERec.trans (e : ERec E) : ERec E' := ⟨e.id, e.src, e.tgt, m.edge e.prop⟩

namespace G

theorem vertexOf_trans (g : G F E) (f : FrameId) : (g.trans m).vertexOf f = g.vertexOf f := rfl

theorem findV_trans (g : G F E) (v : VId) : (g.trans m).findV v = (g.findV v).map (VRec.trans m) := by
  simp only [findV, trans, List.find?_map, Function.comp_def]

theorem outEdges_trans (g : G F E) (u : VId) : (g.trans m).outEdges u = (g.outEdges u).map (ERec.trans m) := by
  simp only [outEdges, trans, List.filter_map, Function.comp_def]

theorem edge_trans (g : G F E) (u v : VId) : (g.trans m).edge u v = (g.edge u v).map (ERec.trans m) := by
  simp only [edge, outEdges_trans, List.find?_map, Function.comp_def]

theorem degree_trans (g : G F E) (v : VId) : (g.trans m).degree v = g.degree v := by
  simp [degree, trans, List.filter_map, Function.comp_def]

theorem removeEdge_trans (g : G F E) (e : EId) : (g.trans m).removeEdge e = (g.removeEdge e).map (G.trans m) := by
  have : (g.trans m).edges.any (fun r => decide (r.id = e)) = g.edges.any (fun r => decide (r.id = e)) := by
    simp [trans, List.any_map, Function.comp_def]
  unfold removeEdge
  rw [this]
  split
  · simp [trans, List.filter_map, Function.comp_def]
  · rfl

theorem setProp_trans (g : G F E) (e : EId) (p : E) : (g.trans m).setProp e (m.edge p) = (g.setProp e p).trans m := by
  simp only [setProp, trans, List.map_map, Function.comp_def]
  congr 1
  refine List.map_congr_left (fun r _ => ?_)
  by_cases h : r.id = e <;> simp [h]

theorem removeVertex_trans (g : G F E) (v : VId) (f : FrameId) : (g.trans m).removeVertex v f = (g.removeVertex v f).trans m := by
  simp only [removeVertex, trans, List.filter_map, Function.comp_def]

theorem addVertex_trans (g : G F E) (f : FrameId) (p : F) :
    (g.trans m).addVertex f (m.frame p) = ((g.addVertex f p).1.trans m, (g.addVertex f p).2) := by
  unfold addVertex
  have : (g.trans m).labels = g.labels := rfl
  rw [this]
  cases g.labels.get f <;> simp [trans]

theorem addEdge_trans (g : G F E) (u v : VId) (p : E) :
    (g.trans m).addEdge u v (m.edge p) = ((g.addEdge u v p).1.trans m, (g.addEdge u v p).2.trans m) := by
  simp [addEdge, trans]

theorem outArcs_trans (g : G F E) (u : VId) : (g.trans m).outArcs u = g.outArcs u := by
  simp [outArcs, outEdges_trans, List.map_map, Function.comp_def, ERec.arc]

end G

namespace GS

theorem searchEvents_trans (g : G F E) (r : VId) : searchEvents (g.trans m) r = searchEvents g r := by
  unfold searchEvents
  have h1 : (g.trans m).verts.length = g.verts.length := by simp [G.trans]
  have h2 : (g.trans m).outArcs = g.outArcs := funext (G.outArcs_trans m g)
  rw [h1, h2]

theorem searchEventsFiltered_trans (g : G F E) (e1 e2 : EId) (r : VId) :
    searchEventsFiltered (g.trans m) e1 e2 r = searchEventsFiltered g e1 e2 r := by
  unfold searchEventsFiltered
  have h1 : (g.trans m).verts.length = g.verts.length := by simp [G.trans]
  simp only [h1, G.outArcs_trans]

theorem notify_trans (ev : Event) (s : GS F E) : notify ev (s.trans m) = (notify ev s).trans m := by
  simp [notify, trans]

theorem addVertexN_trans (f : FrameId) (p : F) (s : GS F E) :
    addVertexN f (m.frame p) (s.trans m) = ((addVertexN f p s).1.trans m, (addVertexN f p s).2) := by
  unfold addVertexN
  have : (s.trans m).g = s.g.trans m := rfl
  simp only [this, G.addVertex_trans]
  simp [notify, trans]

theorem addFrame_trans (f : FrameId) (s : GS F E) : addFrame f (s.trans m) = (addFrame f s).trans m id := by
  unfold addFrame
  have : (s.trans m).g.vertexOf f = s.g.vertexOf f := rfl
  rw [this, ← m.dflt, addVertexN_trans]
  cases s.g.vertexOf f <;> rfl

theorem emplaceFrame_trans (f : FrameId) (p : F) (s : GS F E) : emplaceFrame f (m.frame p) (s.trans m) = (emplaceFrame f p s).trans m id := by
  unfold emplaceFrame
  have : (s.trans m).g.vertexOf f = s.g.vertexOf f := rfl
  rw [this, ← m.setId, addVertexN_trans]
  cases s.g.vertexOf f <;> rfl

theorem addEdgeToTreeView_trans (g : G F E) (e : ERec E) (w : TreeView) :
    addEdgeToTreeView (g.trans m) (e.trans m) w = addEdgeToTreeView g e w := by
  have hat : ∀ a b, addEdgeToTreeView.attach (g.trans m) w a b = addEdgeToTreeView.attach g w a b := by
    intro a b
    unfold addEdgeToTreeView.attach
    rw [G.degree_trans, G.edge_trans, G.edge_trans]
    cases g.edge a b <;> cases g.edge b a <;> simp [searchEventsFiltered_trans]
  unfold addEdgeToTreeView
  simp only [hat]

theorem addEdgeToTreeViews_trans (g : G F E) (e : ERec E) (ps : List Nat) : ∀ vs : Nat → TreeView,
    addEdgeToTreeViews (g.trans m) (e.trans m) ps vs = addEdgeToTreeViews g e ps vs := by
  induction ps with
  | nil => intro vs; rfl
  | cons p ps ih =>
    intro vs
    simp only [addEdgeToTreeViews, addEdgeToTreeView_trans]
    cases addEdgeToTreeView g e (vs p) <;> simp [ih]

theorem addEdgeD_trans (o t : VId) (p : E) (s : GS F E) : addEdgeD o t (m.edge p) (s.trans m) = (addEdgeD o t p s).trans m id := by
  unfold addEdgeD
  have hg : (s.trans m).g = s.g.trans m := rfl
  have hs : (s.trans m).subs = s.subs := rfl
  have hv : (s.trans m).views = s.views := rfl
  rw [hg, G.findV_trans, G.findV_trans, G.edge_trans, hs, hv]
  cases s.g.findV o with
  | none => rfl
  | some ro =>
    cases s.g.findV t with
    | none => rfl
    | some rt =>
      simp only [Option.map_some, m.getId]
      cases s.g.edge o t with
      | some e => rfl
      | none =>
        simp only [Option.map_none]
        rw [← m.inverse]
        simp only [G.addEdge_trans]
        rw [addEdgeToTreeViews_trans]
        cases addEdgeToTreeViews ((s.g.addEdge o t p).1.addEdge t o (EdgeProp.inverse p)).1 (s.g.addEdge o t p).2 s.subs s.views with
        | ok a vs => simp [Res.trans, notify, trans]
        | throw x vs => simp [Res.trans, trans]
        | ub r => simp [Res.trans]

theorem orCreate_trans (f : FrameId) (v : Option VId) (s : GS F E) :
    orCreate f v (s.trans m) = ((orCreate f v s).1.trans m, (orCreate f v s).2) := by
  cases v with
  | none =>
    simp only [orCreate]
    rw [← m.dflt, addVertexN_trans]
  | some v => rfl

theorem addEdge_trans (o t : FrameId) (p : E) (s : GS F E) : GS.addEdge o t (m.edge p) (s.trans m) = (GS.addEdge o t p s).trans m id := by
  unfold GS.addEdge
  have h1 : (s.trans m).g.vertexOf o = s.g.vertexOf o := rfl
  have h2 : (s.trans m).g.vertexOf t = s.g.vertexOf t := rfl
  simp only [h1, h2, orCreate_trans, addEdgeD_trans]

theorem removeEdgeBoth_trans (o t : FrameId) (vo vt : VId) (s : GS F E) :
    removeEdgeBoth o t vo vt (s.trans m) = (removeEdgeBoth o t vo vt s).trans m id := by
  unfold removeEdgeBoth
  have hg : (s.trans m).g = s.g.trans m := rfl
  rw [hg, G.edge_trans, G.edge_trans]
  cases s.g.edge vo vt with
  | none => rfl
  | some e1 =>
    cases s.g.edge vt vo with
    | none => rfl
    | some e2 =>
      simp only [Option.map_some, G.removeEdge_trans]
      cases s.g.removeEdge e1.id with
      | none => rfl
      | some g1 =>
        simp only [Option.map_some, G.removeEdge_trans]
        cases g1.removeEdge e2.id with
        | none => rfl
        | some g2 =>
          simp only [Option.map_some]
          have hs : ∀ ev, (notify ev { s.trans m with g := g1.trans m }).subs = s.subs := fun _ => rfl
          have hv : ∀ ev, (notify ev { s.trans m with g := g1.trans m }).views = s.views := fun _ => rfl
          have hs' : ∀ ev, (notify ev { s with g := g1 }).subs = s.subs := fun _ => rfl
          have hv' : ∀ ev, (notify ev { s with g := g1 }).views = s.views := fun _ => rfl
          simp only [hs, hv, hs', hv']
          cases removeEdgeFromTreeViews vo vt s.subs s.views with
          | ok a vs => simp [Res.trans, notify, trans]
          | throw x vs => simp [Res.trans, notify, trans]
          | ub r => simp [Res.trans]

theorem removeEdge_trans (o t : FrameId) (s : GS F E) : GS.removeEdge o t (s.trans m) = (GS.removeEdge o t s).trans m id := by
  unfold GS.removeEdge
  have h1 : (s.trans m).g.vertexOf o = s.g.vertexOf o := rfl
  have h2 : (s.trans m).g.vertexOf t = s.g.vertexOf t := rfl
  rw [h1, h2]
  cases s.g.vertexOf o with
  | none => rfl
  | some vo =>
    cases s.g.vertexOf t with
    | none => rfl
    | some vt => exact removeEdgeBoth_trans m o t vo vt s

theorem removeEdgeD_trans (vo vt : VId) (s : GS F E) : removeEdgeD vo vt (s.trans m) = (removeEdgeD vo vt s).trans m id := by
  unfold removeEdgeD
  have hg : (s.trans m).g = s.g.trans m := rfl
  rw [hg, G.findV_trans, G.findV_trans]
  cases s.g.findV vo with
  | none => rfl
  | some ro =>
    cases s.g.findV vt with
    | none => rfl
    | some rt =>
      simp only [Option.map_some, m.getId]
      exact removeEdgeBoth_trans m _ _ vo vt s

theorem disconnectLoop_trans (v : VId) (n : Nat) : ∀ s : GS F E, disconnectLoop v n (s.trans m) = (disconnectLoop v n s).trans m id := by
  induction n with
  | zero =>
    intro s
    rw [disconnectLoop.eq_def, disconnectLoop.eq_def]
    have hg : (s.trans m).g = s.g.trans m := rfl
    simp only [hg, G.outEdges_trans]
    cases s.g.outEdges v <;> rfl
  | succ n ih =>
    intro s
    rw [disconnectLoop.eq_def, disconnectLoop.eq_def]
    have hg : (s.trans m).g = s.g.trans m := rfl
    simp only [hg, G.outEdges_trans]
    cases s.g.outEdges v with
    | nil => rfl
    | cons e es =>
      simp only [List.map_cons, removeEdgeD_trans]
      cases removeEdgeD v e.tgt s with
      | ok a s' => exact ih s'
      | throw x s' => rfl
      | ub r => rfl

theorem disconnectFrame_trans (f : FrameId) (s : GS F E) : disconnectFrame f (s.trans m) = (disconnectFrame f s).trans m id := by
  unfold disconnectFrame
  have h1 : (s.trans m).g.vertexOf f = s.g.vertexOf f := rfl
  have h2 : (s.trans m).g.edges.length = s.g.edges.length := by simp [trans, G.trans]
  rw [h1, h2]
  cases s.g.vertexOf f with
  | none => rfl
  | some v => exact disconnectLoop_trans m v _ s

theorem removeFrame_trans (f : FrameId) (s : GS F E) : removeFrame f (s.trans m) = (removeFrame f s).trans m id := by
  unfold removeFrame
  have h1 : (s.trans m).g = s.g.trans m := rfl
  rw [h1, G.vertexOf_trans]
  cases s.g.vertexOf f with
  | none => rfl
  | some v =>
    simp only [G.degree_trans, G.removeVertex_trans]
    split
    · rfl
    · simp [Res.trans, notify, trans]

theorem setEdgeProperty_trans (o t : FrameId) (p : E) (s : GS F E) :
    setEdgeProperty o t (m.edge p) (s.trans m) = (setEdgeProperty o t p s).trans m id := by
  unfold setEdgeProperty
  have h1 : (s.trans m).g = s.g.trans m := rfl
  rw [h1, G.vertexOf_trans, G.vertexOf_trans]
  cases s.g.vertexOf o with
  | none => rfl
  | some vo =>
    cases s.g.vertexOf t with
    | none => rfl
    | some vt =>
      simp only [G.edge_trans]
      cases s.g.edge vo vt with
      | none => rfl
      | some e1 =>
        simp only [Option.map_some, G.setProp_trans, G.edge_trans]
        cases (s.g.setProp e1.id p).edge vt vo with
        | none => rfl
        | some e2 =>
          simp only [Option.map_some]
          rw [← m.inverse, G.setProp_trans]
          simp [Res.trans, notify, trans]

theorem getTree_trans (f : FrameId) (keep : Bool) (p : Nat) (s : GS F E) : getTree f keep p (s.trans m) = (getTree f keep p s).trans m id := by
  unfold getTree
  have h1 : (s.trans m).g = s.g.trans m := rfl
  have h2 : (s.trans m).views = s.views := rfl
  rw [h1, G.vertexOf_trans, h2]
  cases s.g.vertexOf f with
  | none => rfl
  | some v =>
    have h3 : getTreeInto (s.g.trans m) v (s.views p) = getTreeInto s.g v (s.views p) := by simp [getTreeInto, searchEvents_trans]
    simp only [h3]
    cases getTreeInto s.g v (s.views p) with
    | ub r => rfl
    | throw x w => rfl
    | ok a w =>
      cases keep with
      | false => rfl
      | true =>
        simp only [if_true, subscribeTreeView]
        split <;> simp [Res.trans, trans]

theorem unsubscribeView_trans (p : Nat) (s : GS F E) : unsubscribeView p (s.trans m) = (unsubscribeView p s).trans m := by
  unfold unsubscribeView
  have h2 : (s.trans m).views = s.views := rfl
  rw [h2]
  split <;> rfl

theorem discard_trans {α : Type} (r : Res (GS F E) α) (h : α → α) : discard (r.trans m h) = (discard r).trans m id := by
  cases r <;> rfl

theorem exec_trans (c : Cmd F E) (s : GS F E) : exec (c.trans m) (s.trans m) = (exec c s).trans m id := by
  cases c with
  | addFrame f => simp only [exec, Cmd.trans, addFrame_trans, discard_trans]
  | emplaceFrame f p => simp only [exec, Cmd.trans, emplaceFrame_trans, discard_trans]
  | removeFrame f => exact removeFrame_trans m f s
  | disconnectFrame f => exact disconnectFrame_trans m f s
  | addEdge o t p => exact addEdge_trans m o t p s
  | removeEdge o t => exact removeEdge_trans m o t s
  | setEdge o t p => exact setEdgeProperty_trans m o t p s
  | getTree f k v => exact getTree_trans m f k v s
  | unsubscribeView v => simp [exec, Cmd.trans, Res.trans, unsubscribeView_trans]

theorem run_trans (cs : List (Cmd F E)) : ∀ s : GS F E, run (cs.map (Cmd.trans m)) (s.trans m) = (run cs s).map (GS.trans m) := by
  induction cs with
  | nil => intro s; rfl
  | cons c cs ih =>
    intro s
    simp only [List.map_cons, run, exec_trans]
    cases exec c s with
    | ok a s' => exact ih s'
    | throw x s' => exact ih s'
    | ub r => rfl

end GS
end Verif
