import Verif.Lemmas.GraphAssign
import Verif.Spec.GraphAssign
import Verif.Spec.Demo
/-!
# C107: a graph that was assigned is a copy of its own

Full statement: after `b = a` the graph `b` has the frames, the edges and all properties that `a` has at this moment; it keeps them
whatever happens to `a`, and changes of `b` do not reach `a`.

This holds for the lists of vertices and edges.  Every function that takes names uses the storage of `a`.
-/

namespace Verif
open GS
variable {F E : Type} [FrameProp F] [EdgeProp E]

private theorem lost_iff {s : GS F E} {w0 w : AG F E} (hi : AG.Inv s w0 w) {f : FrameId} {v : VId} (hv : s.g.vertexOf f = some v) :
    (AG.lost s f w → w.target v = none) ∧ (¬ AG.lost s f w → w.alive = true ∧ w.a.g.vertexOf f = some v ∧ (w.target v).isSome) := by
  obtain ⟨l, h1, h2⟩ := hi.events
  have hd : w.a.trace.drop s.trace.length = l := by rw [h1]; simp
  have hh := h2 f v hv
  unfold AG.lost AG.removedSince
  rw [hd]
  constructor
  · rintro (h | h)
    · simp [AG.target, h]
    · unfold AG.target; split
      · exact hh.away h
      · rfl
  · intro hn
    simp only [not_or, Bool.not_eq_false] at hn
    have h3 := hh.here hn.2
    refine ⟨hn.1, h3, ?_⟩
    obtain ⟨r, hr, hrv⟩ := hi.wf.live h3
    unfold AG.target
    rw [if_pos hn.1, hi.wf.findV_iff.2 ⟨hr, hrv⟩]; rfl

/-- `b` has its own lists of vertices and edges; they show the frames and edges of `a` at the assignment, in the same order, for ever. -/
theorem C107_own_lists_partial (cs : List (Cmd F E)) (s : GS F E) (hs : run cs init = some s) :
    ∃ w0, AG.assign s = some w0 ∧ ∀ ops w, AG.run ops w0 = some w →
      AG.frameList w.verts = AG.frameList s.g.verts ∧ AG.edgeList w.verts w.edges = AG.edgeList s.g.verts s.g.edges := by
  have hw : WF s.g := run_wf WF.empty hs
  have key : ∀ (es : List (ERec E)) (n : Nat), (∀ e ∈ es, e ∈ s.g.edges) → ∃ es', AG.copyEdges s.g.verts n es = some es' ∧
      AG.edgeList (AG.copyVerts 0 s.g.verts) es' = AG.edgeList s.g.verts es := by
    intro es
    induction es with
    | nil => intro n _; exact ⟨[], rfl, rfl⟩
    | cons e es ih =>
      intro n he
      obtain ⟨es', h1, h2⟩ := ih (n + 1) (fun x hx => he x (by simp [hx]))
      obtain ⟨i, a1, -, a3⟩ := AG.newVertex_some (hw.esrc e (he e (by simp)))
      obtain ⟨j, b1, -, b3⟩ := AG.newVertex_some (hw.etgt e (he e (by simp)))
      refine ⟨⟨n, i, j, e.prop⟩ :: es', by simp [AG.copyEdges, a1, b1, h1], ?_⟩
      have hfind : ∀ i, ((AG.copyVerts 0 s.g.verts).find? (fun r => r.id = i)) = (AG.copyVerts 0 s.g.verts)[i]? := by
        have gen : ∀ (l : List (VRec F)) (n i : Nat), ((AG.copyVerts n l).find? (fun r => r.id = n + i)) = (AG.copyVerts n l)[i]? := by
          intro l
          induction l with
          | nil => intro n i; simp [AG.copyVerts]
          | cons x l ih =>
            intro n i
            cases i with
            | zero => simp [AG.copyVerts]
            | succ i =>
              have hne : ¬ ((n : Nat) = n + (i + 1)) := by omega
              have := ih (n + 1) i
              rw [show n + 1 + i = n + (i + 1) from by omega] at this
              simpa [AG.copyVerts, List.find?_cons, hne] using this
        intro i
        have := gen s.g.verts 0 i
        rwa [Nat.zero_add] at this
      simp only [AG.edgeList, List.map_cons] at h2 ⊢
      rw [h2, hfind i, hfind j, AG.copyVerts_get, AG.copyVerts_get, a3, b3]
  obtain ⟨es, h1, h2⟩ := key s.g.edges 0 (fun _ h => h)
  have ha : AG.assign s = some ⟨s, true, AG.copyVerts 0 s.g.verts, es, s.g.labels⟩ := by simp [AG.assign, h1]
  refine ⟨_, ha, fun ops w hr => ?_⟩
  have hi := (AG.assign_inv hw ha).ofRun ops hr
  rw [hi.verts, hi.edges]
  refine ⟨?_, h2⟩
  have := congrArg (List.map Prod.snd) (AG.copyVerts_idx s.g.verts 0)
  simpa [AG.frameList, Function.comp_def] using this

/-- two frames and an edge -/
def C107_demo : List (Cmd DemoFrame Int) := [.addFrame "a", .addEdge "a" "b" 5]

/-- the lists of `b` after the edge of `a` was changed and the frames of `a` destroyed -/
example : (((run C107_demo init).bind AG.assign).bind (AG.run [.onA (.setEdge "a" "b" 7), .destroyA])).map
    (fun w => (AG.frameList w.verts, AG.edgeList w.verts w.edges)) =
    some ([⟨"a", 0⟩, ⟨"b", 0⟩], [(some ⟨"a", 0⟩, some ⟨"b", 0⟩, 5), (some ⟨"b", 0⟩, some ⟨"a", 0⟩, -5)]) := by decide +kernel

/-- Which frames `b` knows is decided once and for all by the assignment. -/
theorem C107_names (cs : List (Cmd F E)) (s : GS F E) (hs : run cs init = some s) (w0 : AG F E) (ha : AG.assign s = some w0)
    (ops : List (AssignOp F E)) (w : AG F E) (hr : AG.run ops w0 = some w) (f : FrameId) :
    AG.containsFrame f w = GS.containsFrame f s ∧
    (GS.containsFrame f s = false → AG.getFrameProperty f w = .throw (.unknownFrame f) w) := by
  have hi := (AG.assign_inv (run_wf WF.empty hs) ha).ofRun ops hr
  refine ⟨by unfold AG.containsFrame GS.containsFrame; rw [hi.get], fun h => ?_⟩
  unfold AG.getFrameProperty
  rw [hi.get]
  cases e : s.g.vertexOf f with
  | none => rfl
  | some v => simp [GS.containsFrame, e] at h

/-- a frame that `a` got after the assignment -/
example : (((run C107_demo init).bind AG.assign).bind (AG.run [.onA (.addFrame "c")])).map
    (fun w => (GS.containsFrame "c" w.a, AG.containsFrame "c" w, (AG.getFrameProperty "c" w).exn?, AG.containsFrame "b" w)) =
    some (true, false, some (.unknownFrame "c"), true) := by decide +kernel

/-- Reads of `b` by name give what `a` has now, not what it had at the assignment, as long as the frames were not removed from `a`. -/
theorem C107_follows (cs : List (Cmd F E)) (s : GS F E) (hs : run cs init = some s) (w0 : AG F E) (ha : AG.assign s = some w0)
    (ops : List (AssignOp F E)) (w : AG F E) (hr : AG.run ops w0 = some w) (o t : FrameId) (ho : GS.containsFrame o s = true)
    (ht : GS.containsFrame t s = true) (lo : ¬ AG.lost s o w) (lt : ¬ AG.lost s t w) :
    AG.getFrameProperty o w = (GS.getFrameProperty o w.a).inState w ∧
    AG.containsEdge o t w = (GS.containsEdge o t w.a).inState w ∧
    AG.getEdgeProperty o t w = (GS.getEdgeProperty o t w.a).inState w := by
  have hi := (AG.assign_inv (run_wf WF.empty hs) ha).ofRun ops hr
  obtain ⟨vo, ho⟩ := Option.isSome_iff_exists.1 ho
  obtain ⟨vt, ht⟩ := Option.isSome_iff_exists.1 ht
  obtain ⟨al, a1, a2⟩ := (lost_iff hi ho).2 lo
  obtain ⟨-, b1, b2⟩ := (lost_iff hi ht).2 lt
  obtain ⟨ro, a2⟩ := Option.isSome_iff_exists.1 a2
  obtain ⟨rt, b2⟩ := Option.isSome_iff_exists.1 b2
  have a3 : w.a.g.findV vo = some ro := by unfold AG.target at a2; rwa [if_pos al] at a2
  refine ⟨?_, ?_, ?_⟩
  · simp [AG.getFrameProperty, hi.get, ho, a2, GS.getFrameProperty, a1, a3, Res.inState]
  · simp [AG.containsEdge, AG.withBoth, hi.get, ho, ht, a2, b2, GS.containsEdge, a1, b1, Res.inState]
  · simp only [AG.getEdgeProperty, AG.withBoth, hi.get, ho, ht, a2, b2, GS.getEdgeProperty, GS.getEdge, a1, b1]
    cases w.a.g.edge vo vt <;> rfl

/-- the value written to `a` after the assignment -/
example : (((run C107_demo init).bind AG.assign).bind (AG.run [.onA (.setEdge "a" "b" 7)])).map
    (fun w => (AG.getEdgeProperty "a" "b" w).val?) = some (some 7) := by decide +kernel

/-- Once a frame was removed from `a`, or `a` is destroyed, every use of this frame on `b` is undefined, also if `a` got a new frame of
the same name; `b` still claims to contain it. -/
theorem C107_dangles (cs : List (Cmd F E)) (s : GS F E) (hs : run cs init = some s) (w0 : AG F E) (ha : AG.assign s = some w0)
    (ops : List (AssignOp F E)) (w : AG F E) (hr : AG.run ops w0 = some w) (o t : FrameId) (ho : GS.containsFrame o s = true)
    (ht : GS.containsFrame t s = true) (lo : AG.lost s o w) (p : E) :
    AG.containsFrame o w = true ∧ (AG.getFrameProperty o w).undefined ∧
    (AG.containsEdge o t w).undefined ∧ (AG.containsEdge t o w).undefined ∧
    (AG.getEdgeProperty o t w).undefined ∧ (AG.getEdgeProperty t o w).undefined ∧
    (AG.setEdgeProperty o t p w).undefined ∧ (AG.setEdgeProperty t o p w).undefined := by
  have hi := (AG.assign_inv (run_wf WF.empty hs) ha).ofRun ops hr
  obtain ⟨vo, ho⟩ := Option.isSome_iff_exists.1 ho
  obtain ⟨vt, ht⟩ := Option.isSome_iff_exists.1 ht
  have a2 := (lost_iff hi ho).1 lo
  have hb : ∀ {α : Type} (k : VId → VId → AG F E → Res (AG F E) α), (AG.withBoth o t k w).undefined ∧ (AG.withBoth t o k w).undefined := by
    intro α k
    constructor
    · simp only [AG.withBoth, hi.get, ho, ht, a2]; trivial
    · simp only [AG.withBoth, hi.get, ho, ht, a2]
      cases w.target vt <;> trivial
  refine ⟨by simp [AG.containsFrame, hi.get, ho], ?_, (hb _).1, (hb _).2, (hb _).1, (hb _).2, (hb _).1, (hb _).2⟩
  simp only [AG.getFrameProperty, hi.get, ho, a2]; trivial

/-- the frame is removed from `a` and added again -/
example : ∃ s w0 w, run C107_demo init = some s ∧ AG.assign s = some w0 ∧
    AG.run [.onA (.disconnectFrame "a"), .onA (.removeFrame "a"), .onA (.addFrame "a")] w0 = some w ∧
    GS.containsFrame "a" w.a = true ∧ AG.containsFrame "a" w = true ∧ AG.getFrameProperty "a" w = .ub "dangling descriptor" :=
  ⟨_, _, _, rfl, rfl, rfl, by decide +kernel, by decide +kernel, rfl⟩

/-- A graph that is assigned from a temporary (`b = f()`; there is no move assignment because of Graph.hpp:85) cannot be used: every
frame of it leads to undefined behaviour. -/
theorem C107_temporary (cs : List (Cmd F E)) (s : GS F E) (hs : run cs init = some s) (w0 : AG F E) (ha : AG.assign s = some w0) :
    ∃ w, AG.run [.destroyA] w0 = some w ∧ ∀ f, AG.containsFrame f w = true → (AG.getFrameProperty f w).undefined := by
  have hal : w0.alive = true := by
    unfold AG.assign at ha
    split at ha
    · cases ha
    · cases ha; rfl
  have hr : AG.run [.destroyA] w0 = some { w0 with alive := false } := by simp [AG.run, AG.step, hal]
  refine ⟨_, hr, fun f hf => ?_⟩
  have hn := (C107_names cs s hs w0 ha _ _ hr f).1
  rw [hf] at hn
  have hi := (AG.assign_inv (run_wf WF.empty hs) ha).ofRun _ hr
  obtain ⟨v, hv⟩ := Option.isSome_iff_exists.1 hn.symm
  simp only [AG.getFrameProperty, hi.get, hv, (lost_iff hi hv).1 (Or.inl rfl)]; trivial

/-- `b` knows two frames and can use none -/
example : (((run C107_demo init).bind AG.assign).bind (AG.run [.destroyA])).map
    (fun w => (AG.containsFrame "a" w, (AG.getFrameProperty "a" w).val?, (AG.getFrameProperty "a" w).exn?)) = some (true, none, none) := by
  decide +kernel

/-- `b.setEdgeProperty` writes to `a`, and the subscribers of `a` that came after the assignment hear nothing of it. -/
theorem C107_writes_through (cs : List (Cmd F E)) (s : GS F E) (hs : run cs init = some s) (w0 : AG F E) (ha : AG.assign s = some w0)
    (ops : List (AssignOp F E)) (w w' : AG F E) (hr : AG.run ops w0 = some w) (o t : FrameId) (p : E) (hne : o ≠ t)
    (hx : AG.setEdgeProperty o t p w = .ok () w') :
    GS.getEdgeProperty o t w'.a = .ok p w'.a ∧ w'.a.trace = w.a.trace ∧ w'.edges = w.edges ∧
      ∃ s', GS.setEdgeProperty o t p w.a = .ok () s' ∧ s'.g = w'.a.g := by
  have hi := (AG.assign_inv (run_wf WF.empty hs) ha).ofRun ops hr
  unfold AG.setEdgeProperty AG.withBoth at hx
  rw [hi.get o, hi.get t] at hx
  cases ho : s.g.vertexOf o with
  | none => rw [ho] at hx; cases hx
  | some vo =>
    cases ht : s.g.vertexOf t with
    | none => rw [ho, ht] at hx; cases hx
    | some vt =>
      rw [ho, ht] at hx
      have hlo : ¬ AG.lost s o w := by
        intro c; have := (lost_iff hi ho).1 c; simp only [this] at hx; cases hx
      have hlt : ¬ AG.lost s t w := by
        intro c; have := (lost_iff hi ht).1 c
        cases e : w.target vo <;> simp only [this, e] at hx <;> cases hx
      obtain ⟨al, a1, a2⟩ := (lost_iff hi ho).2 hlo
      obtain ⟨-, b1, b2⟩ := (lost_iff hi ht).2 hlt
      obtain ⟨ro, a2⟩ := Option.isSome_iff_exists.1 a2
      obtain ⟨rt, b2⟩ := Option.isSome_iff_exists.1 b2
      simp only [a2, b2] at hx
      cases he : w.a.g.edge vo vt with
      | none => simp only [he] at hx; cases hx
      | some e1 =>
        simp only [he] at hx
        cases he2 : (w.a.g.setProp e1.id p).edge vt vo with
        | none => simp only [he2] at hx; cases hx
        | some e2 =>
          simp only [he2, Res.ok.injEq, true_and] at hx
          subst hx
          refine ⟨?_, rfl, rfl, ?_⟩
          · have hvne : vo ≠ vt := by
              rintro rfl
              exact hne (hi.wf.vertexOf_inj a1 b1)
            have k : ((w.a.g.setProp e1.id p).setProp e2.id (EdgeProp.inverse p)).edge vo vt = some { e1 with prop := p } := by
              obtain ⟨m1, s1, t1⟩ := G.edge_some he
              rw [G.edge_setProp, G.edge_setProp, he]
              have hid : e2.id ≠ e1.id := by
                obtain ⟨m2, s2, t2⟩ := G.edge_some he2
                obtain ⟨r, hr', i1, i2, i3, -⟩ := G.mem_setProp m2
                intro c
                have := map_inj_of_nodup hi.wf.enodup hr' m1 (by rw [← i1, c])
                subst this
                exact hvne (by rw [← s1, ← i2, s2])
              simp [Ne.symm hid]
            show GS.getEdgeProperty o t { w.a with g := _ } = _
            have q1 : ∀ g : G F E, g.labels = w.a.g.labels → ∀ f, g.vertexOf f = w.a.g.vertexOf f := by
              intro g hg f; unfold G.vertexOf; rw [hg]
            simp only [GS.getEdgeProperty, GS.getEdge, q1 ((w.a.g.setProp e1.id p).setProp e2.id (EdgeProp.inverse p)) rfl, a1, b1, k]
          · simp only [GS.setEdgeProperty, a1, b1, he, he2]
            exact ⟨_, rfl, rfl⟩

/-- `a` after a call on `b` -/
example : (((run C107_demo init).bind AG.assign).bind (AG.run [.setB "b" "a" 9])).map
    (fun w => ((GS.getEdgeProperty "a" "b" w.a).val?, w.edges.map ERec.prop)) = some (some (-9), [5, -5]) := by decide +kernel

/-- The statement: reads of `b` by name give what `a` had at the assignment, whatever happened to `a`. -/
def C107_statement (F E : Type) [FrameProp F] [EdgeProp E] : Prop :=
  ∀ (cs : List (Cmd F E)) (s : GS F E) (w0 : AG F E) (ops : List (AssignOp F E)) (w : AG F E), run cs init = some s → AG.assign s = some w0 →
    (∀ o t p, AssignOp.setB o t p ∉ ops) → AG.run ops w0 = some w → ∀ o t,
    AG.containsFrame o w = GS.containsFrame o s ∧ AG.getFrameProperty o w = (GS.getFrameProperty o s).inState w ∧
    AG.getEdgeProperty o t w = (GS.getEdgeProperty o t s).inState w

/-- It holds while the data of `a` is the same as at the assignment. -/
theorem C107_unchanged_partial (cs : List (Cmd F E)) (s : GS F E) (hs : run cs init = some s) (w0 : AG F E)
    (ha : AG.assign s = some w0) (ops : List (AssignOp F E)) (w : AG F E) (hr : AG.run ops w0 = some w) (hg : w.a.g = s.g)
    (hal : w.alive = true) (o t : FrameId) :
    AG.containsFrame o w = GS.containsFrame o s ∧ AG.getFrameProperty o w = (GS.getFrameProperty o s).inState w ∧
    AG.getEdgeProperty o t w = (GS.getEdgeProperty o t s).inState w := by
  have hw := run_wf WF.empty hs
  have hi := (AG.assign_inv hw ha).ofRun ops hr
  refine ⟨(C107_names cs s hs w0 ha ops w hr o).1, ?_, ?_⟩
  · simp only [AG.getFrameProperty, GS.getFrameProperty, hi.get, AG.target, hal, hg, if_true]
    cases ho : s.g.vertexOf o with
    | none => rfl
    | some v =>
      obtain ⟨ro, h1, h2⟩ := hw.live ho
      simp only [hw.findV_iff.2 ⟨h1, h2⟩]
      rfl
  · simp only [AG.getEdgeProperty, AG.withBoth, GS.getEdgeProperty, GS.getEdge, hi.get, AG.target, hal, hg, if_true]
    cases ho : s.g.vertexOf o with
    | none => rfl
    | some vo =>
      cases ht : s.g.vertexOf t with
      | none => rfl
      | some vt =>
        obtain ⟨ro, h1, h2⟩ := hw.live ho
        obtain ⟨rt, h3, h4⟩ := hw.live ht
        simp only [hw.findV_iff.2 ⟨h1, h2⟩, hw.findV_iff.2 ⟨h3, h4⟩]
        cases s.g.edge vo vt <;> rfl

/-- right after the assignment -/
example : ((run C107_demo init).bind AG.assign).map
    (fun w => ((AG.getEdgeProperty "b" "a" w).val?, (AG.getFrameProperty "b" w).val?, (AG.getEdgeProperty "a" "a" w).exn?)) =
    some (some (-5), some ⟨"b", 0⟩, some (.unknownEdge "a" "a")) := by decide +kernel

/-- It fails after a change of `a`. -/
theorem C107_statement_fails : ¬ C107_statement DemoFrame Int := by
  intro h
  have := (h C107_demo _ _ [.onA (.setEdge "a" "b" 7)] _ rfl rfl (by simp) rfl "a" "b").2.2
  have := congrArg Res.val? this
  revert this
  decide +kernel

/-- what `b` and its own edge list say -/
example : (((run C107_demo init).bind AG.assign).bind (AG.run [.onA (.setEdge "a" "b" 7)])).map
    (fun w => ((AG.getEdgeProperty "a" "b" w).val?, w.edges.map ERec.prop)) = some (some 7, [5, -5]) := by decide +kernel

end Verif
