import Verif.Lemmas.Calls
import Verif.Lemmas.GraphSearch
import Verif.Spec.AbsGraph
import Mathlib.Data.Finset.Image

set_option linter.unusedSectionVars false
set_option linter.unusedSimpArgs false
/-! Simulation between the graph model and the abstract graph. -/

namespace Verif
variable {F E : Type} [FrameProp F] [EdgeProp E]

/-- the graph `s` represents the abstract graph `A` -/
structure Sim (s : GS F E) (A : AGraph E) : Prop where
  wf : WF s.g
  paired : Paired s.g
  subs : s.subs = []
  frames : ∀ f, (s.g.vertexOf f).isSome ↔ f ∈ A.frames
  edges : ∀ a b, absEdge s.g a b = A.edges a b

namespace GS

theorem Sim.init : Sim (F := F) (E := E) GS.init AGraph.empty := by
  refine ⟨WF.empty, Paired.empty, rfl, ?_, ?_⟩
  · intro f; simp [GS.init, G.empty, G.vertexOf, AMap.get_nil, AGraph.empty]
  · intro a b; rfl

end GS

namespace Sim
open GS
variable {s : GS F E} {A : AGraph E}

theorem vertex_some (h : Sim s A) {f : FrameId} (hf : f ∈ A.frames) : ∃ v, s.g.vertexOf f = some v :=
  Option.isSome_iff_exists.1 ((h.frames f).2 hf)

theorem vertex_none (h : Sim s A) {f : FrameId} (hf : f ∉ A.frames) : s.g.vertexOf f = none := by
  have := mt (h.frames f).1 hf
  simpa using this

theorem addVertexN (h : Sim s A) {f : FrameId} (hf : f ∉ A.frames) {p : F} (hp : FrameProp.getId p = f) :
    Sim (GS.addVertexN f p s).1 { A with frames := insert f A.frames } := by
  have hn := h.vertex_none hf
  refine ⟨h.wf.addVertex hp, h.paired.of_edges ?_, h.subs, ?_, ?_⟩
  · simp only [GS.addVertexN, notify, G.addVertex_new p hn]
  · intro f'
    simp only [GS.addVertexN, notify, G.vertexOf_addVertex p hn, Finset.mem_insert]
    by_cases hff : f = f'
    · simp [hff]
    · rw [if_neg hff, h.frames]
      exact ⟨Or.inr, fun h => h.resolve_left (Ne.symm hff)⟩
  · intro a b
    simp only [GS.addVertexN, notify]
    rw [absEdge_addVertex h.wf p hn, h.edges]

theorem orCreate (h : Sim s A) (f : FrameId) :
    Sim (GS.orCreate f (s.g.vertexOf f) s).1 { A with frames := insert f A.frames } := by
  by_cases hf : f ∈ A.frames
  · obtain ⟨v, hv⟩ := h.vertex_some hf
    simp only [GS.orCreate, hv, Finset.insert_eq_of_mem hf]
    exact h
  · rw [h.vertex_none hf]
    exact h.addVertexN hf (FrameProp.getId_setId _ _)

theorem addEdgeD (h : Sim s A) {a b : FrameId} {u v : VId} (ha : s.g.vertexOf a = some u)
    (hb : s.g.vertexOf b = some v) (hne : a ≠ b) (p : E) :
    if (A.edges a b).isSome then addEdgeD u v p s = .throw (.edgeAlreadyExists a b) s
    else ∃ s', addEdgeD u v p s = .ok () s' ∧ Sim s' (A.connect a b p) := by
  obtain ⟨ru, hu, hua⟩ := h.wf.live_of_vertexOf ha
  obtain ⟨rv, hv, hvb⟩ := h.wf.live_of_vertexOf hb
  have he : A.edges a b = (s.g.edge u v).map ERec.prop := by rw [← h.edges, absEdge_of ha hb]
  unfold GS.addEdgeD
  cases hed : s.g.edge u v with
  | some e => simp [he, hu, hv, hed, hua, hvb]
  | none =>
    simp only [he, hu, hv, hed, h.subs, Option.map_none, Option.isSome_none, Bool.false_eq_true, if_false]
    refine ⟨_, rfl, ?_⟩
    refine ⟨?_, ?_, rfl, ?_, ?_⟩
    · exact (h.wf.addEdge (h.wf.live ha) (h.wf.live hb)).addEdge (h.wf.live hb) (h.wf.live ha)
    · refine h.paired.addPair ?_ hed
      rintro rfl
      exact hne (h.wf.vertexOf_inj ha hb)
    · intro f
      have ha' := (h.frames a).1 (by simp [ha])
      have hb' := (h.frames b).1 (by simp [hb])
      simp only [AGraph.connect, Finset.insert_eq_of_mem hb', Finset.insert_eq_of_mem ha']
      exact h.frames f
    · intro x y
      exact (absEdge_addPair h.wf h.paired ha hb hne hed x y).trans (by simp [AGraph.connect, h.edges])

theorem addEdge (h : Sim s A) {a b : FrameId} (hne : a ≠ b) (p : E) :
    if (A.edges a b).isSome then addEdge a b p s = .throw (.edgeAlreadyExists a b) s
    else ∃ s', addEdge a b p s = .ok () s' ∧ Sim s' (A.connect a b p) := by
  unfold GS.addEdge
  simp only
  obtain ⟨-, b1, c1⟩ := orCreate_spec (s := s) (s0 := s) (f := a) (fun f v h => h)
  obtain ⟨-, b2, c2⟩ := orCreate_spec (s := (GS.orCreate a (s.g.vertexOf a) s).1) (s0 := s) (f := b) c1
  have s1 := h.orCreate a
  have s2 : Sim (GS.orCreate b (s.g.vertexOf b) (GS.orCreate a (s.g.vertexOf a) s).1).1
      { A with frames := insert a (insert b A.frames) } := by
    have hb' : (GS.orCreate a (s.g.vertexOf a) s).1.g.vertexOf b = s.g.vertexOf b := by
      unfold GS.orCreate
      cases hv : s.g.vertexOf a with
      | some v => rfl
      | none =>
        simp only [GS.addVertexN, notify, G.vertexOf_addVertex _ hv, if_neg hne]
    have := s1.orCreate b
    rw [hb'] at this
    rw [Finset.insert_comm]
    exact this
  have key := s2.addEdgeD (c2 _ _ b1) b2 hne p
  simp only at key
  by_cases he : (A.edges a b).isSome
  · rw [if_pos he] at key ⊢
    have hab : (absEdge s.g a b).isSome := by rw [h.edges]; exact he
    obtain ⟨u, v, e, hu, hv, -⟩ := absEdge_isSome hab
    simp only [hu, hv, GS.orCreate] at key ⊢
    exact key
  · rw [if_neg he] at key ⊢
    obtain ⟨s', k1, k2⟩ := key
    refine ⟨s', k1, ?_⟩
    have : (AGraph.connect { A with frames := insert a (insert b A.frames) } a b p) = A.connect a b p := by
      simp [AGraph.connect, Finset.insert_comm]
    rwa [this] at k2

theorem removeEdge (h : Sim s A) {a b : FrameId} (ha : a ∈ A.frames) (hb : b ∈ A.frames) :
    if (A.edges a b).isSome then ∃ s', removeEdge a b s = .ok () s' ∧ Sim s' (A.disconnect a b)
    else removeEdge a b s = .throw (.unknownEdge a b) s := by
  obtain ⟨u, hu⟩ := h.vertex_some ha
  obtain ⟨v, hv⟩ := h.vertex_some hb
  have he : A.edges a b = (s.g.edge u v).map ERec.prop := by rw [← h.edges, absEdge_of hu hv]
  unfold GS.removeEdge
  simp only [hu, hv]
  cases hed : s.g.edge u v with
  | none => simp [he, hed, removeEdgeBoth]
  | some e =>
    simp only [he, hed, Option.map_some, Option.isSome_some, if_true]
    rw [removeEdgeBoth_eq h.wf h.paired a b hed, h.subs]
    refine ⟨_, rfl, cut_wf h.wf _ _, cut_paired h.paired _ _, rfl, h.frames, ?_⟩
    intro x y
    exact (absEdge_cut h.wf hu hv x y).trans (by simp [AGraph.disconnect, h.edges])

theorem setEdge (h : Sim s A) {a b : FrameId} (ha : a ∈ A.frames) (hb : b ∈ A.frames) (p : E) :
    if (A.edges a b).isSome then ∃ s', setEdgeProperty a b p s = .ok () s' ∧ Sim s' (A.connect a b p)
    else setEdgeProperty a b p s = .throw (.unknownEdge a b) s := by
  obtain ⟨u, hu⟩ := h.vertex_some ha
  obtain ⟨v, hv⟩ := h.vertex_some hb
  have he : A.edges a b = (s.g.edge u v).map ERec.prop := by rw [← h.edges, absEdge_of hu hv]
  unfold setEdgeProperty
  simp only [hu, hv]
  cases hed : s.g.edge u v with
  | none => simp [he, hed]
  | some e =>
    simp only [he, hed, Option.map_some, Option.isSome_some, if_true]
    obtain ⟨e2, h2, -⟩ := h.paired.inverse hed
    have h2' : ∃ e2', (s.g.setProp e.id p).edge v u = some e2' := by rw [G.edge_setProp, h2]; exact ⟨_, rfl⟩
    obtain ⟨e2', h2'⟩ := h2'
    simp only [h2']
    refine ⟨_, rfl, (h.wf.setProp _ _).setProp _ _, h.paired.setPair h.wf.enodup hed h2', h.subs, ?_, ?_⟩
    · intro f
      simp only [AGraph.connect, Finset.insert_eq_of_mem hb, Finset.insert_eq_of_mem ha]
      exact h.frames f
    · intro x y
      exact (absEdge_setPair h.wf h.paired hu hv hed h2' x y).trans (by simp [AGraph.connect, h.edges])

theorem removeFrame (h : Sim s A) {f : FrameId} (hf : f ∈ A.frames) :
    (A.connected f → removeFrame f s = .throw (.frameStillConnected f) s) ∧
    (¬ A.connected f → ∃ s', removeFrame f s = .ok () s' ∧ Sim s' { A with frames := A.frames.erase f }) := by
  obtain ⟨v, hv⟩ := h.vertex_some hf
  have hd := degree_zero_iff h.wf hv
  have hc : A.connected f ↔ s.g.degree v ≠ 0 := by
    rw [ne_eq, hd]
    simp only [AGraph.connected, h.edges]
    constructor
    · rintro ⟨x, hx | hx⟩ hall
      · rw [(hall x).1] at hx; cases hx
      · rw [(hall x).2] at hx; cases hx
    · intro hall
      by_contra hno
      apply hall
      intro x
      constructor
      · by_contra hx
        exact hno ⟨x, Or.inl (Option.isSome_iff_ne_none.2 hx)⟩
      · by_contra hx
        exact hno ⟨x, Or.inr (Option.isSome_iff_ne_none.2 hx)⟩
  unfold GS.removeFrame
  simp only [hv]
  constructor
  · intro hcc
    rw [if_pos (Nat.pos_of_ne_zero (hc.1 hcc))]
  · intro hcc
    have h0 : s.g.degree v = 0 := by
      by_contra h0; exact hcc (hc.2 h0)
    rw [if_neg (by omega)]
    refine ⟨_, rfl, h.wf.removeVertex hv h0, h.paired.of_edges rfl, h.subs, ?_, ?_⟩
    · intro f'
      simp only [notify, G.vertexOf_removeVertex, Finset.mem_erase]
      by_cases hff : f = f'
      · simp [hff]
      · rw [if_neg hff, h.frames]
        exact ⟨fun h => ⟨Ne.symm hff, h⟩, fun h => h.2⟩
    · intro a b
      simp only [notify]
      rw [absEdge_removeVertex hv h0, h.edges]

theorem disconnectFrame (h : Sim s A) {f : FrameId} (hf : f ∈ A.frames) :
    ∃ s', disconnectFrame f s = .ok () s' ∧ Sim s' (A.isolate f) := by
  obtain ⟨v, hv⟩ := h.vertex_some hf
  obtain ⟨l, h1, -⟩ := disconnectFrame_eq h.wf h.paired h.subs hv
  refine ⟨_, h1, isolate_wf h.wf v, isolate_paired h.paired v, h.subs, h.frames, ?_⟩
  intro a b
  exact (absEdge_isolate h.wf hv a b).trans (by simp [AGraph.isolate, h.edges])

end Sim

/-- the calls whose outcome the simulation predicts -/
def GS.Cmd.plain : GS.Cmd F E → Prop
  | .addEdge a b _ => a ≠ b
  | .getTree _ keep _ => keep = false
  | _ => True

namespace Sim
open GS
variable {s : GS F E} {A : AGraph E}

/-- One call: the abstract machine predicts the outcome; a call that throws leaves the state alone. -/
theorem exec (h : Sim s A) {c : Cmd F E} (hc : c.plain) :
    ((A.step c).1 = none ∧ ∃ s', exec c s = .ok () s' ∧ Sim s' (A.step c).2) ∨
    (∃ x, (A.step c).1 = some x ∧ (A.step c).2 = A ∧ GS.exec c s = .throw x s) := by
  cases c with
  | addFrame f =>
    by_cases hf : f ∈ A.frames
    · right
      obtain ⟨v, hv⟩ := h.vertex_some hf
      exact ⟨.frameAlreadyExists f, by simp [AGraph.step, hf], by simp [AGraph.step, hf], by simp [GS.exec, addFrame, hv, GS.discard]⟩
    · left
      refine ⟨by simp [AGraph.step, hf], ?_⟩
      simp only [AGraph.step, hf, if_false, GS.exec, addFrame, h.vertex_none hf, GS.discard]
      exact ⟨_, rfl, h.addVertexN hf (FrameProp.getId_setId _ _)⟩
  | emplaceFrame f p =>
    by_cases hf : f ∈ A.frames
    · right
      obtain ⟨v, hv⟩ := h.vertex_some hf
      exact ⟨.frameAlreadyExists f, by simp [AGraph.step, hf], by simp [AGraph.step, hf], by simp [GS.exec, emplaceFrame, hv, GS.discard]⟩
    · left
      refine ⟨by simp [AGraph.step, hf], ?_⟩
      simp only [AGraph.step, hf, if_false, GS.exec, emplaceFrame, h.vertex_none hf, GS.discard]
      exact ⟨_, rfl, h.addVertexN hf (FrameProp.getId_setId _ _)⟩
  | removeFrame f =>
    by_cases hf : f ∈ A.frames
    · have := h.removeFrame hf
      by_cases hcn : A.connected f
      · right
        exact ⟨.frameStillConnected f, by simp [AGraph.step, hf, hcn], by simp [AGraph.step, hf, hcn], this.1 hcn⟩
      · left
        refine ⟨by simp [AGraph.step, hf, hcn], ?_⟩
        simp only [AGraph.step, hf, hcn, not_true_eq_false, if_false]
        exact this.2 hcn
    · right
      exact ⟨.unknownFrame f, by simp [AGraph.step, hf], by simp [AGraph.step, hf], by simp [GS.exec, GS.removeFrame, h.vertex_none hf]⟩
  | disconnectFrame f =>
    by_cases hf : f ∈ A.frames
    · left
      refine ⟨by simp [AGraph.step, hf], ?_⟩
      simp only [AGraph.step, hf, not_true_eq_false, if_false]
      exact h.disconnectFrame hf
    · right
      exact ⟨.unknownFrame f, by simp [AGraph.step, hf], by simp [AGraph.step, hf],
        by simp [GS.exec, GS.disconnectFrame, h.vertex_none hf]⟩
  | addEdge a b p =>
    have := h.addEdge hc p
    by_cases he : (A.edges a b).isSome
    · right
      rw [if_pos he] at this
      exact ⟨.edgeAlreadyExists a b, by simp [AGraph.step, he], by simp [AGraph.step, he], this⟩
    · left
      rw [if_neg he] at this
      refine ⟨by simp [AGraph.step, he], ?_⟩
      simp only [AGraph.step, he]
      exact this
  | removeEdge a b =>
    by_cases ha : a ∈ A.frames
    · by_cases hb : b ∈ A.frames
      · have := h.removeEdge ha hb
        by_cases he : (A.edges a b).isSome
        · left
          rw [if_pos he] at this
          refine ⟨by simp [AGraph.step, ha, hb, he], ?_⟩
          simp only [AGraph.step, ha, hb, he, not_true_eq_false, if_false, if_true]
          exact this
        · right
          rw [if_neg he] at this
          exact ⟨.unknownEdge a b, by simp only [AGraph.step, ha, hb, he, not_true_eq_false, if_false]; rfl,
            by simp only [AGraph.step, ha, hb, he, not_true_eq_false, if_false]; rfl, this⟩
      · right
        obtain ⟨u, hu⟩ := h.vertex_some ha
        exact ⟨.unknownFrame b, by simp only [AGraph.step, ha, hb, not_true_eq_false, if_false, not_false_eq_true, if_true],
          by simp only [AGraph.step, ha, hb, not_true_eq_false, if_false, not_false_eq_true, if_true],
          by simp [GS.exec, GS.removeEdge, hu, h.vertex_none hb]⟩
    · right
      exact ⟨.unknownFrame a, by simp only [AGraph.step, ha, not_false_eq_true, if_true],
        by simp only [AGraph.step, ha, not_false_eq_true, if_true],
        by simp [GS.exec, GS.removeEdge, h.vertex_none ha]⟩
  | setEdge a b p =>
    by_cases ha : a ∈ A.frames
    · by_cases hb : b ∈ A.frames
      · have := h.setEdge ha hb p
        by_cases he : (A.edges a b).isSome
        · left
          rw [if_pos he] at this
          refine ⟨by simp [AGraph.step, ha, hb, he], ?_⟩
          simp only [AGraph.step, ha, hb, he, not_true_eq_false, if_false, if_true]
          exact this
        · right
          rw [if_neg he] at this
          exact ⟨.unknownEdge a b, by simp only [AGraph.step, ha, hb, he, not_true_eq_false, if_false]; rfl,
            by simp only [AGraph.step, ha, hb, he, not_true_eq_false, if_false]; rfl, this⟩
      · right
        obtain ⟨u, hu⟩ := h.vertex_some ha
        exact ⟨.unknownFrame b, by simp only [AGraph.step, ha, hb, not_true_eq_false, if_false, not_false_eq_true, if_true],
          by simp only [AGraph.step, ha, hb, not_true_eq_false, if_false, not_false_eq_true, if_true],
          by simp [GS.exec, GS.setEdgeProperty, hu, h.vertex_none hb]⟩
    · right
      exact ⟨.unknownFrame a, by simp only [AGraph.step, ha, not_false_eq_true, if_true],
        by simp only [AGraph.step, ha, not_false_eq_true, if_true],
        by simp [GS.exec, GS.setEdgeProperty, h.vertex_none ha]⟩
  | getTree f k p =>
    have hk : k = false := hc
    subst hk
    by_cases hf : f ∈ A.frames
    · left
      obtain ⟨v, hv⟩ := h.vertex_some hf
      obtain ⟨evs, lvl, h1, -⟩ := searchEvents_done h.wf (h.wf.live hv)
      refine ⟨by simp only [AGraph.step, hf, not_true_eq_false, if_false], ?_⟩
      simp only [AGraph.step, hf, not_true_eq_false, if_false, GS.exec, getTree, hv, getTreeInto, h1, Bool.false_eq_true]
      exact ⟨_, rfl, h.wf, h.paired, h.subs, h.frames, h.edges⟩
    · right
      exact ⟨.unknownFrame f, by simp only [AGraph.step, hf, not_false_eq_true, if_true],
        by simp only [AGraph.step, hf, not_false_eq_true, if_true], by simp [GS.exec, getTree, h.vertex_none hf]⟩
  | unsubscribeView p =>
    left
    refine ⟨rfl, _, rfl, ?_⟩
    have hs := unsubscribeView_same p s
    refine ⟨hs.1 ▸ h.wf, hs.1 ▸ h.paired, ?_, fun f => hs.1 ▸ h.frames f, fun a b => hs.1 ▸ h.edges a b⟩
    unfold GS.unsubscribeView
    split
    · simp [h.subs]
    · exact h.subs

/-- Histories: outcomes and final graph are those of the abstract machine. -/
theorem outcomes {cs : List (Cmd F E)} (hcs : ∀ c ∈ cs, c.plain) : ∀ {s : GS F E} {A : AGraph E}, Sim s A →
    ∃ s', GS.outcomes cs s = some ((A.run cs).1, s') ∧ Sim s' (A.run cs).2 ∧ GS.run cs s = some s' := by
  induction cs with
  | nil => intro s A h; exact ⟨s, rfl, h, rfl⟩
  | cons c cs ih =>
    intro s A h
    rcases h.exec (hcs c (by simp)) with ⟨h1, s', h2, h3⟩ | ⟨x, h1, h2, h3⟩
    · obtain ⟨s'', e1, e2, e3⟩ := ih (fun c hc => hcs c (by simp [hc])) h3
      refine ⟨s'', ?_, e2, ?_⟩
      · simp [GS.outcomes, h2, e1, AGraph.run, h1]
      · simp [GS.run, h2, e3]
    · obtain ⟨s'', e1, e2, e3⟩ := ih (fun c hc => hcs c (by simp [hc])) h
      refine ⟨s'', ?_, ?_, ?_⟩
      · simp [GS.outcomes, h3, e1, AGraph.run, h1, h2]
      · simpa [AGraph.run, h2] using e2
      · simp [GS.run, h3, e3]

theorem numVertices (h : Sim s A) : numVertices s = A.frames.card := by
  have hnd : (s.g.verts.map (fun r => FrameProp.getId r.prop)).Nodup := by
    have h1 : s.g.verts.Nodup := List.Nodup.of_map _ h.wf.vnodup
    exact (List.nodup_map_iff_inj_on h1).2 (fun r hr r' hr' he => h.wf.name_inj hr hr' he)
  have : A.frames = (s.g.verts.map (fun r => FrameProp.getId r.prop)).toFinset := by
    ext f
    rw [← h.frames, Option.isSome_iff_exists]
    simp only [h.wf.vertexOf_iff, List.mem_toFinset, List.mem_map]
    constructor
    · rintro ⟨v, r, hr, h1, h2⟩; exact ⟨r, hr, h2⟩
    · rintro ⟨r, hr, h2⟩; exact ⟨r.id, r, hr, rfl, h2⟩
  rw [this, List.toFinset_card_of_nodup hnd]
  simp [GS.numVertices]

theorem numEdges (h : Sim s A) : numEdges s = A.pairs.card := by
  have hlive : ∀ e ∈ s.g.edges, s.g.vertexOf (nameOf s.g e.src) = some e.src ∧ s.g.vertexOf (nameOf s.g e.tgt) = some e.tgt :=
    fun e he => ⟨vertexOf_nameOf h.wf (h.wf.esrc e he), vertexOf_nameOf h.wf (h.wf.etgt e he)⟩
  have hnd : (s.g.edges.map (fun e => (nameOf s.g e.src, nameOf s.g e.tgt))).Nodup := by
    have h1 : s.g.edges.Nodup := List.Nodup.of_map _ h.wf.enodup
    refine (List.nodup_map_iff_inj_on h1).2 (fun r hr r' hr' he => ?_)
    simp only [Prod.mk.injEq] at he
    have a1 := hlive r hr
    have a2 := hlive r' hr'
    rw [he.1, he.2] at a1
    refine h.paired.uniq r hr r' hr' ?_ ?_
    · exact Option.some.inj (a1.1.symm.trans a2.1)
    · exact Option.some.inj (a1.2.symm.trans a2.2)
  have : A.pairs = (s.g.edges.map (fun e => (nameOf s.g e.src, nameOf s.g e.tgt))).toFinset := by
    ext ⟨a, b⟩
    simp only [AGraph.pairs, Finset.mem_filter, Finset.mem_product, ← h.edges, ← h.frames, List.mem_toFinset, List.mem_map,
      Prod.mk.injEq]
    constructor
    · rintro ⟨-, h1⟩
      obtain ⟨u, v, e, hu, hv, he⟩ := absEdge_isSome h1
      obtain ⟨m, hs, ht⟩ := G.edge_some he
      refine ⟨e, m, ?_, ?_⟩
      · rw [hs]; exact nameOf_eq h.wf hu
      · rw [ht]; exact nameOf_eq h.wf hv
    · rintro ⟨e, he, rfl, rfl⟩
      obtain ⟨a1, a2⟩ := hlive e he
      refine ⟨⟨by simp [a1], by simp [a2]⟩, ?_⟩
      rw [absEdge_of a1 a2]
      have : (s.g.edge e.src e.tgt).isSome := G.edge_isSome.2 ⟨e, he, rfl, rfl⟩
      simpa using this
  rw [this, List.toFinset_card_of_nodup hnd]
  simp [GS.numEdges]

end Sim
end Verif
