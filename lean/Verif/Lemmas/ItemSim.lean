import Verif.Lemmas.ItemCalls
import Verif.Lemmas.Publish

set_option linter.unusedSectionVars false
set_option linter.unusedSimpArgs false
/-! `EnvireGraph` refines the abstract store. -/

namespace Verif
open EG GS
variable {E : Type} [EdgeProp E] {ty : ItemId → TypeIdx}

namespace EG

theorem isolateAll_edges (fs : List FrameId) : ∀ (A : AGraph E) (a b : FrameId), (fs.foldl AGraph.isolate A).edges a b =
    if a ∈ fs ∨ b ∈ fs then none else A.edges a b := by
  induction fs with
  | nil => intro A a b; simp
  | cons f fs ih =>
    intro A a b
    rw [List.foldl_cons, ih]
    by_cases h1 : a ∈ fs <;> by_cases h2 : b ∈ fs <;> by_cases h3 : a = f <;> by_cases h4 : b = f <;>
      simp [AGraph.isolate, h1, h2, h3, h4]

theorem isolateAll_frames (fs : List FrameId) : ∀ (A : AGraph E), (fs.foldl AGraph.isolate A).frames = A.frames := by
  induction fs with
  | nil => intro A; rfl
  | cons f fs ih => intro A; rw [List.foldl_cons, ih]; rfl

/-- events of the second loop of `clear`: for each frame its items and then the frame -/
def leaving (g : G EFrame E) (f : FrameId) : List Event :=
  (((g.verts.find? (fun r => r.prop.id = f)).map (fun r => r.prop.visit)).getD []).map (fun i => .itemRemoved f i) ++
    [.frameRemoved f]

theorem find_name {g : G EFrame E} (hw : WF g) {f : FrameId} {v : VId} {r : VRec EFrame} (hv : g.vertexOf f = some v)
    (hr : g.findV v = some r) : g.verts.find? (fun r => r.prop.id = f) = some r := by
  obtain ⟨h1, h2⟩ := G.findV_some hr
  obtain ⟨q, hq, e1, e2⟩ := hw.vertexOf_iff.1 hv
  have : q = r := map_inj_of_nodup hw.vnodup hq h1 (e1.trans h2.symm)
  subst this
  have e2' : q.prop.id = f := e2
  exact find?_eq_some_of_unique hq (by simp [e2']) (fun b hb hbf =>
    hw.name_inj hb hq ((by simpa using hbf : b.prop.id = f).trans e2'.symm))

/-- first loop of `clear` -/
theorem disconnectAll (fs : List FrameId) : ∀ {s : EG E} {A : AGraph E}, Sim s.gs A → (∀ f ∈ fs, f ∈ A.frames) →
    ∃ s', forFrames (fun f s => EG.base s.heap (GS.disconnectFrame f s.gs)) fs s = .ok () s' ∧ s'.heap = s.heap ∧
      Sim s'.gs (fs.foldl AGraph.isolate A) ∧
      Advances (fun _ e => ∃ a b, e = .edgeRemoved a b) s.gs s'.gs ∧ s'.gs.g.verts = s.gs.g.verts := by
  induction fs with
  | nil => intro s A h _; exact ⟨s, rfl, rfl, h, .refl rfl rfl, rfl⟩
  | cons f fs ih =>
    intro s A h hfs
    have hf : f ∈ A.frames := hfs f (by simp)
    rcases h.exec (c := .disconnectFrame f) trivial with ⟨-, s1, h1, h2⟩ | ⟨x, h1, -, -⟩
    · have hstep : (A.step (F := EFrame) (.disconnectFrame f)).2 = A.isolate f := by
        simp only [AGraph.step, hf, not_true_eq_false, if_false]
      rw [hstep] at h2
      obtain ⟨s2, a1, a2, a3, a4, a5⟩ := ih (s := ⟨s1, s.heap⟩) h2 (fun x hx => hfs x (by simp [hx]))
      have h1 : GS.disconnectFrame f s.gs = .ok () s1 := h1
      have hst : (GS.disconnectFrame f s.gs).st? = some s1 := by rw [h1]; rfl
      refine ⟨s2, ?_, a2, a3, ?_, ?_⟩
      · unfold forFrames
        rw [h1]; exact a1
      · exact Advances.trans ((GS.disconnectFrame_advances h.wf hst).mono (by rintro _ e ⟨b, rfl⟩; exact ⟨f, b, rfl⟩)) a4
      · rw [a5, disconnectFrame_verts hst]
    · simp only [AGraph.step, hf, not_true_eq_false, if_false] at h1
      cases h1

/-- second loop of `clear` -/
theorem removeAll (fs : List FrameId) : ∀ {s : EG E} {A : AGraph E}, Sim s.gs A → fs.Nodup → (∀ f ∈ fs, f ∈ A.frames) →
    (∀ a b, A.edges a b = none) →
    ∃ s' l, forFrames EG.removeFrame fs s = .ok () s' ∧ s'.heap = s.heap ∧ s'.gs.trace = s.gs.trace ++ l ∧
      l.map Prod.fst = fs.flatMap (leaving s.gs.g) ∧ Sim s'.gs ⟨A.frames \ fs.toFinset, A.edges⟩ := by
  induction fs with
  | nil => intro s A h _ _ _; exact ⟨s, [], rfl, rfl, by simp, rfl, by simpa using h⟩
  | cons f fs ih =>
    intro s A h hn hfs he
    have hf : f ∈ A.frames := hfs f (by simp)
    rw [List.nodup_cons] at hn
    have hc : ¬ A.connected f := by rintro ⟨x, hx⟩; simp [he] at hx
    obtain ⟨v, hv⟩ := h.vertex_some hf
    obtain ⟨r, tr, c0, c1, c5⟩ := clearFrame_eq h.wf hv
    have hm : Sim { s.gs with g := s.gs.g.modV v wipe, trace := s.gs.trace ++ tr } A := h.modV v (h := wipe) (fun _ => rfl) _
    obtain ⟨s1, h1, h2⟩ := (hm.removeFrame hf).2 hc
    have hg1 : s1.g = (s.gs.g.modV v wipe).removeVertex v f ∧
        ∃ x, s1.trace = s.gs.trace ++ tr ++ [(.frameRemoved f, x)] := by
      simp only [GS.removeFrame, G.modV_vertexOf, hv] at h1
      split at h1
      · cases h1
      · simp only [Res.ok.injEq, true_and] at h1
        subst h1
        exact ⟨rfl, _, rfl⟩
    have hrem : EG.removeFrame f s = .ok () ⟨s1, s.heap⟩ := by
      unfold EG.removeFrame
      rw [c1]
      simp only [h1]
      rfl
    obtain ⟨hg1, x, ht1⟩ := hg1
    obtain ⟨s2, l, a1, a2, a3, a4, a5⟩ := ih (s := ⟨s1, s.heap⟩) h2 hn.2 (fun y hy => by
      have : y ≠ f := by rintro rfl; exact hn.1 hy
      simp [this, hfs y (by simp [hy])]) he
    refine ⟨s2, tr ++ [(.frameRemoved f, x)] ++ l, ?_, a2, by rw [a3, ht1]; simp, ?_, ?_⟩
    · unfold forFrames; rw [hrem]; exact a1
    · have hl : ∀ y ∈ fs, leaving s1.g y = leaving s.gs.g y := by
        intro y hy
        have hyf : y ≠ f := by rintro rfl; exact hn.1 hy
        obtain ⟨vy, hvy⟩ := h.vertex_some (hfs y (by simp [hy]))
        obtain ⟨ry, hry, -⟩ := h.wf.live_of_vertexOf hvy
        have hne : vy ≠ v := by rintro rfl; exact hyf (h.wf.vertexOf_inj hvy hv)
        have e1 := find_name h.wf hvy hry
        have e2 : s1.g.verts.find? (fun r => r.prop.id = y) = some ry := by
          apply find_name h2.wf (v := vy)
          · rw [hg1, G.vertexOf_removeVertex, if_neg (Ne.symm hyf)]; exact hvy
          · apply h2.wf.findV_iff.2
            have := G.findV_some hry
            refine ⟨?_, this.2⟩
            rw [hg1]
            simp only [G.removeVertex, List.mem_filter]
            refine ⟨G.mem_modV.2 ⟨ry, this.1, ?_⟩, ?_⟩
            · rw [if_neg]; rw [this.2]; exact hne
            · simp [this.2, hne]
        simp only [leaving, e1, e2]
      have hlf : leaving s.gs.g f = tr.map Prod.fst ++ [.frameRemoved f] := by
        have := find_name h.wf hv c0
        simp only [leaving, this, c5, Option.map_some, Option.getD_some]
      rw [List.flatMap_cons, ← List.flatMap_congr hl, hlf, ← a4]
      simp
    · have e1 : A.frames.erase f \ fs.toFinset = A.frames \ (f :: fs).toFinset := by
        ext y
        simp only [Finset.mem_sdiff, Finset.mem_erase, List.toFinset_cons, Finset.mem_insert, not_or]
        tauto
      simp only [e1] at a5
      exact a5

/-- `clear` on a graph without self edges and subscribed views -/
theorem clear_sim {s : EG E} {A : AGraph E} (h : Sim s.gs A) :
    ∃ s' l1 l2, EG.clear s = .ok () s' ∧ s'.heap = s.heap ∧ Sim s'.gs AGraph.empty ∧
      s'.gs.trace = s.gs.trace ++ l1 ++ l2 ∧ (∃ g1 : G EFrame E, GSteps (fun _ e => ∃ a b, e = .edgeRemoved a b) s.gs.g l1 g1 ∧
        ∀ a b, absEdge g1 a b = none) ∧
      l2.map Prod.fst = (names s.gs.g).flatMap (leaving s.gs.g) := by
  have hmem : ∀ f, f ∈ names s.gs.g ↔ f ∈ A.frames := fun f => by rw [mem_names h.wf, h.frames]
  obtain ⟨s1, a1, a2, a3, ⟨l1, a4, a4'⟩, a5⟩ := disconnectAll (names s.gs.g) h (fun f hf => (hmem f).1 hf)
  have hedge : ∀ a b, ((names s.gs.g).foldl AGraph.isolate A).edges a b = none := by
    intro a b
    rw [isolateAll_edges]
    split
    · rfl
    · rename_i hn
      push Not at hn
      rw [← h.edges]
      apply absEdge_none_left
      have := mt (mem_names h.wf).2 hn.1
      simpa using this
  obtain ⟨s2, l2, b1, b2, b3, b4, b5⟩ := removeAll (names s.gs.g) a3 (names_nodup h.wf) (fun f hf => by
    rw [isolateAll_frames]; exact (hmem f).1 hf) hedge
  refine ⟨s2, l1, l2, ?_, b2.trans a2, ?_, by rw [b3, a4'], ⟨_, a4, ?_⟩, ?_⟩
  · unfold EG.clear
    simp only
    rw [show s.gs.g.verts.map (fun r => FrameProp.getId r.prop) = names s.gs.g from rfl, a1]
    exact b1
  · have e1 : (⟨((names s.gs.g).foldl AGraph.isolate A).frames \ (names s.gs.g).toFinset,
        ((names s.gs.g).foldl AGraph.isolate A).edges⟩ : AGraph E) = AGraph.empty := by
      simp only [AGraph.empty, AGraph.mk.injEq]
      constructor
      · rw [isolateAll_frames]
        ext f
        simp [hmem f]
      · funext a b; exact hedge a b
    rw [e1] at b5
    exact b5
  · intro a b; rw [a3.edges]; exact hedge a b
  · rw [b4]
    apply List.flatMap_congr
    intro f _
    simp only [leaving, a5]

end EG

/-- the abstract store describes the concrete state -/
structure ESim (ty : ItemId → TypeIdx) (s : EG E) (S : AStore E) : Prop where
  good : EG.Good ty s
  sim : Sim s.gs S.graph
  stocked : Stocked ty s.gs.g S.items
  name : ∀ i, (s.heap i).frame = S.name i

namespace ESim
variable {s : EG E} {S : AStore E}

theorem init (heap : ItemId → ItemObj) :
    ESim (E := E) (fun i => (heap i).type) (EG.init heap) ⟨AGraph.empty, Shelf.empty, fun i => (heap i).frame⟩ :=
  ⟨EG.Good.init heap, GS.Sim.init, Stocked.init _ heap, fun _ => rfl⟩

theorem base (h : ESim ty s S) {c : GS.Cmd EFrame E} (hc : c.plain) (hf : itemFree c) :
    ((S.graph.step c).1 = none ∧ ∃ s', EG.base s.heap (GS.exec c s.gs) = .ok () s' ∧ s'.heap = s.heap ∧
      ESim ty s' { S with graph := (S.graph.step c).2 }) ∨
    (∃ x, (S.graph.step c).1 = some x ∧ (S.graph.step c).2 = S.graph ∧ EG.base s.heap (GS.exec c s.gs) = .throw x s) := by
  rcases h.sim.exec hc with ⟨h1, s', h2, h3⟩ | ⟨x, h1, h2, h3⟩
  · left
    refine ⟨h1, ⟨s', s.heap⟩, by rw [h2]; rfl, rfl, ?_⟩
    have hk := exec_keeps hf (s := s.gs) (s' := s') (by rw [h2]; rfl)
    exact ⟨⟨h3.wf, hk.tidy h.good.tidy, h.good.types⟩, h3, hk.stocked h.good.wf h3.wf h.stocked, h.name⟩
  · right
    exact ⟨x, h1, h2, by rw [h3]; rfl⟩

theorem addItem (h : ESim ty s S) {f : FrameId} (hf : f ∈ S.graph.frames) (i : ItemId) :
    ∃ s', addItemToFrame f i s = .ok () s' ∧ ESim ty s' ({ S with items := S.items.put f (S.items f ++ [i]) }.rename i f) := by
  obtain ⟨v, hv⟩ := h.sim.vertex_some hf
  obtain ⟨s', e1, e2, e3, e4, e5, e6, e7, e8⟩ := h.good.addItem i hv
  refine ⟨s', e1, e2, ?_, e8 _ h.stocked, ?_⟩
  · have := h.sim.modV v (h := EFrame.push (ty i) i) (fun _ => rfl) s'.gs.trace
    obtain ⟨⟨g, sb, vw, tr⟩, hp⟩ := s'
    simp only at e3 e4 e5 e6
    subst e3 e5 e6
    exact this
  · intro j; rw [e7 j, h.name j]; rfl

theorem unknown (h : ESim ty s S) {f : FrameId} (hf : f ∉ S.graph.frames) : s.gs.g.vertexOf f = none := h.sim.vertex_none hf

/-- the record of a frame and what it holds -/
theorem record (h : ESim ty s S) {f : FrameId} (hf : f ∈ S.graph.frames) :
    ∃ v r, s.gs.g.vertexOf f = some v ∧ s.gs.g.findV v = some r ∧ r ∈ s.gs.g.verts ∧ r.prop.id = f ∧
      r.prop.Holds ty (S.items f) ∧ r.prop.Tidy := by
  obtain ⟨v, hv⟩ := h.sim.vertex_some hf
  obtain ⟨r, hr, hid⟩ := h.good.wf.live_of_vertexOf hv
  have hid' : r.prop.id = f := hid
  refine ⟨v, r, hv, hr, (G.findV_some hr).1, hid', ?_, h.good.tidy r (G.findV_some hr).1⟩
  rw [← hid']; exact h.stocked.holds r (G.findV_some hr).1

theorem removeItem (h : ESim ty s S) {i : ItemId} (hf : S.name i ∈ S.graph.frames) (hi : i ∈ S.items (S.name i)) :
    ∃ s', EG.removeItem i s = .ok () s' ∧
      ESim ty s' ({ S with items := S.items.put (S.name i) ((S.items (S.name i)).erase i) }.rename i "") := by
  obtain ⟨v, r, hv, hr, hm, hid, hh, hT⟩ := h.record hf
  obtain ⟨l, hl⟩ := Option.isSome_iff_exists.1 ((hh.get_isSome hT (ty i)).2 ⟨i, hi, rfl⟩)
  have hil : i ∈ l := by rw [hh.get_some hl]; simp [hi]
  rw [← h.name i] at hv
  obtain ⟨s', e1, e2, ⟨k, e3, e3'⟩, e4, e5, e6, e7, e8⟩ := h.good.removeItem hv hr hl hil
  refine ⟨s', e1, e2, ?_, ?_, ?_⟩
  · have := h.sim.modV v (h := k) e3 s'.gs.trace
    obtain ⟨⟨g, sb, vw, tr⟩, hp⟩ := s'
    simp only at e3' e4 e5 e6
    subst e3' e5 e6
    exact this
  · rw [← h.name i]; exact e8 _ h.stocked
  · intro j; rw [e7 j, h.name j]; rfl

theorem clearFrame (h : ESim ty s S) {f : FrameId} (hf : f ∈ S.graph.frames) :
    ∃ s', EG.clearFrame f s = .ok () s' ∧ ESim ty s' { S with items := S.items.put f [] } := by
  obtain ⟨v, hv⟩ := h.sim.vertex_some hf
  obtain ⟨r, tr, s', e0, e1, e2, e3, e4, e5, e6⟩ := h.good.clearFrame hv
  refine ⟨s', e1, e2, ?_, (e6 _ h.stocked).2.2, by rw [e3]; exact h.name⟩
  rw [e4]
  exact h.sim.modV v (h := wipe) (fun _ => rfl) _

theorem removeFrame (h : ESim ty s S) {f : FrameId} (hf : f ∈ S.graph.frames) :
    (S.graph.connected f → ∃ s', EG.removeFrame f s = .throw (.frameStillConnected f) s' ∧
      ESim ty s' { S with items := S.items.put f [] }) ∧
    (¬ S.graph.connected f → ∃ s', EG.removeFrame f s = .ok () s' ∧
      ESim ty s' { S with graph := { S.graph with frames := S.graph.frames.erase f }, items := S.items.put f [] }) := by
  obtain ⟨s1, h1, h2⟩ := h.clearFrame hf
  have h3 := h2.sim.removeFrame (f := f) hf
  constructor
  · intro hc
    refine ⟨s1, ?_, h2⟩
    unfold EG.removeFrame
    rw [h1]
    simp only [h3.1 hc]
    rfl
  · intro hc
    obtain ⟨s2, h4, h5⟩ := h3.2 hc
    refine ⟨⟨s2, s1.heap⟩, ?_, ?_⟩
    · unfold EG.removeFrame
      rw [h1]
      simp only [h4]
      rfl
    · have hF := removeFrame_follows (f := f) h.good (s' := ⟨s2, s1.heap⟩) (by
        unfold EG.removeFrame
        rw [h1]
        simp only [h4]
        rfl)
      refine ⟨hF.1, h5, ?_, h2.name⟩
      unfold GS.removeFrame at h4
      obtain ⟨v, hv⟩ := h2.sim.vertex_some hf
      simp only [hv] at h4
      split at h4
      · cases h4
      · simp only [Res.ok.injEq, true_and] at h4
        subst h4
        exact stocked_removeVertex h2.stocked (by simp [Shelf.put])

/-- `clear` on a graph without self edges and subscribed views -/
theorem clear (h : ESim ty s S) :
    ∃ s', EG.clear s = .ok () s' ∧ ESim ty s' ⟨AGraph.empty, Shelf.empty, S.name⟩ := by
  obtain ⟨s', l1, l2, h1, h2, h3, -⟩ := EG.clear_sim h.sim
  have hF := clear_follows h.good (s' := s') (by rw [h1]; rfl)
  refine ⟨s', h1, hF.1, h3, ⟨?_, fun _ _ => rfl⟩, by rw [h2]; exact h.name⟩
  intro r hr
  exfalso
  have hm : FrameProp.getId r.prop ∈ names s'.gs.g := List.mem_map.2 ⟨r, hr, rfl⟩
  rw [mem_names h3.wf, h3.frames] at hm
  simp [AGraph.empty] at hm

end ESim

/-- calls described by the abstract store: no self edges, no subscribed views, no removal through an iterator, no frame created
from a property that holds items -/
def EG.Cmd.plain : EG.Cmd E → Prop
  | .graph c => c.plain ∧ (∀ f p, c = .emplaceFrame f p → p.items = [])
  | .removeItemAt .. => False
  | _ => True

/-- One call: the abstract store predicts the outcome. -/
theorem ESim.exec {s : EG E} {S : AStore E} (h : ESim ty s S) {c : EG.Cmd E} (hc : c.plain) :
    ((S.step ty c).1 = none ∧ ∃ s', EG.exec c s = .ok () s' ∧ ESim ty s' (S.step ty c).2) ∨
    (∃ x s', (S.step ty c).1 = some x ∧ EG.exec c s = .throw x s' ∧ ESim ty s' (S.step ty c).2) := by
  have hbase : ∀ c : GS.Cmd EFrame E, c.plain → itemFree c →
      ((S.graph.step c).1 = none ∧ ∃ s', EG.base s.heap (GS.exec c s.gs) = .ok () s' ∧
        ESim ty s' { S with graph := (S.graph.step c).2 }) ∨
      (∃ x s', (S.graph.step c).1 = some x ∧ EG.base s.heap (GS.exec c s.gs) = .throw x s' ∧
        ESim ty s' { S with graph := (S.graph.step c).2 }) := by
    intro c h1 h2
    rcases h.base h1 h2 with ⟨a, s', b, -, d⟩ | ⟨x, a, b, d⟩
    · exact Or.inl ⟨a, s', b, d⟩
    · exact Or.inr ⟨x, s, a, d, by rw [b]; exact h⟩
  cases c with
  | graph c =>
    cases c with
    | removeFrame f =>
      by_cases hf : f ∈ S.graph.frames
      · by_cases hcn : S.graph.connected f
        · right
          obtain ⟨s', h1, h2⟩ := (h.removeFrame hf).1 hcn
          refine ⟨_, s', by simp only [AStore.step, hf, hcn, not_true_eq_false, if_false, if_true], h1, ?_⟩
          simp only [AStore.step, hf, hcn, not_true_eq_false, if_false, if_true]
          exact h2
        · left
          obtain ⟨s', h1, h2⟩ := (h.removeFrame hf).2 hcn
          refine ⟨by simp only [AStore.step, hf, hcn, not_true_eq_false, if_false], s', h1, ?_⟩
          simp only [AStore.step, hf, hcn, not_true_eq_false, if_false]
          exact h2
      · right
        refine ⟨.unknownFrame f, s, by simp only [AStore.step, hf, not_false_eq_true, if_true], ?_, ?_⟩
        · simp only [EG.exec, EG.removeFrame, EG.clearFrame, h.unknown hf]
        · simp only [AStore.step, hf, not_false_eq_true, if_true]; exact h
    | emplaceFrame f p => exact hbase _ hc.1 (hc.2 f p rfl)
    | addFrame f => exact hbase (.addFrame f) hc.1 trivial
    | disconnectFrame f => exact hbase (.disconnectFrame f) hc.1 trivial
    | addEdge o t p => exact hbase (.addEdge o t p) hc.1 trivial
    | removeEdge o t => exact hbase (.removeEdge o t) hc.1 trivial
    | setEdge o t p => exact hbase (.setEdge o t p) hc.1 trivial
    | getTree f k p => exact hbase (.getTree f k p) hc.1 trivial
    | unsubscribeView p => exact hbase (.unsubscribeView p) hc.1 trivial
  | addItem i =>
    by_cases hf : S.name i ∈ S.graph.frames
    · left
      obtain ⟨s', h1, h2⟩ := h.addItem hf i
      refine ⟨by simp only [AStore.step, hf, not_true_eq_false, if_false], s', ?_, ?_⟩
      · simp only [EG.exec, EG.addItem, h.name]; exact h1
      · simp only [AStore.step, hf, not_true_eq_false, if_false]
        have : ({ S with items := S.items.put (S.name i) (S.items (S.name i) ++ [i]) }.rename i (S.name i) : AStore E) =
            { S with items := S.items.put (S.name i) (S.items (S.name i) ++ [i]) } := by
          simp only [AStore.rename, AStore.mk.injEq, true_and]
          funext j; split
          · rename_i hj; rw [hj]
          · rfl
        rw [← this]; exact h2
    · right
      refine ⟨.unknownFrame (S.name i), s, by simp only [AStore.step, hf, not_false_eq_true, if_true], ?_, ?_⟩
      · simp only [EG.exec, EG.addItem, EG.addItemToFrame, h.name, h.unknown hf]
      · simp only [AStore.step, hf, not_false_eq_true, if_true]; exact h
  | addItemToFrame f i =>
    by_cases hf : f ∈ S.graph.frames
    · left
      obtain ⟨s', h1, h2⟩ := h.addItem hf i
      refine ⟨by simp only [AStore.step, hf, not_true_eq_false, if_false], s', h1, ?_⟩
      simp only [AStore.step, hf, not_true_eq_false, if_false]
      exact h2
    · right
      refine ⟨.unknownFrame f, s, by simp only [AStore.step, hf, not_false_eq_true, if_true], ?_, ?_⟩
      · simp only [EG.exec, EG.addItemToFrame, h.unknown hf]
      · simp only [AStore.step, hf, not_false_eq_true, if_true]; exact h
  | removeItem i =>
    by_cases hf : S.name i ∈ S.graph.frames
    · obtain ⟨v, r, hv, hr, hm, hid, hh, hT⟩ := h.record hf
      by_cases ht : ∀ j ∈ S.items (S.name i), ty j ≠ ty i
      · right
        have hn : r.prop.items.get (ty i) = none := by
          have := mt (hh.get_isSome hT (ty i)).1 (by rintro ⟨j, hj, hjt⟩; exact ht j hj hjt)
          simpa using this
        refine ⟨.noItemsOfType (S.name i), s, by simp only [AStore.step, hf, not_true_eq_false, if_false, if_pos ht], ?_, ?_⟩
        · simp only [EG.exec, EG.removeItem, h.name, hv, hr, h.good.types, hn]
        · simp only [AStore.step, hf, not_true_eq_false, if_false, if_pos ht]; exact h
      · by_cases hi : i ∈ S.items (S.name i)
        · left
          obtain ⟨s', h1, h2⟩ := h.removeItem hf hi
          refine ⟨by simp only [AStore.step, hf, not_true_eq_false, if_false, if_neg ht, hi], s', h1, ?_⟩
          simp only [AStore.step, hf, not_true_eq_false, if_false, if_neg ht, hi]
          exact h2
        · right
          push Not at ht
          obtain ⟨l, hl⟩ := Option.isSome_iff_exists.1 ((hh.get_isSome hT (ty i)).2 ht)
          have hil : i ∉ l := by rw [hh.get_some hl]; simp [hi]
          have ht' : ¬ ∀ j ∈ S.items (S.name i), ty j ≠ ty i := by push Not; exact ht
          refine ⟨.unknownItem, s,
            by simp only [AStore.step, hf, not_true_eq_false, if_false, if_neg ht', hi, not_false_eq_true, if_true], ?_, ?_⟩
          · simp only [EG.exec, EG.removeItem, h.name, hv, hr, h.good.types, hl, hil, if_false]
          · simp only [AStore.step, hf, not_true_eq_false, if_false, if_neg ht', hi, not_false_eq_true, if_true]; exact h
    · right
      refine ⟨.unknownFrame (S.name i), s, by simp only [AStore.step, hf, not_false_eq_true, if_true], ?_, ?_⟩
      · simp only [EG.exec, EG.removeItem, h.name, h.unknown hf]
      · simp only [AStore.step, hf, not_false_eq_true, if_true]; exact h
  | removeItemAt f it => exact hc.elim
  | clearFrame f =>
    by_cases hf : f ∈ S.graph.frames
    · left
      obtain ⟨s', h1, h2⟩ := h.clearFrame hf
      refine ⟨by simp only [AStore.step, hf, not_true_eq_false, if_false], s', h1, ?_⟩
      simp only [AStore.step, hf, not_true_eq_false, if_false]
      exact h2
    · right
      refine ⟨.unknownFrame f, s, by simp only [AStore.step, hf, not_false_eq_true, if_true], ?_, ?_⟩
      · simp only [EG.exec, EG.clearFrame, h.unknown hf]
      · simp only [AStore.step, hf, not_false_eq_true, if_true]; exact h
  | clear =>
    left
    obtain ⟨s', h1, h2⟩ := h.clear
    exact ⟨rfl, s', h1, h2⟩
  | setItemFrame i f =>
    left
    refine ⟨rfl, _, rfl, ⟨⟨h.good.wf, h.good.tidy, fun j => (setItemFrame_type _ _ _ _).trans (h.good.types j)⟩, h.sim, h.stocked, ?_⟩⟩
    intro j
    rw [setItemFrame_frame, h.name j]; rfl

theorem ESim.outcomes {cs : List (EG.Cmd E)} (hcs : ∀ c ∈ cs, c.plain) : ∀ {s : EG E} {S : AStore E}, ESim ty s S →
    ∃ s', EG.outcomes cs s = some ((S.run ty cs).1, s') ∧ ESim ty s' (S.run ty cs).2 ∧ EG.run cs s = some s' := by
  induction cs with
  | nil => intro s S h; exact ⟨s, rfl, h, rfl⟩
  | cons c cs ih =>
    intro s S h
    rcases h.exec (hcs c (by simp)) with ⟨h1, s', h2, h3⟩ | ⟨x, s', h1, h2, h3⟩
    · obtain ⟨s'', e1, e2, e3⟩ := ih (fun c hc => hcs c (by simp [hc])) h3
      refine ⟨s'', ?_, e2, ?_⟩
      · simp only [EG.outcomes, h2, e1, Option.map_some, AStore.run, h1]
      · simp only [EG.run, h2, e3]
    · obtain ⟨s'', e1, e2, e3⟩ := ih (fun c hc => hcs c (by simp [hc])) h3
      refine ⟨s'', ?_, e2, ?_⟩
      · simp only [EG.outcomes, h2, e1, Option.map_some, AStore.run, h1]
      · simp only [EG.run, h2, e3]

end Verif
