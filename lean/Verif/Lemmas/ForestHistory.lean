import Verif.Lemmas.Forest

set_option linter.unusedSectionVars false
set_option linter.unusedSimpArgs false
/-! Subscribed views during histories that never close a cycle. -/

namespace Verif
namespace GS
open TreeView
variable {F E : Type} [FrameProp F] [EdgeProp E]

theorem removeEdgeBoth_follows {s : GS F E} (hw : WF s.g) (hp : Paired s.g) (ho : ViewsOk s) (a b : FrameId) {u v : VId}
    {e1 : ERec E} (he : s.g.edge u v = some e1) (hc : ∀ p ∈ s.subs, (s.views p).CleanCut u v) :
    ∃ s', removeEdgeBoth a b u v s = .ok () s' ∧ s'.g = s.g.cut u v ∧ Follows s s' := by
  obtain ⟨h1, h2, h3⟩ := G.edge_some he
  obtain ⟨vs', h4, h5⟩ := removeEdgeFromTreeViews_correct hp ⟨e1, h1, h2, h3⟩ s.subs s.views ho.1 ho.2 hc
  rw [removeEdgeBoth_eq hw hp a b he, h4]
  exact ⟨_, rfl, rfl, rfl, h5⟩

theorem ViewsOk.clean {s : GS F E} (hp : Paired s.g) (hf : s.g.Forest) (ho : ViewsOk s) (u v : VId) :
    ∀ p ∈ s.subs, (s.views p).CleanCut u v := by
  intro p hps
  obtain ⟨root, hr⟩ := ho.2 p hps
  exact cleanCut_of_nil (hf.no_cross hp hr) u v

theorem disconnectLoop_follows {v : VId} (n : Nat) : ∀ {s : GS F E}, WF s.g → Paired s.g → s.g.Forest → ViewsOk s →
    Live s.g v → (s.g.outEdges v).length ≤ n → ∃ s', disconnectLoop v n s = .ok () s' ∧ s'.g = s.g.isolate v ∧ Follows s s' := by
  induction n with
  | zero =>
    intro s hw hp hf ho hv hn
    have h0 : s.g.outEdges v = [] := List.length_eq_zero_iff.1 (by omega)
    refine ⟨s, ?_, (isolate_of_outEdges_nil hp h0).symm, .refl s⟩
    unfold disconnectLoop
    rw [h0]
  | succ n ih =>
    intro s hw hp hf ho hv hn
    unfold disconnectLoop
    cases hes : s.g.outEdges v with
    | nil => exact ⟨s, rfl, (isolate_of_outEdges_nil hp hes).symm, .refl s⟩
    | cons e es =>
      simp only
      have hem : e ∈ s.g.edges ∧ e.src = v := by
        have : e ∈ s.g.outEdges v := by rw [hes]; simp
        simpa [G.outEdges] using this
      have he : s.g.edge v e.tgt = some e := hp.edge_iff.2 ⟨hem.1, hem.2, rfl⟩
      obtain ⟨r, hr, hrv⟩ := hv
      obtain ⟨rt, hrt, hrtv⟩ := hw.etgt e hem.1
      have f1 : s.g.findV v = some r := hw.findV_iff.2 ⟨hr, hrv⟩
      have f2 : s.g.findV e.tgt = some rt := hw.findV_iff.2 ⟨hrt, hrtv⟩
      obtain ⟨s1, h1, h2, h3⟩ := removeEdgeBoth_follows hw hp ho (FrameProp.getId r.prop) (FrameProp.getId rt.prop) he
        (ho.clean hp hf _ _)
      have hrm : removeEdgeD v e.tgt s = .ok () s1 := by
        unfold removeEdgeD
        simp only [f1, f2]
        exact h1
      rw [hrm]
      simp only
      have hout : (s1.g.outEdges v).length ≤ n := by
        rw [h2, outEdges_cut hw hp hes]
        rw [hes] at hn
        simp only [List.length_cons] at hn
        omega
      obtain ⟨s2, h4, h5, h6⟩ := ih (s := s1) (h2 ▸ cut_wf hw _ _) (h2 ▸ cut_paired hp _ _) (h2 ▸ hf.cut _ _) (h3.ok ho)
        (by rw [h2]; exact ⟨r, hr, hrv⟩) hout
      refine ⟨s2, h4, ?_, h3.trans h6⟩
      rw [h5, h2, isolate_cut]

theorem unsubscribeView_ok {s : GS F E} (ho : ViewsOk s) (p : Nat) : ViewsOk (unsubscribeView p s) := by
  unfold unsubscribeView
  split
  · refine ⟨ho.1.filter _, ?_⟩
    intro q hq
    simp only [List.mem_filter, decide_eq_true_eq] at hq
    obtain ⟨root, hr⟩ := ho.2 q hq.1
    refine ⟨root, ?_⟩
    simp only [setView, hq.2, if_false]
    exact hr
  · exact ho

theorem getTree_ok {s : GS F E} (hw : WF s.g) (hp : Paired s.g) (ho : ViewsOk s) (hi : SubsInv s) {f : FrameId} {k : Bool} {q : Nat}
    (hq : s.views q = TreeView.empty) : ∃ s', (getTree f k q s).st? = some s' ∧ ViewsOk s' := by
  have hqs : q ∉ s.subs := by
    intro h
    have := (hi.2 q).1 h
    rw [hq] at this
    simp [TreeView.empty] at this
  cases hf : s.g.vertexOf f with
  | none => exact ⟨s, by simp [getTree, hf, Res.st?], ho⟩
  | some u =>
    have hne : ∀ p ∈ s.subs, p ≠ q := by rintro p hps rfl; exact hqs hps
    cases k with
    | true =>
      obtain ⟨s', h1, h2, h3, h4, h5⟩ := getTree_keep hw hp hf hq
      refine ⟨s', by rw [h1]; rfl, ?_, ?_⟩
      · rw [h3, List.nodup_append]
        refine ⟨ho.1, by simp, ?_⟩
        intro x hx y hy
        rw [List.mem_singleton] at hy
        subst hy
        exact hne x hx
      · intro p hps
        rw [h3, List.mem_append, List.mem_singleton] at hps
        rcases hps with hps | rfl
        · obtain ⟨root, hr⟩ := ho.2 p hps
          exact ⟨root, by rw [h4 p (hne p hps), h2]; exact hr⟩
        · exact ⟨u, by rw [h2]; exact h5⟩
    | false =>
      obtain ⟨evs, lvl, h1, h2⟩ := searchEvents_done hw (hw.live hf)
      refine ⟨{ s with views := setView s.views q ((TreeView.empty.addRoot u).build evs) }, ?_, ho.1, ?_⟩
      · simp [getTree, hf, getTreeInto, h1, hq, Res.st?]
      · intro p hps
        obtain ⟨root, hr⟩ := ho.2 p hps
        exact ⟨root, by simp only [setView, hne p hps, if_false]; exact hr⟩

theorem setProp_view {g : G F E} {root : VId} {w : TreeView} (h : IsTreeView g root w) (i : EId) (p : E) :
    IsTreeView (g.setProp i p) root w := by
  have ha : (g.setProp i p).Adj = g.Adj := by
    funext x y
    apply propext
    constructor
    · rintro ⟨e, he, rfl, rfl⟩
      obtain ⟨e1, h1, -, h2, h3, -⟩ := G.mem_setProp he
      exact ⟨e1, h1, h2.symm, h3.symm⟩
    · rintro ⟨e, he, rfl, rfl⟩
      exact ⟨_, G.mem_setProp_of (e := i) (p := p) he, by split <;> rfl, by split <;> rfl⟩
  have hr : (g.setProp i p).Reach = g.Reach := by unfold G.Reach; rw [ha]
  refine ⟨h.root_eq, ?_, h.root_parent, ?_, h.children, h.rank, ?_, ?_, ?_⟩
  · rw [hr]; exact h.span
  · rw [ha]; exact h.parent
  · intro c hc
    obtain ⟨e, he, h1, h2, h3, h4⟩ := h.cross_edge c hc
    refine ⟨_, G.mem_setProp_of (e := i) (p := p) he, ?_, ?_, ?_, ?_⟩
    · split <;> exact h1
    · split <;> exact h2
    · split <;> exact h3
    · rw [hr]; split <;> exact h4
  · rw [hr, ha]; exact h.tree_not_cross
  · rw [hr, ha]; exact h.cross_once

theorem setEdge_follows {s : GS F E} (hp : Paired s.g) {a b : FrameId} {p : E} :
    ∃ s', (setEdgeProperty a b p s).st? = some s' ∧ Follows s s' := by
  unfold setEdgeProperty
  cases hu : s.g.vertexOf a with
  | none => exact ⟨s, rfl, .refl s⟩
  | some u =>
    cases hv : s.g.vertexOf b with
    | none => exact ⟨s, rfl, .refl s⟩
    | some v =>
      simp only
      cases he : s.g.edge u v with
      | none => exact ⟨s, rfl, .refl s⟩
      | some e =>
        obtain ⟨e2, h2, -⟩ := hp.inverse he
        have h2' : ∃ e2', (s.g.setProp e.id p).edge v u = some e2' := by rw [G.edge_setProp, h2]; exact ⟨_, rfl⟩
        obtain ⟨e2', h2'⟩ := h2'
        simp only [h2']
        exact ⟨_, rfl, rfl, fun q _ root hr => setProp_view (setProp_view hr _ _) _ _⟩

/-- the calls of a history without cycles keep all subscribed views correct -/
theorem exec_tree {c : Cmd F E} {s : GS F E} (hw : WF s.g) (hp : Paired s.g) (hf : s.g.Forest) (ho : ViewsOk s) (hi : SubsInv s)
    (hc : c.noCycle s) : ∃ s', (exec c s).st? = some s' ∧ ViewsOk s' := by
  cases c with
  | addFrame f =>
    obtain ⟨s', h1, h2⟩ := exec_follows (c := .addFrame f) trivial hw hp ho
    exact ⟨s', h1, h2.ok ho⟩
  | emplaceFrame f p =>
    obtain ⟨s', h1, h2⟩ := exec_follows (c := .emplaceFrame f p) trivial hw hp ho
    exact ⟨s', h1, h2.ok ho⟩
  | addEdge a b p =>
    obtain ⟨s', h1, h2⟩ := exec_follows (c := .addEdge a b p) hc.1 hw hp ho
    exact ⟨s', h1, h2.ok ho⟩
  | removeFrame f =>
    simp only [exec, removeFrame]
    cases s.g.vertexOf f with
    | none => exact ⟨s, rfl, ho⟩
    | some v =>
      simp only
      split
      · exact ⟨s, rfl, ho⟩
      · exact ⟨_, rfl, Follows.ok (s := s) (Follows.of_edges rfl rfl rfl) ho⟩
  | disconnectFrame f =>
    simp only [exec, disconnectFrame]
    cases hv : s.g.vertexOf f with
    | none => exact ⟨s, rfl, ho⟩
    | some v =>
      obtain ⟨s', h1, -, h2⟩ := disconnectLoop_follows s.g.edges.length hw hp hf ho (hw.live hv) (List.length_filter_le _ _)
      exact ⟨s', by simp only [h1, Res.st?], h2.ok ho⟩
  | removeEdge a b =>
    simp only [exec, removeEdge]
    cases hu : s.g.vertexOf a with
    | none => exact ⟨s, rfl, ho⟩
    | some u =>
      cases hv : s.g.vertexOf b with
      | none => exact ⟨s, rfl, ho⟩
      | some v =>
        simp only
        cases he : s.g.edge u v with
        | none => exact ⟨s, by simp [removeEdgeBoth, he, Res.st?], ho⟩
        | some e =>
          obtain ⟨s', h1, -, h2⟩ := removeEdgeBoth_follows hw hp ho a b he (ho.clean hp hf _ _)
          exact ⟨s', by rw [h1]; rfl, h2.ok ho⟩
  | setEdge a b p =>
    obtain ⟨s', h1, h2⟩ := setEdge_follows (a := a) (b := b) (p := p) hp
    exact ⟨s', h1, h2.ok ho⟩
  | getTree f k q => exact getTree_ok hw hp ho hi hc
  | unsubscribeView q => exact ⟨_, rfl, unsubscribeView_ok ho q⟩

theorem noCycle_noSelf {c : Cmd F E} {s : GS F E} (h : c.noCycle s) : c.noSelf := by
  cases c <;> first | exact h.1 | trivial

/-- what holds during a history without cycles -/
structure TreeInv (s : GS F E) : Prop where
  wf : WF s.g
  paired : Paired s.g
  forest : s.g.Forest
  views : ViewsOk s
  subs : SubsInv s

theorem TreeInv.init : TreeInv (GS.init : GS F E) :=
  ⟨WF.empty, Paired.empty, G.Forest.empty, ⟨by simp [GS.init], by simp [GS.init]⟩, init_subsInv⟩

theorem TreeInv.exec {c : Cmd F E} {s : GS F E} (h : TreeInv s) (hc : c.noCycle s) :
    ∃ s', (GS.exec c s).st? = some s' ∧ TreeInv s' := by
  obtain ⟨s', h1, h2⟩ := exec_tree h.wf h.paired h.forest h.views h.subs hc
  have hr : run [c] s = some s' := by rw [run_of_exec h1]; rfl
  refine ⟨s', h1, run_wf h.wf hr, run_paired h.wf h.paired hr ?_, exec_forest h.wf h.paired h.forest hc h1, h2,
    exec_subsInv h.subs h1⟩
  intro c' hc'
  rw [List.mem_singleton] at hc'
  subst hc'
  exact noCycle_noSelf hc

theorem TreeHistory.cons {c : Cmd F E} {cs : List (Cmd F E)} {s s' : GS F E} (h : TreeHistory (c :: cs) s)
    (hx : (GS.exec c s).st? = some s') : TreeHistory cs s' := by
  have h2 := h.2
  cases he : GS.exec c s with
  | ok a t => rw [he] at hx h2; cases hx; exact h2
  | throw a t => rw [he] at hx h2; cases hx; exact h2
  | ub r => rw [he] at hx; cases hx

theorem TreeInv.run {cs : List (Cmd F E)} : ∀ {s : GS F E}, TreeInv s → TreeHistory cs s → ∃ s', GS.run cs s = some s' ∧ TreeInv s' := by
  induction cs with
  | nil => intro s h _; exact ⟨s, rfl, h⟩
  | cons c cs ih =>
    intro s h ht
    obtain ⟨s1, h1, h2⟩ := h.exec ht.1
    obtain ⟨s', h3, h4⟩ := ih h2 (ht.cons h1)
    exact ⟨s', by rw [run_of_exec h1, h3], h4⟩

theorem run_append {cs ds : List (Cmd F E)} : ∀ {s s' : GS F E}, GS.run cs s = some s' → GS.run (cs ++ ds) s = GS.run ds s' := by
  induction cs with
  | nil => intro s s' h; simp only [GS.run, Option.some.injEq] at h; subst h; rfl
  | cons c cs ih =>
    intro s s' h
    cases hx : GS.exec c s with
    | ok a t =>
      have hst : (GS.exec c s).st? = some t := by rw [hx]; rfl
      rw [run_of_exec hst] at h
      rw [List.cons_append, run_of_exec hst]
      exact ih h
    | throw a t =>
      have hst : (GS.exec c s).st? = some t := by rw [hx]; rfl
      rw [run_of_exec hst] at h
      rw [List.cons_append, run_of_exec hst]
      exact ih h
    | ub r => simp only [GS.run, hx] at h; cases h

end GS
end Verif
