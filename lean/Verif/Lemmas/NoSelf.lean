import Verif.Lemmas.SimViews

set_option linter.unusedSectionVars false
set_option linter.unusedSimpArgs false
/-! Graphs with self edges: all other edges still come in pairs. -/

namespace Verif
variable {F E : Type} [FrameProp F] [EdgeProp E]

/-- the graph without its self edges -/
def G.ns (g : G F E) : G F E := { g with edges := g.edges.filter (fun r => r.src ≠ r.tgt) }

omit [FrameProp F] [EdgeProp E] in
theorem G.edge_ns (g : G F E) {u v : VId} (h : u ≠ v) : g.ns.edge u v = g.edge u v := by
  simp only [G.edge, G.outEdges, G.ns, List.filter_filter, List.find?_filter]
  congr 1
  funext r
  by_cases h1 : r.src = u
  · by_cases h2 : r.tgt = v
    · have h3 : r.src ≠ r.tgt := fun hh => h (h1.symm.trans (hh.trans h2))
      simp only [h3, ne_eq, not_false_eq_true, decide_true, Bool.and_true]
    · simp [h2]
  · simp [h1]

omit [EdgeProp E] in
theorem WF.ns {g : G F E} (h : WF g) : WF g.ns := h.filterEdges _

omit [FrameProp F] [EdgeProp E] in
theorem G.mem_ns {g : G F E} {e : ERec E} : e ∈ g.ns.edges ↔ e ∈ g.edges ∧ e.src ≠ e.tgt := by simp [G.ns]

theorem G.removeEdge_ns {g g1 : G F E} {i : EId} (h : g.removeEdge i = some g1) (hi : ∃ r ∈ g.edges, r.id = i ∧ r.src ≠ r.tgt) :
    g.ns.removeEdge i = some g1.ns := by
  obtain ⟨-, rfl⟩ := G.removeEdge_some h
  obtain ⟨r, hr, hri, hrn⟩ := hi
  rw [G.removeEdge_of_mem (g := g.ns) ⟨r, G.mem_ns.2 ⟨hr, hrn⟩, hri⟩]
  simp only [G.ns, List.filter_filter, Option.some.injEq]
  congr 1
  exact List.filter_congr (fun r _ => Bool.and_comm _ _)

omit [FrameProp F] [EdgeProp E] in
theorem G.setProp_ns (g : G F E) (i : EId) (p : E) : (g.setProp i p).ns = g.ns.setProp i p := by
  simp only [G.ns, G.setProp]
  congr 1
  rw [List.filter_map]
  congr 1
  apply List.filter_congr
  intro r _
  simp only [Function.comp]
  split <;> rfl

/-- a step, seen without self edges, is a step or nothing -/
theorem GStep.ns {g g' : G F E} {x : Event × G F E} (hs : GStep g x g') (hw : WF g) :
    (g'.ns.edges = g.ns.edges) ∨ ∃ x', GStep g.ns x' g'.ns ∧ ¬ x'.1.isSelfAdd := by
  cases hs with
  | @addV f p hn hp =>
    refine Or.inl ?_
    rw [G.addVertex_new p hn]; rfl
  | dupV => exact Or.inl rfl
  | @addE a b u v p ha hb hn =>
    by_cases huv : u = v
    · subst huv
      refine Or.inl ?_
      simp [G.ns, G.addEdge]
    · refine Or.inr ⟨(.edgeAdded a b g.nextE, ((g.ns.addEdge u v p).1.addEdge v u (EdgeProp.inverse p)).1), ?_, fun hs => ?_⟩
      · have := GStep.addE (g := g.ns) (p := p) (a := a) (b := b) (u := u) (v := v) ha hb (by rw [G.edge_ns g huv]; exact hn)
        have hg : ((g.ns.addEdge u v p).1.addEdge v u (EdgeProp.inverse p)).1 = ((g.addEdge u v p).1.addEdge v u (EdgeProp.inverse p)).1.ns := by
          simp [G.ns, G.addEdge, huv, Ne.symm huv]
        rw [← hg]
        exact this
      · have hs : a = b := hs
        subst hs
        rw [ha] at hb
        exact huv (Option.some.inj hb)
  | @rmE g1 _ a b u v e1 e2 ha hb h1 h2 hg1 hg2 =>
    obtain ⟨m1, s1, t1⟩ := G.edge_some h1
    obtain ⟨m2, s2, t2⟩ := G.edge_some h2
    by_cases huv : u = v
    · subst huv
      rw [h1] at h2
      obtain rfl := Option.some.inj h2
      obtain ⟨-, rfl⟩ := G.removeEdge_some hg1
      obtain ⟨⟨r, hr, hri⟩, -⟩ := G.removeEdge_some hg2
      simp [hri] at hr
    · refine Or.inr ⟨_, GStep.rmE (g := g.ns) (a := a) (b := b) (u := u) (v := v) (e1 := e1) (e2 := e2) ha hb (by rw [G.edge_ns g huv]; exact h1)
        (by rw [G.edge_ns g (Ne.symm huv)]; exact h2) (G.removeEdge_ns hg1 ⟨e1, m1, rfl, by rw [s1, t1]; exact huv⟩)
        (G.removeEdge_ns hg2 ?_), fun hs => hs⟩
      obtain ⟨⟨r, hr, hri⟩, -⟩ := G.removeEdge_some hg2
      obtain ⟨-, rfl⟩ := G.removeEdge_some hg1
      have := map_inj_of_nodup hw.enodup (List.mem_of_mem_filter hr) m2 hri
      subst this
      exact ⟨r, hr, rfl, by rw [s2, t2]; exact Ne.symm huv⟩
  | @setP a b u v e1 e2 p ha hb h1 h2 =>
    by_cases huv : u = v
    · subst huv
      obtain ⟨m1, s1, t1⟩ := G.edge_some h1
      refine Or.inl ?_
      have key : ∀ (i : EId) (q : E), i = e1.id → (g.ns.setProp i q) = g.ns := by
        intro i q hi
        simp only [G.setProp]
        congr 1
        refine (List.map_congr_left (g := id) fun r hr => ?_).trans (List.map_id _)
        obtain ⟨hr, hrn⟩ := G.mem_ns.1 hr
        rw [if_neg]; rfl
        rintro hh
        have := map_inj_of_nodup hw.enodup hr m1 (hh.trans hi)
        subst this
        exact hrn (s1.trans t1.symm)
      have h2' := h2
      rw [G.edge_setProp, h1] at h2'
      simp only [Option.map_some, Option.some.injEq] at h2'
      have hid : e2.id = e1.id := by rw [← h2']; split <;> rfl
      rw [G.setProp_ns, G.setProp_ns, key _ _ rfl, key _ _ hid]
    · refine Or.inr ⟨(.edgeModified a b e1.id e2.id, (g.ns.setProp e1.id p).setProp e2.id (EdgeProp.inverse p)), ?_, fun hs => hs⟩
      · have := GStep.setP (g := g.ns) (p := p) (a := a) (b := b) (u := u) (v := v) (e1 := e1) (e2 := e2) ha hb (by rw [G.edge_ns g huv]; exact h1)
          (by rw [← G.setProp_ns, G.edge_ns _ (Ne.symm huv)]; exact h2)
        rw [G.setProp_ns, G.setProp_ns]
        exact this
  | rmV hv hd => exact Or.inl rfl

theorem GStep.paired_ns {g g' : G F E} {x : Event × G F E} (hs : GStep g x g') (hw : WF g) (hp : Paired g.ns) : Paired g'.ns := by
  rcases hs.ns hw with h | ⟨x', h1, h2⟩
  · exact hp.of_edges h
  · exact h1.paired hw.ns hp h2

theorem GSteps.paired_ns {P : G F E → Event → Prop} {g g' : G F E} {l : List (Event × G F E)} (hs : GSteps P g l g') (h : WF g)
    (hp : Paired g.ns) : Paired g'.ns := by
  induction hs with
  | nil => exact hp
  | cons hs _ _ ih => exact ih (hs.wf h) (hs.paired_ns h hp)

theorem run_paired_ns {cs : List (GS.Cmd F E)} {s : GS F E} (h : GS.run cs GS.init = some s) : Paired s.g.ns := by
  obtain ⟨l, h1, -⟩ := GS.run_advances WF.empty h
  exact h1.paired_ns WF.empty Paired.empty

namespace G

theorem cut_ns (g : G F E) (u v : VId) : (g.cut u v).ns = g.ns.cut u v := by
  simp only [G.ns, G.cut, List.filter_filter]
  congr 1
  exact List.filter_congr (fun r _ => Bool.and_comm _ _)

end G

namespace GS

theorem removePair_exists_ns {g : G F E} (hw : WF g) (h : Paired g.ns) {u v : VId} (huv : u ≠ v) {e1 : ERec E}
    (h1 : g.edge u v = some e1) :
    ∃ e2 g1 g2, g.edge v u = some e2 ∧ g.removeEdge e1.id = some g1 ∧ g1.removeEdge e2.id = some g2 ∧ e1.id ≠ e2.id ∧
      g2 = g.cut u v ∧ g1 = { g with edges := g.edges.filter (fun r => r.id ≠ e1.id) } := by
  obtain ⟨e2, h2, -⟩ := h.inverse (show g.ns.edge u v = some e1 by rw [G.edge_ns g huv]; exact h1)
  rw [G.edge_ns g (Ne.symm huv)] at h2
  obtain ⟨m1, s1, t1⟩ := G.edge_some h1
  obtain ⟨m2, s2, t2⟩ := G.edge_some h2
  have hne : e1.id ≠ e2.id := by
    intro hh
    have := map_inj_of_nodup hw.enodup m1 m2 hh
    subst this
    exact huv (s1.symm.trans s2)
  have r1 := G.removeEdge_of_mem (g := g) ⟨e1, m1, rfl⟩
  have r2 := G.removeEdge_of_mem (g := { g with edges := g.edges.filter (fun r => r.id ≠ e1.id) }) (e := e2.id)
    ⟨e2, by simp [m2, hne.symm], rfl⟩
  refine ⟨e2, _, _, h2, r1, r2, hne, ?_, rfl⟩
  simp only [G.cut, List.filter_filter]
  congr 1
  apply List.filter_congr
  intro r hr
  have e1' : r.id = e1.id ↔ (r.src = u ∧ r.tgt = v) := by
    constructor
    · intro hh; rw [map_inj_of_nodup hw.enodup hr m1 hh]; exact ⟨s1, t1⟩
    · rintro ⟨a, b⟩
      rw [h.uniq r (G.mem_ns.2 ⟨hr, by rw [a, b]; exact huv⟩) e1 (G.mem_ns.2 ⟨m1, by rw [s1, t1]; exact huv⟩) (a.trans s1.symm) (b.trans t1.symm)]
  have e2' : r.id = e2.id ↔ (r.src = v ∧ r.tgt = u) := by
    constructor
    · intro hh; rw [map_inj_of_nodup hw.enodup hr m2 hh]; exact ⟨s2, t2⟩
    · rintro ⟨a, b⟩
      rw [h.uniq r (G.mem_ns.2 ⟨hr, by rw [a, b]; exact huv.symm⟩) e2 (G.mem_ns.2 ⟨m2, by rw [s2, t2]; exact huv.symm⟩) (a.trans s2.symm) (b.trans t2.symm)]
  simp only [ne_eq, e1', e2', ← decide_not, ← Bool.decide_and]
  congr 1
  rw [not_or, and_comm]

theorem removeEdgeBoth_eq_ns {s : GS F E} (hw : WF s.g) (hp : Paired s.g.ns) (a b : FrameId) {u v : VId} (huv : u ≠ v) {e1 : ERec E}
    (h1 : s.g.edge u v = some e1) :
    removeEdgeBoth a b u v s =
      match removeEdgeFromTreeViews u v s.subs s.views with
      | .ok _ vs => .ok () { s with
          g := s.g.cut u v, views := vs,
          trace := s.trace ++ [(.edgeRemoved a b, { s.g with edges := s.g.edges.filter (fun r => r.id ≠ e1.id) })] }
      | .throw x vs => .throw x { s with
          g := s.g.cut u v, views := vs,
          trace := s.trace ++ [(.edgeRemoved a b, { s.g with edges := s.g.edges.filter (fun r => r.id ≠ e1.id) })] }
      | .ub r => .ub r := by
  obtain ⟨e2, g1, g2, h2, r1, r2, hne, rfl, rfl⟩ := removePair_exists_ns hw hp huv h1
  unfold removeEdgeBoth
  simp only [h1, h2, r1, notify, r2]
  rfl

/-- a self edge cannot be removed -/
theorem removeEdgeBoth_self {s : GS F E} (a b : FrameId) {u : VId} {e : ERec E} (h : s.g.edge u u = some e) :
    ∃ m, removeEdgeBoth a b u u s = .ub m := by
  obtain ⟨m1, -, -⟩ := G.edge_some h
  have r2 : ({ s.g with edges := s.g.edges.filter (fun r => r.id ≠ e.id) } : G F E).removeEdge e.id = none := by
    unfold G.removeEdge
    rw [if_neg]
    simp
  unfold removeEdgeBoth
  simp only [h, G.removeEdge_of_mem (g := s.g) ⟨e, m1, rfl⟩, r2, notify]
  exact ⟨_, rfl⟩

theorem disconnectLoop_cut_ns {f : FrameId} {v : VId} (n : Nat) : ∀ {s : GS F E}, WF s.g → Paired s.g.ns → s.g.vertexOf f = some v →
    (∀ s', disconnectLoop v n s = .ok () s' → ∃ ws, SimV.CutTo s s' f v ws ∧ s'.g.outEdges v = []) ∧
    (∀ x s', disconnectLoop v n s = .throw x s' → s.subs ≠ [] ∧ (∃ m, x = .runtimeError m) ∧
      ∃ ws, ws ≠ [] ∧ SimV.CutTo s s' f v ws) := by
  induction n with
  | zero =>
    intro s hw hp hv
    unfold disconnectLoop
    cases hes : s.g.outEdges v with
    | nil => exact ⟨fun s' hs => (by cases hs; exact ⟨[], .nil s f v, hes⟩), fun x s' hs => (by cases hs)⟩
    | cons e es => exact ⟨fun s' hs => (by cases hs), fun x s' hs => (by cases hs)⟩
  | succ n ih =>
    intro s hw hp hv
    unfold disconnectLoop
    cases hes : s.g.outEdges v with
    | nil => exact ⟨fun s' hs => (by cases hs; exact ⟨[], .nil s f v, hes⟩), fun x s' hs => (by cases hs)⟩
    | cons e es =>
      simp only
      have hem : e ∈ s.g.edges ∧ e.src = v := by
        have : e ∈ s.g.outEdges v := by rw [hes]; simp
        simpa [G.outEdges] using this
      have hb : s.g.vertexOf (nameOf s.g e.tgt) = some e.tgt := vertexOf_nameOf hw (hw.etgt e hem.1)
      have he : (s.g.edge v e.tgt).isSome := G.edge_isSome.2 ⟨e, hem.1, hem.2, rfl⟩
      obtain ⟨r, hr, hrf⟩ := hw.live_of_vertexOf hv
      obtain ⟨rt, hrt, hrtf⟩ := hw.live_of_vertexOf hb
      have hrm : removeEdgeD v e.tgt s = removeEdgeBoth f (nameOf s.g e.tgt) v e.tgt s := by
        unfold removeEdgeD
        simp only [hr, hrt, hrf, hrtf]
      obtain ⟨e1, he1⟩ := Option.isSome_iff_exists.1 he
      by_cases huv : v = e.tgt
      · rw [← huv] at he1 hrm ⊢
        obtain ⟨m, hm⟩ := removeEdgeBoth_self f (nameOf s.g v) he1
        rw [hrm, hm]
        exact ⟨fun s' hs => (by cases hs), fun x s' hs => (by cases hs)⟩
      rw [hrm, removeEdgeBoth_eq_ns hw hp _ _ huv he1]
      cases hx : removeEdgeFromTreeViews v e.tgt s.subs s.views with
      | ok a vs =>
        simp only
        obtain ⟨i1, i2⟩ := ih (s := { s with
          g := s.g.cut v e.tgt, views := vs,
          trace := s.trace ++ [(.edgeRemoved f (nameOf s.g e.tgt), { s.g with edges := s.g.edges.filter (fun r => r.id ≠ e1.id) })] })
          (cut_wf hw _ _) (by simp only [G.cut_ns]; exact cut_paired hp _ _) hv
        refine ⟨fun s' hs => ?_, fun x s' hs => ?_⟩
        · obtain ⟨ws, a1, a2⟩ := i1 s' hs
          exact ⟨_, a1.cons he rfl (by simp), a2⟩
        · obtain ⟨a1, a2, ws, a3, a4⟩ := i2 x s' hs
          exact ⟨a1, a2, _, by simp, a4.cons he rfl (by simp)⟩
      | throw x vs =>
        refine ⟨fun s' hs => (by cases hs), fun x' s' hs => ?_⟩
        simp only [Res.throw.injEq] at hs
        obtain ⟨rfl, rfl⟩ := hs
        obtain ⟨b1, b2⟩ := removeEdgeFromTreeViews_throw_subs _ hx
        exact ⟨b1, b2, [e.tgt], by simp, (SimV.CutTo.nil _ f v).cons he rfl (by simp)⟩
      | ub r => exact ⟨fun s' hs => (by cases hs), fun x s' hs => (by cases hs)⟩

/-- without subscribed views and without a self edge at the vertex the loop ends -/
theorem disconnectLoop_ends_ns {f : FrameId} {v : VId} (n : Nat) : ∀ {s : GS F E}, WF s.g → Paired s.g.ns → s.g.vertexOf f = some v →
    s.subs = [] → s.g.edge v v = none → (s.g.outEdges v).length ≤ n → ∃ s', disconnectLoop v n s = .ok () s' := by
  induction n with
  | zero =>
    intro s hw hp hv hs hn hl
    unfold disconnectLoop
    rw [List.length_eq_zero_iff.1 (Nat.le_zero.1 hl)]
    exact ⟨_, rfl⟩
  | succ n ih =>
    intro s hw hp hv hs hn hl
    unfold disconnectLoop
    cases hes : s.g.outEdges v with
    | nil => exact ⟨_, rfl⟩
    | cons e es =>
      simp only
      have hem : e ∈ s.g.edges ∧ e.src = v := by
        have : e ∈ s.g.outEdges v := by rw [hes]; simp
        simpa [G.outEdges] using this
      have hb : s.g.vertexOf (nameOf s.g e.tgt) = some e.tgt := vertexOf_nameOf hw (hw.etgt e hem.1)
      have he : (s.g.edge v e.tgt).isSome := G.edge_isSome.2 ⟨e, hem.1, hem.2, rfl⟩
      obtain ⟨r, hr, hrf⟩ := hw.live_of_vertexOf hv
      obtain ⟨rt, hrt, hrtf⟩ := hw.live_of_vertexOf hb
      have hrm : removeEdgeD v e.tgt s = removeEdgeBoth f (nameOf s.g e.tgt) v e.tgt s := by
        unfold removeEdgeD
        simp only [hr, hrt, hrf, hrtf]
      obtain ⟨e1, he1⟩ := Option.isSome_iff_exists.1 he
      have huv : v ≠ e.tgt := by
        intro hh
        rw [← hh, hn] at he1
        cases he1
      rw [hrm, removeEdgeBoth_eq_ns hw hp _ _ huv he1]
      rw [hs]
      simp only [removeEdgeFromTreeViews]
      have hsub : ∀ r ∈ (s.g.cut v e.tgt).edges, r ∈ s.g.edges := fun r hr => List.mem_of_mem_filter hr
      refine ih (s := { s with
          g := s.g.cut v e.tgt, subs := [], views := s.views,
          trace := s.trace ++ [(.edgeRemoved f (nameOf s.g e.tgt), { s.g with edges := s.g.edges.filter (fun r => r.id ≠ e1.id) })] })
          (cut_wf hw _ _) (by simp only [G.cut_ns]; exact cut_paired hp _ _) hv rfl ?_ ?_
      · by_contra hne
        obtain ⟨r, hr, h1, h2⟩ := G.edge_isSome.1 (Option.isSome_iff_ne_none.2 hne)
        have := G.edge_isSome.2 ⟨r, hsub r hr, h1, h2⟩
        rw [hn] at this
        cases this
      · have h1 : (s.g.cut v e.tgt).outEdges v ⊆ es := by
          intro r hr
          simp only [G.outEdges, G.cut, List.mem_filter, decide_eq_true_eq, not_or] at hr
          have : r ∈ s.g.outEdges v := by simp [G.outEdges, hr.1.1, hr.2]
          rw [hes] at this
          rcases List.mem_cons.1 this with rfl | h
          · exact absurd ⟨hr.2, rfl⟩ hr.1.2.1
          · exact h
        have h2 : ((s.g.cut v e.tgt).outEdges v).Nodup := by
          have : ((s.g.cut v e.tgt).edges.map ERec.id).Nodup := (cut_wf hw _ _).enodup
          exact (List.Nodup.of_map _ this).filter _
        have := (h2.subperm h1).length_le
        rw [hes, List.length_cons] at hl
        exact this.trans (Nat.le_of_succ_le_succ hl)

end GS
end Verif
