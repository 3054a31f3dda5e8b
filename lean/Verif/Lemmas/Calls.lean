import Verif.Lemmas.Abs

set_option linter.unusedSectionVars false
set_option linter.unusedSimpArgs false
/-! Exact results of the calls on well-formed graphs. -/

namespace Verif
variable {F E : Type} [FrameProp F] [EdgeProp E]
namespace GS

/-- `remove_edge` on an existing edge: both directions are removed, one event is published while only the first is gone. -/
theorem removeEdgeBoth_eq {s : GS F E} (hw : WF s.g) (hp : Paired s.g) (a b : FrameId) {u v : VId} {e1 : ERec E}
    (h1 : s.g.edge u v = some e1) :
    removeEdgeBoth a b u v s =
      match removeEdgeFromTreeViews u v s.subs s.views with
      | .ok _ vs => .ok () { s with
          g := s.g.cut u v, views := vs,
          trace := s.trace ++ [(.edgeRemoved a b, { s.g with edges := s.g.edges.filter (fun r => r.id ≠ e1.id) })] }
      | .throw x vs => .throw x { s with
          g := s.g.cut u v, views := vs,
          trace := s.trace ++ [(.edgeRemoved a b, { s.g with edges := s.g.edges.filter (fun r => r.id ≠ e1.id) })] }
      | .ub r => .ub r := by
  obtain ⟨e2, g1, g2, h2, r1, r2, hne, rfl, rfl⟩ := removePair_exists hw hp h1
  unfold removeEdgeBoth
  simp only [h1, h2, r1, notify, r2]
  rfl

theorem removeEdgeFromTreeViews_nil (u v : VId) (vs : Nat → TreeView) :
    removeEdgeFromTreeViews u v [] vs = .ok () vs := rfl

/-- out-edges of `u` after cutting `u`-`v`, when the first out-edge leads to `v` -/
theorem outEdges_cut {g : G F E} (hw : WF g) (hp : Paired g) {u : VId} {e : ERec E} {es : List (ERec E)}
    (h : g.outEdges u = e :: es) : (g.cut u e.tgt).outEdges u = es := by
  have hmem : ∀ r ∈ g.outEdges u, r ∈ g.edges ∧ r.src = u := by
    intro r hr; simpa [G.outEdges] using hr
  have he := hmem e (by rw [h]; simp)
  have hnself : u ≠ e.tgt := by
    have := hp.noself e he.1
    rw [he.2] at this; exact this
  have hcut : (g.cut u e.tgt).outEdges u = (g.outEdges u).filter (fun r => r.tgt ≠ e.tgt) := by
    simp only [G.outEdges, G.cut, List.filter_filter]
    apply List.filter_congr
    intro r hr
    by_cases hs : r.src = u
    · simp [hs, hnself]
    · simp [hs]
  have hnd : (e :: es).Nodup := by
    rw [← h]
    exact (List.Nodup.of_map _ hw.enodup).filter _
  rw [hcut, h, List.filter_cons]
  simp only [ne_eq, not_true_eq_false, decide_false, Bool.false_eq_true, if_false]
  rw [List.filter_eq_self]
  intro r hr
  have hr' := hmem r (by rw [h]; simp [hr])
  simp only [decide_eq_true_eq]
  intro ht
  have : r = e := hp.uniq r hr'.1 e he.1 (hr'.2.trans he.2.symm) ht
  subst this
  exact (List.nodup_cons.1 hnd).1 hr

/-- name of a vertex (only used for live vertices) -/
def nameOf (g : G F E) (v : VId) : FrameId := ((g.findV v).map (fun r => FrameProp.getId r.prop)).getD ""

theorem nameOf_eq {g : G F E} (hw : WF g) {f : FrameId} {v : VId} (h : g.vertexOf f = some v) : nameOf g v = f := by
  obtain ⟨r, hr, hf⟩ := hw.live_of_vertexOf h
  simp [nameOf, hr, hf]

theorem vertexOf_nameOf {g : G F E} (hw : WF g) {v : VId} (h : ∃ r ∈ g.verts, r.id = v) :
    g.vertexOf (nameOf g v) = some v := by
  obtain ⟨r, hr, rfl⟩ := h
  have : g.findV r.id = some r := hw.findV_iff.2 ⟨hr, rfl⟩
  rw [hw.vertexOf_iff]
  exact ⟨r, hr, rfl, by simp [nameOf, this]⟩

/-- the graph without the edges of one vertex -/
def _root_.Verif.G.isolate (g : G F E) (v : VId) : G F E :=
  { g with edges := g.edges.filter (fun r => r.src ≠ v ∧ r.tgt ≠ v) }

theorem cut_wf {g : G F E} (hw : WF g) (u v : VId) : WF (g.cut u v) := hw.filterEdges _

theorem cut_paired {g : G F E} (hp : Paired g) (u v : VId) : Paired (g.cut u v) := by
  constructor
  · intro e he; exact hp.noself e (List.mem_filter.1 he).1
  · intro e he e' he'; exact hp.uniq e (List.mem_filter.1 he).1 e' (List.mem_filter.1 he').1
  · intro e he
    simp only [G.cut, List.mem_filter, decide_eq_true_eq] at he ⊢
    obtain ⟨e', he', h1, h2, h3⟩ := hp.inv e he.1
    refine ⟨e', ⟨he', ?_⟩, h1, h2, h3⟩
    rw [h1, h2]
    rintro (⟨a, b⟩ | ⟨a, b⟩)
    · exact he.2 (Or.inr ⟨b, a⟩)
    · exact he.2 (Or.inl ⟨b, a⟩)

theorem isolate_cut (g : G F E) (u v : VId) : (g.cut u v).isolate u = g.isolate u := by
  simp only [G.isolate, G.cut, List.filter_filter]
  congr 1
  apply List.filter_congr
  intro r _
  by_cases h1 : r.src = u <;> by_cases h2 : r.tgt = u <;> simp [h1, h2]

theorem isolate_of_outEdges_nil {g : G F E} (hp : Paired g) {v : VId} (h : g.outEdges v = []) : g.isolate v = g := by
  have h1 : ∀ e ∈ g.edges, e.src ≠ v := by
    intro e he hs
    have : e ∈ g.outEdges v := by simp [G.outEdges, he, hs]
    rw [h] at this; cases this
  have : g.edges.filter (fun r => r.src ≠ v ∧ r.tgt ≠ v) = g.edges := by
    rw [List.filter_eq_self]
    intro e he
    simp only [decide_eq_true_eq]
    refine ⟨h1 e he, ?_⟩
    intro ht
    obtain ⟨e', he', h2, -, -⟩ := hp.inv e he
    exact h1 e' he' (h2.trans ht)
  simp only [G.isolate, this]

theorem isolate_wf {g : G F E} (hw : WF g) (v : VId) : WF (g.isolate v) := hw.filterEdges _

theorem isolate_paired {g : G F E} (hp : Paired g) (v : VId) : Paired (g.isolate v) := by
  constructor
  · intro e he; exact hp.noself e (List.mem_filter.1 he).1
  · intro e he e' he'; exact hp.uniq e (List.mem_filter.1 he).1 e' (List.mem_filter.1 he').1
  · intro e he
    simp only [G.isolate, List.mem_filter, decide_eq_true_eq] at he ⊢
    obtain ⟨e', he', h1, h2, h3⟩ := hp.inv e he.1
    refine ⟨e', ⟨he', ?_⟩, h1, h2, h3⟩
    rw [h1, h2]
    exact ⟨he.2.2, he.2.1⟩

/-- `disconnectFrame`: terminates, removes the edges of the vertex, publishes one event per out-edge. -/
theorem disconnectLoop_eq {v : VId} (n : Nat) : ∀ {s : GS F E}, WF s.g → Paired s.g → s.subs = [] →
    (∃ r ∈ s.g.verts, r.id = v) → (s.g.outEdges v).length ≤ n →
    ∃ l, disconnectLoop v n s = .ok () { s with g := s.g.isolate v, trace := s.trace ++ l } ∧
      l.map Prod.fst = (s.g.outEdges v).map (fun e => Event.edgeRemoved (nameOf s.g v) (nameOf s.g e.tgt)) := by
  induction n with
  | zero =>
    intro s hw hp hsub hv hn
    have h0 : s.g.outEdges v = [] := List.length_eq_zero_iff.1 (by omega)
    refine ⟨[], ?_, by simp [h0]⟩
    unfold disconnectLoop
    rw [h0]
    simp [isolate_of_outEdges_nil hp h0]
  | succ n ih =>
    intro s hw hp hsub hv hn
    unfold disconnectLoop
    cases hes : s.g.outEdges v with
    | nil =>
      refine ⟨[], ?_, by simp⟩
      simp [isolate_of_outEdges_nil hp hes]
    | cons e es =>
      simp only
      have hem : e ∈ s.g.edges ∧ e.src = v := by
        have : e ∈ s.g.outEdges v := by rw [hes]; simp
        simpa [G.outEdges] using this
      have he : s.g.edge v e.tgt = some e := hp.edge_iff.2 ⟨hem.1, hem.2, rfl⟩
      obtain ⟨r, hr, hrv⟩ := hv
      obtain ⟨rt, hrt, hrtv⟩ := hw.etgt e hem.1
      have f1 : s.g.findV v = some r := hw.findV_iff.2 ⟨hr, hrv⟩
      have f2 : s.g.findV e.tgt = some rt := hw.findV_iff.2 ⟨hrt, hrtv⟩
      have n1 : nameOf s.g v = FrameProp.getId r.prop := by simp [nameOf, f1]
      have n2 : nameOf s.g e.tgt = FrameProp.getId rt.prop := by simp [nameOf, f2]
      have hrm : removeEdgeD v e.tgt s = .ok () { s with
          g := s.g.cut v e.tgt,
          trace := s.trace ++ [(.edgeRemoved (FrameProp.getId r.prop) (FrameProp.getId rt.prop),
            { s.g with edges := s.g.edges.filter (fun r => r.id ≠ e.id) })] } := by
        unfold removeEdgeD
        simp only [f1, f2]
        rw [removeEdgeBoth_eq hw hp _ _ he, hsub]
        rfl
      rw [hrm]
      simp only
      obtain ⟨l, hl1, hl2⟩ := ih (s := { s with
          g := s.g.cut v e.tgt,
          trace := s.trace ++ [(.edgeRemoved (FrameProp.getId r.prop) (FrameProp.getId rt.prop),
            { s.g with edges := s.g.edges.filter (fun r => r.id ≠ e.id) })] })
        (cut_wf hw _ _) (cut_paired hp _ _) hsub ⟨r, hr, hrv⟩ (by
          simp only [outEdges_cut hw hp hes]
          rw [hes] at hn
          simp only [List.length_cons] at hn
          omega)
      refine ⟨(.edgeRemoved (FrameProp.getId r.prop) (FrameProp.getId rt.prop),
            { s.g with edges := s.g.edges.filter (fun r => r.id ≠ e.id) }) :: l, ?_, ?_⟩
      · rw [hl1]
        simp only [isolate_cut, List.append_assoc, List.singleton_append]
      · have hnm : ∀ x, nameOf (s.g.cut v e.tgt) x = nameOf s.g x := fun _ => rfl
        simp only [List.map_cons, hl2, outEdges_cut hw hp hes, hnm, n1, n2]

theorem disconnectFrame_eq {f : FrameId} {v : VId} {s : GS F E} (hw : WF s.g) (hp : Paired s.g) (hsub : s.subs = [])
    (hv : s.g.vertexOf f = some v) :
    ∃ l, disconnectFrame f s = .ok () { s with g := s.g.isolate v, trace := s.trace ++ l } ∧
      l.map Prod.fst = (s.g.outEdges v).map (fun e => Event.edgeRemoved f (nameOf s.g e.tgt)) := by
  obtain ⟨l, h1, h2⟩ := disconnectLoop_eq s.g.edges.length hw hp hsub (hw.live hv) (List.length_filter_le _ _)
  refine ⟨l, ?_, ?_⟩
  · unfold disconnectFrame; rw [hv]; exact h1
  · rw [h2, nameOf_eq hw hv]

theorem edge_isolate (g : G F E) (v x y : VId) :
    (g.isolate v).edge x y = if x = v ∨ y = v then none else g.edge x y := by
  split
  · rename_i hh
    rw [G.edge_none]
    rintro e he ⟨rfl, rfl⟩
    simp only [G.isolate, List.mem_filter, decide_eq_true_eq] at he
    rcases hh with hh | hh
    · exact he.2.1 hh
    · exact he.2.2 hh
  · rename_i hh
    simp only [not_or] at hh
    simp only [G.edge, G.outEdges, G.isolate, List.filter_filter]
    rw [List.find?_filter, List.find?_filter]
    congr 1
    funext r
    by_cases c : r.src = x ∧ r.tgt = y
    · obtain ⟨rfl, rfl⟩ := c
      simp [hh]
    · by_cases c1 : r.src = x
      · have c2 : ¬ r.tgt = y := fun h => c ⟨c1, h⟩
        simp [c2]
      · simp [c1]

theorem absEdge_isolate {g : G F E} (hw : WF g) {f : FrameId} {v : VId} (hv : g.vertexOf f = some v) (x y : FrameId) :
    absEdge (g.isolate v) x y = if x = f ∨ y = f then none else absEdge g x y := by
  have hl : ∀ z, (g.isolate v).vertexOf z = g.vertexOf z := fun z => rfl
  simp only [absEdge, hl, edge_isolate]
  cases hx : g.vertexOf x with
  | none => simp
  | some x' =>
    cases hy : g.vertexOf y with
    | none => simp
    | some y' =>
      simp only [Option.bind_some]
      have : (x = f ∨ y = f) ↔ (x' = v ∨ y' = v) := by
        constructor
        · rintro (rfl | rfl)
          · left; simp_all
          · right; simp_all
        · rintro (rfl | rfl)
          · left; exact hw.vertexOf_inj hx hv
          · right; exact hw.vertexOf_inj hy hv
      simp only [this]
      split <;> rfl

end GS
end Verif
