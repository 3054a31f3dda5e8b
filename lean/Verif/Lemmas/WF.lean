import Verif.Model.Graph
import Verif.Lemmas.AMap
import Mathlib.Data.List.Basic
import Mathlib.Data.List.Nodup
import Mathlib.Data.List.Induction

set_option linter.unusedSectionVars false
set_option linter.unusedSimpArgs false
/-! Well-formedness of the Boost graph and its preservation by the primitive operations. -/

namespace Verif
variable {F E : Type} [FrameProp F] [EdgeProp E]

/-- Invariant of the labelled graph: descriptors unique, label map = names of the live vertices, end points live. -/
structure WF (g : G F E) : Prop where
  vnodup : (g.verts.map VRec.id).Nodup
  vlt : ∀ r ∈ g.verts, (r.id : Nat) < g.nextV
  inodup : (g.verts.map VRec.idx).Nodup
  ilt : ∀ r ∈ g.verts, r.idx < g.nextIdx
  lnodup : (AMap.keys g.labels).Nodup
  lab : ∀ f v, (f, v) ∈ g.labels ↔ ∃ r ∈ g.verts, r.id = v ∧ FrameProp.getId r.prop = f
  enodup : (g.edges.map ERec.id).Nodup
  elt : ∀ e ∈ g.edges, (e.id : Nat) < g.nextE
  esrc : ∀ e ∈ g.edges, ∃ r ∈ g.verts, r.id = e.src
  etgt : ∀ e ∈ g.edges, ∃ r ∈ g.verts, r.id = e.tgt

/-- Invariant of graphs without self edges: edges come in pairs with inverse properties, at most one per direction. -/
structure Paired (g : G F E) : Prop where
  noself : ∀ e ∈ g.edges, e.src ≠ e.tgt
  uniq : ∀ e ∈ g.edges, ∀ e' ∈ g.edges, e.src = e'.src → e.tgt = e'.tgt → e = e'
  inv : ∀ e ∈ g.edges, ∃ e' ∈ g.edges, e'.src = e.tgt ∧ e'.tgt = e.src ∧
    (e'.prop = EdgeProp.inverse e.prop ∨ e.prop = EdgeProp.inverse e'.prop)

theorem WF.empty : WF (G.empty : G F E) := by
  constructor <;> simp [G.empty, AMap.keys]

theorem Paired.empty : Paired (G.empty : G F E) := by
  constructor <;> simp [G.empty]

theorem map_inj_of_nodup {α β : Type} {f : α → β} {l : List α} (h : (l.map f).Nodup) {a b : α}
    (ha : a ∈ l) (hb : b ∈ l) (hab : f a = f b) : a = b := by
  induction l with
  | nil => simp at ha
  | cons x l ih =>
    simp only [List.map_cons, List.nodup_cons, List.mem_map, not_exists, not_and] at h
    rcases List.mem_cons.1 ha with rfl | ha' <;> rcases List.mem_cons.1 hb with rfl | hb'
    · rfl
    · exact absurd hab.symm (h.1 b hb')
    · exact absurd hab (h.1 a ha')
    · exact ih h.2 ha' hb'

theorem find?_eq_some_of_unique {α : Type} {p : α → Bool} {l : List α} {a : α} (ha : a ∈ l) (hp : p a = true)
    (hu : ∀ b ∈ l, p b = true → b = a) : l.find? p = some a := by
  cases h : l.find? p with
  | none => exact absurd hp (by have := List.find?_eq_none.1 h a ha; simpa using this)
  | some b =>
    rw [hu b (List.mem_of_find?_eq_some h) (List.find?_some h)]

section basics
omit [FrameProp F] [EdgeProp E]

theorem G.edge_some {g : G F E} {u v : VId} {e : ERec E} (h : g.edge u v = some e) :
    e ∈ g.edges ∧ e.src = u ∧ e.tgt = v := by
  have h1 := List.mem_of_find?_eq_some h
  have h2 := List.find?_some h
  simp only [G.outEdges, List.mem_filter, decide_eq_true_eq] at h1 h2
  exact ⟨h1.1, h1.2, h2⟩

theorem G.edge_none {g : G F E} {u v : VId} : g.edge u v = none ↔ ∀ e ∈ g.edges, ¬ (e.src = u ∧ e.tgt = v) := by
  simp only [G.edge, G.outEdges, List.find?_eq_none, List.mem_filter, decide_eq_true_eq]
  constructor
  · intro h e he hh; exact h e ⟨he, hh.1⟩ hh.2
  · intro h e he hh; exact h e he.1 ⟨he.2, hh⟩

theorem G.edge_isSome {g : G F E} {u v : VId} : (g.edge u v).isSome ↔ ∃ e ∈ g.edges, e.src = u ∧ e.tgt = v := by
  cases h : g.edge u v with
  | none => simpa using fun e he h1 h2 => G.edge_none.1 h e he ⟨h1, h2⟩
  | some e => 
    have := G.edge_some h
    simpa using ⟨e, this.1, this.2.1, this.2.2⟩

theorem G.findV_some {g : G F E} {v : VId} {r : VRec F} (h : g.findV v = some r) : r ∈ g.verts ∧ r.id = v := by
  have h1 := List.mem_of_find?_eq_some h
  have h2 := List.find?_some h
  simp only [decide_eq_true_eq] at h2
  exact ⟨h1, h2⟩

theorem G.findV_none {g : G F E} {v : VId} : g.findV v = none ↔ ∀ r ∈ g.verts, r.id ≠ v := by
  simp [G.findV]

end basics

section wf
omit [EdgeProp E]

theorem WF.findV_iff {g : G F E} (h : WF g) {v : VId} {r : VRec F} : g.findV v = some r ↔ r ∈ g.verts ∧ r.id = v := by
  constructor
  · exact G.findV_some
  · rintro ⟨hr, rfl⟩
    exact find?_eq_some_of_unique hr (by simp) (fun b hb hbr => map_inj_of_nodup h.vnodup hb hr (by simpa using hbr))

theorem WF.vertexOf_iff {g : G F E} (h : WF g) {f : FrameId} {v : VId} :
    g.vertexOf f = some v ↔ ∃ r ∈ g.verts, r.id = v ∧ FrameProp.getId r.prop = f := by
  rw [G.vertexOf, AMap.get_eq_some_iff h.lnodup, h.lab]

theorem WF.vertexOf_none {g : G F E} (h : WF g) {f : FrameId} :
    g.vertexOf f = none ↔ ∀ r ∈ g.verts, FrameProp.getId r.prop ≠ f := by
  constructor
  · intro hn r hr hf
    have := h.vertexOf_iff.2 ⟨r, hr, rfl, hf⟩
    rw [hn] at this; cases this
  · intro hr
    cases hv : g.vertexOf f with
    | none => rfl
    | some v =>
      obtain ⟨r, hr', -, hf⟩ := h.vertexOf_iff.1 hv
      exact absurd hf (hr r hr')

/-- names identify vertices -/
theorem WF.name_inj {g : G F E} (h : WF g) {r r' : VRec F} (hr : r ∈ g.verts) (hr' : r' ∈ g.verts)
    (hid : FrameProp.getId r.prop = FrameProp.getId r'.prop) : r = r' := by
  have h1 := h.vertexOf_iff.2 ⟨r, hr, rfl, rfl⟩
  have h2 := h.vertexOf_iff.2 ⟨r', hr', rfl, rfl⟩
  rw [hid, h2] at h1
  exact map_inj_of_nodup h.vnodup hr hr' (Option.some.inj h1).symm

theorem WF.live_of_vertexOf {g : G F E} (h : WF g) {f : FrameId} {v : VId} (hv : g.vertexOf f = some v) :
    ∃ r, g.findV v = some r ∧ FrameProp.getId r.prop = f := by
  obtain ⟨r, hr, hid, hf⟩ := h.vertexOf_iff.1 hv
  exact ⟨r, h.findV_iff.2 ⟨hr, hid⟩, hf⟩

theorem WF.vertexOf_inj {g : G F E} (h : WF g) {f f' : FrameId} {v : VId} (h1 : g.vertexOf f = some v)
    (h2 : g.vertexOf f' = some v) : f = f' := by
  obtain ⟨r, hr, hf⟩ := h.live_of_vertexOf h1
  obtain ⟨r', hr', hf'⟩ := h.live_of_vertexOf h2
  rw [hr] at hr'
  cases hr'
  rw [← hf, hf']

theorem WF.addVertex {g : G F E} (h : WF g) {f : FrameId} {p : F} (hp : FrameProp.getId p = f) :
    WF (g.addVertex f p).1 := by
  unfold G.addVertex
  split
  · exact h
  · rename_i hn
    have hn' : ∀ r ∈ g.verts, FrameProp.getId r.prop ≠ f := h.vertexOf_none.1 hn
    constructor
    · simp only [List.map_append, List.map_cons, List.map_nil]
      refine List.nodup_append.2 ⟨h.vnodup, by simp, ?_⟩
      intro a ha b hb
      simp only [List.mem_singleton] at hb
      obtain ⟨r, hr, rfl⟩ := List.mem_map.1 ha
      have := h.vlt r hr
      rw [hb]; exact Nat.ne_of_lt this
    · intro r hr
      simp only [List.mem_append, List.mem_singleton] at hr
      rcases hr with hr | rfl
      · exact Nat.lt_succ_of_lt (h.vlt r hr)
      · simp
    · simp only [List.map_append, List.map_cons, List.map_nil]
      refine List.nodup_append.2 ⟨h.inodup, by simp, ?_⟩
      intro a ha b hb
      simp only [List.mem_singleton] at hb
      obtain ⟨r, hr, rfl⟩ := List.mem_map.1 ha
      have := h.ilt r hr
      omega
    · intro r hr
      simp only [List.mem_append, List.mem_singleton] at hr
      rcases hr with hr | rfl
      · have := h.ilt r hr; simp only; omega
      · simp
    · simp only [AMap.keys, List.map_append, List.map_cons, List.map_nil]
      refine List.nodup_append.2 ⟨h.lnodup, by simp, ?_⟩
      intro a ha b hb
      simp only [List.mem_singleton] at hb
      rintro rfl
      subst hb
      exact AMap.get_eq_none_iff.1 hn ha
    · intro f' v
      simp only [List.mem_append, List.mem_singleton, Prod.mk.injEq, h.lab]
      constructor
      · rintro (⟨r, hr, h1, h2⟩ | ⟨rfl, rfl⟩)
        · exact ⟨r, Or.inl hr, h1, h2⟩
        · exact ⟨_, Or.inr rfl, rfl, hp⟩
      · rintro ⟨r, hr | rfl, h1, h2⟩
        · exact Or.inl ⟨r, hr, h1, h2⟩
        · exact Or.inr ⟨by rw [← h2]; exact hp, h1.symm⟩
    · exact h.enodup
    · exact h.elt
    · intro e he
      obtain ⟨r, hr, h1⟩ := h.esrc e he
      exact ⟨r, by simp [hr], h1⟩
    · intro e he
      obtain ⟨r, hr, h1⟩ := h.etgt e he
      exact ⟨r, by simp [hr], h1⟩

theorem WF.addEdge {g : G F E} (h : WF g) {u v : VId} {p : E} (hu : ∃ r ∈ g.verts, r.id = u)
    (hv : ∃ r ∈ g.verts, r.id = v) : WF (g.addEdge u v p).1 := by
  constructor
  · exact h.vnodup
  · exact h.vlt
  · exact h.inodup
  · exact h.ilt
  · exact h.lnodup
  · exact h.lab
  · simp only [G.addEdge, List.map_append, List.map_cons, List.map_nil]
    refine List.nodup_append.2 ⟨h.enodup, by simp, ?_⟩
    intro a ha b hb
    simp only [List.mem_singleton] at hb
    obtain ⟨r, hr, rfl⟩ := List.mem_map.1 ha
    have := h.elt r hr
    rw [hb]; exact Nat.ne_of_lt this
  · intro e he
    simp only [G.addEdge, List.mem_append, List.mem_singleton] at he ⊢
    rcases he with he | rfl
    · exact Nat.lt_succ_of_lt (h.elt e he)
    · simp
  · intro e he
    simp only [G.addEdge, List.mem_append, List.mem_singleton] at he ⊢
    rcases he with he | rfl
    · exact h.esrc e he
    · exact hu
  · intro e he
    simp only [G.addEdge, List.mem_append, List.mem_singleton] at he ⊢
    rcases he with he | rfl
    · exact h.etgt e he
    · exact hv

theorem G.removeEdge_some {g g' : G F E} {e : EId} (h : g.removeEdge e = some g') :
    (∃ r ∈ g.edges, r.id = e) ∧ g' = { g with edges := g.edges.filter (fun r => r.id ≠ e) } := by
  unfold G.removeEdge at h
  split at h
  · rename_i h1
    simp only [Option.some.injEq] at h
    simp only [List.any_eq_true, decide_eq_true_eq] at h1
    exact ⟨h1, h.symm⟩
  · cases h

theorem G.removeEdge_of_mem {g : G F E} {e : EId} (h : ∃ r ∈ g.edges, r.id = e) :
    g.removeEdge e = some { g with edges := g.edges.filter (fun r => r.id ≠ e) } := by
  unfold G.removeEdge
  rw [if_pos]
  simpa using h

theorem WF.filterEdges {g : G F E} (h : WF g) (p : ERec E → Bool) : WF { g with edges := g.edges.filter p } := by
  constructor
  · exact h.vnodup
  · exact h.vlt
  · exact h.inodup
  · exact h.ilt
  · exact h.lnodup
  · exact h.lab
  · exact (List.filter_sublist.map _).nodup h.enodup
  · intro e he; exact h.elt e (List.mem_filter.1 he).1
  · intro e he; exact h.esrc e (List.mem_filter.1 he).1
  · intro e he; exact h.etgt e (List.mem_filter.1 he).1

theorem WF.removeEdge {g g' : G F E} (h : WF g) {e : EId} (he : g.removeEdge e = some g') : WF g' := by
  obtain ⟨-, rfl⟩ := G.removeEdge_some he
  exact h.filterEdges _

theorem G.map_id_setProp (g : G F E) (e : EId) (p : E) :
    (g.setProp e p).edges.map ERec.id = g.edges.map ERec.id := by
  simp only [G.setProp, List.map_map]
  apply List.map_congr_left
  intro a _; simp only [Function.comp]; split <;> rfl

theorem G.mem_setProp {g : G F E} {e : EId} {p : E} {r : ERec E} (h : r ∈ (g.setProp e p).edges) :
    ∃ r' ∈ g.edges, r.id = r'.id ∧ r.src = r'.src ∧ r.tgt = r'.tgt ∧
      r.prop = if r'.id = e then p else r'.prop := by
  simp only [G.setProp, List.mem_map] at h
  obtain ⟨r', hr', rfl⟩ := h
  refine ⟨r', hr', ?_⟩
  split <;> simp

theorem G.mem_setProp_of {g : G F E} {e : EId} {p : E} {r : ERec E} (h : r ∈ g.edges) :
    (if r.id = e then { r with prop := p } else r) ∈ (g.setProp e p).edges := by
  simp only [G.setProp, List.mem_map]
  exact ⟨r, h, rfl⟩

theorem WF.setProp {g : G F E} (h : WF g) (e : EId) (p : E) : WF (g.setProp e p) := by
  constructor
  · exact h.vnodup
  · exact h.vlt
  · exact h.inodup
  · exact h.ilt
  · exact h.lnodup
  · exact h.lab
  · rw [G.map_id_setProp]; exact h.enodup
  · intro r hr
    obtain ⟨r', hr', h1, -⟩ := G.mem_setProp hr
    rw [h1]; exact h.elt r' hr'
  · intro r hr
    obtain ⟨r', hr', -, h1, -⟩ := G.mem_setProp hr
    rw [h1]; exact h.esrc r' hr'
  · intro r hr
    obtain ⟨r', hr', -, -, h1, -⟩ := G.mem_setProp hr
    rw [h1]; exact h.etgt r' hr'

theorem G.degree_eq_zero {g : G F E} {v : VId} : g.degree v = 0 ↔ ∀ e ∈ g.edges, e.src ≠ v ∧ e.tgt ≠ v := by
  unfold G.degree
  rw [Nat.add_eq_zero_iff, List.length_eq_zero_iff, List.length_eq_zero_iff, List.filter_eq_nil_iff,
    List.filter_eq_nil_iff]
  simp only [decide_eq_true_eq]
  exact ⟨fun h e he => ⟨h.1 e he, h.2 e he⟩, fun h => ⟨fun e he => (h e he).1, fun e he => (h e he).2⟩⟩

theorem WF.removeVertex {g : G F E} (h : WF g) {f : FrameId} {v : VId} (hv : g.vertexOf f = some v)
    (hd : g.degree v = 0) : WF (g.removeVertex v f) := by
  have hd' := G.degree_eq_zero.1 hd
  constructor
  · exact (List.filter_sublist.map _).nodup h.vnodup
  · intro r hr; exact h.vlt r (List.mem_filter.1 hr).1
  · exact (List.filter_sublist.map _).nodup h.inodup
  · intro r hr; exact h.ilt r (List.mem_filter.1 hr).1
  · exact AMap.nodup_keys_erase h.lnodup f
  · intro f' v'
    simp only [G.removeVertex, AMap.erase, List.mem_filter, decide_eq_true_eq, h.lab]
    constructor
    · rintro ⟨⟨r, hr, h1, h2⟩, hne⟩
      refine ⟨r, ⟨hr, ?_⟩, h1, h2⟩
      rintro rfl
      exact hne (h.vertexOf_inj (h.vertexOf_iff.2 ⟨r, hr, rfl, h2⟩) hv)
    · rintro ⟨r, ⟨hr, hne⟩, h1, h2⟩
      refine ⟨⟨r, hr, h1, h2⟩, ?_⟩
      rintro rfl
      have := h.vertexOf_iff.2 ⟨r, hr, rfl, h2⟩
      rw [hv] at this
      exact hne (Option.some.inj this).symm
  · exact h.enodup
  · exact h.elt
  · intro e he
    obtain ⟨r, hr, h1⟩ := h.esrc e he
    refine ⟨r, List.mem_filter.2 ⟨hr, ?_⟩, h1⟩
    simpa [h1] using (hd' e he).1
  · intro e he
    obtain ⟨r, hr, h1⟩ := h.etgt e he
    refine ⟨r, List.mem_filter.2 ⟨hr, ?_⟩, h1⟩
    simpa [h1] using (hd' e he).2

end wf

section paired

theorem Paired.edge_iff {g : G F E} (h : Paired g) {u v : VId} {e : ERec E} :
    g.edge u v = some e ↔ e ∈ g.edges ∧ e.src = u ∧ e.tgt = v := by
  constructor
  · exact G.edge_some
  · rintro ⟨he, h1, h2⟩
    cases hh : g.edge u v with
    | none => exact absurd ⟨h1, h2⟩ (G.edge_none.1 hh e he)
    | some e' =>
      obtain ⟨h3, h4, h5⟩ := G.edge_some hh
      rw [h.uniq e' h3 e he (h4.trans h1.symm) (h5.trans h2.symm)]

theorem Paired.inverse {g : G F E} (h : Paired g) {u v : VId} {e : ERec E} (he : g.edge u v = some e) :
    ∃ e', g.edge v u = some e' ∧ (e'.prop = EdgeProp.inverse e.prop ∨ e.prop = EdgeProp.inverse e'.prop) := by
  obtain ⟨h1, h2, h3⟩ := G.edge_some he
  obtain ⟨e', h4, h5, h6, h7⟩ := h.inv e h1
  exact ⟨e', h.edge_iff.2 ⟨h4, h5.trans h3, h6.trans h2⟩, h7⟩

theorem Paired.of_edges {g g' : G F E} (h : Paired g) (he : g'.edges = g.edges) : Paired g' := by
  constructor
  · rw [he]; exact h.noself
  · rw [he]; exact h.uniq
  · rw [he]; exact h.inv

theorem Paired.addPair {g : G F E} (h : Paired g) {u v : VId} {p : E} (huv : u ≠ v) (hn : g.edge u v = none) :
    Paired ((g.addEdge u v p).1.addEdge v u (EdgeProp.inverse p)).1 := by
  have hn1 := G.edge_none.1 hn
  have hn2 : ∀ e ∈ g.edges, ¬ (e.src = v ∧ e.tgt = u) := by
    rintro e he ⟨h1, h2⟩
    obtain ⟨e', he', h3, h4, -⟩ := h.inv e he
    exact hn1 e' he' ⟨h3.trans h2, h4.trans h1⟩
  constructor
  · intro e he
    simp only [G.addEdge, List.mem_append, List.mem_singleton] at he
    rcases he with (he | rfl) | rfl
    · exact h.noself e he
    · exact huv
    · exact huv.symm
  · intro e he e' he' h1 h2
    simp only [G.addEdge, List.mem_append, List.mem_singleton] at he he'
    rcases he with (he | rfl) | rfl <;> rcases he' with (he' | rfl) | rfl
    · exact h.uniq e he e' he' h1 h2
    · exact absurd ⟨h1, h2⟩ (hn1 e he)
    · exact absurd ⟨h1, h2⟩ (hn2 e he)
    · exact absurd ⟨h1.symm, h2.symm⟩ (hn1 e' he')
    · rfl
    · exact absurd h1 huv
    · exact absurd ⟨h1.symm, h2.symm⟩ (hn2 e' he')
    · exact absurd h1 huv.symm
    · rfl
  · intro e he
    simp only [G.addEdge, List.mem_append, List.mem_singleton] at he ⊢
    rcases he with (he | rfl) | rfl
    · obtain ⟨e', he', h3⟩ := h.inv e he
      exact ⟨e', Or.inl (Or.inl he'), h3⟩
    · exact ⟨_, Or.inr rfl, rfl, rfl, Or.inl rfl⟩
    · exact ⟨_, Or.inl (Or.inr rfl), rfl, rfl, Or.inr rfl⟩

theorem Paired.removePair {g g1 g2 : G F E} (h : Paired g) {u v : VId} {e1 e2 : ERec E}
    (h1 : g.edge u v = some e1) (h2 : g.edge v u = some e2)
    (hg1 : g.removeEdge e1.id = some g1) (hg2 : g1.removeEdge e2.id = some g2)
    (hw : (g.edges.map ERec.id).Nodup) : Paired g2 := by
  obtain ⟨-, rfl⟩ := G.removeEdge_some hg1
  obtain ⟨-, rfl⟩ := G.removeEdge_some hg2
  obtain ⟨m1, s1, t1⟩ := G.edge_some h1
  obtain ⟨m2, s2, t2⟩ := G.edge_some h2
  constructor
  · intro e he
    simp only [List.mem_filter] at he
    exact h.noself e he.1.1
  · intro e he e' he'
    simp only [List.mem_filter] at he he'
    exact h.uniq e he.1.1 e' he'.1.1
  · intro e he
    simp only [List.mem_filter, decide_eq_true_eq, decide_not, Bool.not_eq_true', decide_eq_false_iff_not] at he
    obtain ⟨⟨he, hne1⟩, hne2⟩ := he
    obtain ⟨e', he', h3, h4, h5⟩ := h.inv e he
    refine ⟨e', ?_, h3, h4, h5⟩
    simp only [List.mem_filter, decide_eq_true_eq, decide_not, Bool.not_eq_true', decide_eq_false_iff_not]
    refine ⟨⟨he', ?_⟩, ?_⟩
    · intro hh
      have := map_inj_of_nodup hw he' m1 hh
      subst this
      exact hne2 (congrArg ERec.id (h.uniq e he e2 m2 (by rw [s2, ← t1, h4]) (by rw [t2, ← s1, h3])))
    · intro hh
      have := map_inj_of_nodup hw he' m2 hh
      subst this
      exact hne1 (congrArg ERec.id (h.uniq e he e1 m1 (by rw [s1, ← t2, h4]) (by rw [t1, ← s2, h3])))

end paired

end Verif
