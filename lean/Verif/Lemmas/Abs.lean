import Verif.Lemmas.Steps

set_option linter.unusedSectionVars false
set_option linter.unusedSimpArgs false
/-! Effect of the calls on the edges between named frames. -/

namespace Verif
variable {F E : Type} [FrameProp F] [EdgeProp E]

/-- property of the edge between two named frames -/
def absEdge (g : G F E) (a b : FrameId) : Option E :=
  (g.vertexOf a).bind fun u => (g.vertexOf b).bind fun v => (g.edge u v).map ERec.prop

theorem absEdge_of {g : G F E} {a b : FrameId} {u v : VId} (ha : g.vertexOf a = some u) (hb : g.vertexOf b = some v) :
    absEdge g a b = (g.edge u v).map ERec.prop := by simp [absEdge, ha, hb]

theorem absEdge_none_left {g : G F E} {a b : FrameId} (ha : g.vertexOf a = none) : absEdge g a b = none := by
  simp [absEdge, ha]

theorem absEdge_none_right {g : G F E} {a b : FrameId} (hb : g.vertexOf b = none) : absEdge g a b = none := by
  cases h : g.vertexOf a <;> simp [absEdge, hb, h]

theorem absEdge_isSome {g : G F E} {a b : FrameId} (h : (absEdge g a b).isSome) :
    ∃ u v e, g.vertexOf a = some u ∧ g.vertexOf b = some v ∧ g.edge u v = some e := by
  cases ha : g.vertexOf a with
  | none => simp [absEdge_none_left ha] at h
  | some u =>
    cases hb : g.vertexOf b with
    | none => simp [absEdge_none_right hb] at h
    | some v =>
      rw [absEdge_of ha hb] at h
      cases he : g.edge u v with
      | none => simp [he] at h
      | some e => exact ⟨u, v, e, rfl, rfl, he⟩

theorem G.addVertex_new {g : G F E} {f : FrameId} (p : F) (h : g.vertexOf f = none) :
    g.addVertex f p = ({ g with
        verts := g.verts ++ [⟨g.nextV, g.nextIdx, p⟩]
        labels := g.labels ++ [(f, g.nextV)]
        nextV := g.nextV + 1
        nextIdx := g.nextIdx + 1 }, g.nextV) := by
  have h' : g.labels.get f = none := h
  simp [G.addVertex, h']

theorem G.vertexOf_addVertex {g : G F E} {f f' : FrameId} (p : F) (h : g.vertexOf f = none) :
    (g.addVertex f p).1.vertexOf f' = if f = f' then some g.nextV else g.vertexOf f' := by
  rw [G.addVertex_new p h]
  have h' : g.labels.get f = none := h
  simp only [G.vertexOf, AMap.get_append]
  by_cases hf : f = f'
  · subst hf; simp [h', AMap.get_cons]
  · simp only [AMap.get_cons, hf, if_false, AMap.get_nil]
    cases g.labels.get f' <;> rfl

theorem G.edge_addVertex {g : G F E} {f : FrameId} (p : F) (u v : VId) :
    (g.addVertex f p).1.edge u v = g.edge u v := by
  unfold G.addVertex; split <;> rfl

/-- a new vertex has no edges -/
theorem WF.edge_nextV {g : G F E} (h : WF g) (u : VId) : g.edge u g.nextV = none ∧ g.edge g.nextV u = none := by
  constructor
  · rw [G.edge_none]
    rintro e he ⟨-, h2⟩
    obtain ⟨r, hr, h3⟩ := h.etgt e he
    have := h.vlt r hr
    rw [h3, h2] at this
    exact Nat.lt_irrefl _ this
  · rw [G.edge_none]
    rintro e he ⟨h2, -⟩
    obtain ⟨r, hr, h3⟩ := h.esrc e he
    have := h.vlt r hr
    rw [h3, h2] at this
    exact Nat.lt_irrefl _ this

theorem absEdge_addVertex {g : G F E} (hw : WF g) {f : FrameId} (p : F) (h : g.vertexOf f = none) (a b : FrameId) :
    absEdge (g.addVertex f p).1 a b = absEdge g a b := by
  simp only [absEdge, G.vertexOf_addVertex p h, G.edge_addVertex]
  by_cases h1 : f = a
  · subst h1
    simp only [if_true, Option.bind_some, h, Option.bind_none]
    by_cases h2 : f = b
    · simp [h2, (hw.edge_nextV g.nextV).1]
    · simp only [h2, if_false]
      cases hb : g.vertexOf b <;> simp [(hw.edge_nextV _).2]
  · simp only [h1, if_false]
    by_cases h2 : f = b
    · subst h2
      simp only [if_true, h]
      cases ha : g.vertexOf a <;> simp [(hw.edge_nextV _).1]
    · simp [h2]

theorem G.edge_addEdge (g : G F E) (u v : VId) (p : E) (x y : VId) :
    (g.addEdge u v p).1.edge x y =
      (g.edge x y).or (if u = x ∧ v = y then some ⟨g.nextE, u, v, p⟩ else none) := by
  simp only [G.edge, G.outEdges, G.addEdge, List.filter_append, List.find?_append, List.filter_cons, List.filter_nil]
  congr 1
  by_cases h1 : u = x <;> by_cases h2 : v = y <;> simp [h1, h2]

theorem absEdge_addPair {g : G F E} (hw : WF g) (hp : Paired g) {a b : FrameId} {u v : VId} {p : E}
    (ha : g.vertexOf a = some u) (hb : g.vertexOf b = some v) (hne : a ≠ b) (hn : g.edge u v = none) (x y : FrameId) :
    absEdge ((g.addEdge u v p).1.addEdge v u (EdgeProp.inverse p)).1 x y =
      if x = a ∧ y = b then some p else if x = b ∧ y = a then some (EdgeProp.inverse p) else absEdge g x y := by
  have huv : u ≠ v := by rintro rfl; exact hne (hw.vertexOf_inj ha hb)
  have hn2 : g.edge v u = none := by
    rw [G.edge_none]
    rintro e he ⟨h1, h2⟩
    obtain ⟨e', he', h3, h4, -⟩ := hp.inv e he
    exact G.edge_none.1 hn e' he' ⟨h3.trans h2, h4.trans h1⟩
  have hl : ∀ z, ((g.addEdge u v p).1.addEdge v u (EdgeProp.inverse p)).1.vertexOf z = g.vertexOf z := fun z => rfl
  simp only [absEdge, hl]
  have key : ∀ x' y', ((g.addEdge u v p).1.addEdge v u (EdgeProp.inverse p)).1.edge x' y' =
      if x' = u ∧ y' = v then some ⟨g.nextE, u, v, p⟩ else if x' = v ∧ y' = u then
        some ⟨g.nextE + 1, v, u, EdgeProp.inverse p⟩ else g.edge x' y' := by
    intro x' y'
    rw [G.edge_addEdge, G.edge_addEdge]
    by_cases c1 : x' = u ∧ y' = v
    · obtain ⟨rfl, rfl⟩ := c1
      simp [hn]
    · by_cases c2 : x' = v ∧ y' = u
      · obtain ⟨rfl, rfl⟩ := c2
        have : ¬ (y' = x' ∧ x' = y') := fun h => huv h.1
        simp [hn2, this, huv, huv.symm, G.addEdge]
      · have d1 : ¬ (u = x' ∧ v = y') := fun h => c1 ⟨h.1.symm, h.2.symm⟩
        have d2 : ¬ (v = x' ∧ u = y') := fun h => c2 ⟨h.1.symm, h.2.symm⟩
        simp [c1, c2, d1, d2]
  by_cases c1 : x = a ∧ y = b
  · obtain ⟨rfl, rfl⟩ := c1
    simp [ha, hb, key]
  · by_cases c2 : x = b ∧ y = a
    · obtain ⟨rfl, rfl⟩ := c2
      simp [ha, hb, key, huv, huv.symm, c1]
    · simp only [c1, c2, if_false]
      cases hx : g.vertexOf x with
      | none => rfl
      | some x' =>
        cases hy : g.vertexOf y with
        | none => rfl
        | some y' =>
          simp only [Option.bind_some, key]
          rw [if_neg, if_neg]
          · rintro ⟨rfl, rfl⟩; exact c2 ⟨hw.vertexOf_inj hx hb, hw.vertexOf_inj hy ha⟩
          · rintro ⟨rfl, rfl⟩; exact c1 ⟨hw.vertexOf_inj hx ha, hw.vertexOf_inj hy hb⟩

/-- the graph without the edges between two vertices -/
def G.cut (g : G F E) (u v : VId) : G F E :=
  { g with edges := g.edges.filter (fun r => ¬ ((r.src = u ∧ r.tgt = v) ∨ (r.src = v ∧ r.tgt = u))) }

theorem removePair_cut {g g1 g2 : G F E} (hw : WF g) (h : Paired g) {u v : VId} {e1 e2 : ERec E}
    (h1 : g.edge u v = some e1) (h2 : g.edge v u = some e2)
    (hg1 : g.removeEdge e1.id = some g1) (hg2 : g1.removeEdge e2.id = some g2) : g2 = g.cut u v := by
  obtain ⟨-, rfl⟩ := G.removeEdge_some hg1
  obtain ⟨-, rfl⟩ := G.removeEdge_some hg2
  obtain ⟨m1, s1, t1⟩ := G.edge_some h1
  obtain ⟨m2, s2, t2⟩ := G.edge_some h2
  simp only [G.cut, List.filter_filter]
  congr 1
  apply List.filter_congr
  intro r hr
  have e1' : r.id = e1.id ↔ (r.src = u ∧ r.tgt = v) := by
    constructor
    · intro hh; rw [map_inj_of_nodup hw.enodup hr m1 hh]; exact ⟨s1, t1⟩
    · rintro ⟨a, b⟩; rw [h.uniq r hr e1 m1 (a.trans s1.symm) (b.trans t1.symm)]
  have e2' : r.id = e2.id ↔ (r.src = v ∧ r.tgt = u) := by
    constructor
    · intro hh; rw [map_inj_of_nodup hw.enodup hr m2 hh]; exact ⟨s2, t2⟩
    · rintro ⟨a, b⟩; rw [h.uniq r hr e2 m2 (a.trans s2.symm) (b.trans t2.symm)]
  simp only [ne_eq, e1', e2', ← decide_not, ← Bool.decide_and]
  congr 1
  rw [not_or, and_comm]

/-- removing the two directions never fails in a paired graph -/
theorem removePair_exists {g : G F E} (hw : WF g) (h : Paired g) {u v : VId} {e1 : ERec E}
    (h1 : g.edge u v = some e1) :
    ∃ e2 g1 g2, g.edge v u = some e2 ∧ g.removeEdge e1.id = some g1 ∧ g1.removeEdge e2.id = some g2 ∧ e1.id ≠ e2.id ∧
      g2 = g.cut u v ∧ g1 = { g with edges := g.edges.filter (fun r => r.id ≠ e1.id) } := by
  obtain ⟨e2, h2, -⟩ := h.inverse h1
  obtain ⟨m1, s1, t1⟩ := G.edge_some h1
  obtain ⟨m2, s2, t2⟩ := G.edge_some h2
  have hne : e1.id ≠ e2.id := by
    intro hh
    have := map_inj_of_nodup hw.enodup m1 m2 hh
    subst this
    exact h.noself e1 m1 (s1.trans t2.symm)
  have r1 := G.removeEdge_of_mem (g := g) ⟨e1, m1, rfl⟩
  have r2 := G.removeEdge_of_mem (g := { g with edges := g.edges.filter (fun r => r.id ≠ e1.id) }) (e := e2.id)
    ⟨e2, by simp [m2, hne.symm], rfl⟩
  exact ⟨e2, _, _, h2, r1, r2, hne, removePair_cut hw h h1 h2 r1 r2, rfl⟩

theorem G.edge_cut (g : G F E) (u v x y : VId) :
    (g.cut u v).edge x y = if (x = u ∧ y = v) ∨ (x = v ∧ y = u) then none else g.edge x y := by
  split
  · rename_i hh
    rw [G.edge_none]
    rintro e he ⟨rfl, rfl⟩
    simp only [G.cut, List.mem_filter, decide_eq_true_eq] at he
    exact he.2 hh
  · rename_i hh
    simp only [G.edge, G.outEdges, G.cut, List.filter_filter]
    rw [List.find?_filter, List.find?_filter]
    congr 1
    funext r
    by_cases c : r.src = x ∧ r.tgt = y
    · obtain ⟨rfl, rfl⟩ := c
      simp [hh]
    · by_cases c1 : r.src = x
      · have c2 : ¬ r.tgt = y := fun h => c ⟨c1, h⟩
        simp [c2]
      · simp [c1]

theorem absEdge_cut {g : G F E} (hw : WF g) {a b : FrameId} {u v : VId}
    (ha : g.vertexOf a = some u) (hb : g.vertexOf b = some v) (x y : FrameId) :
    absEdge (g.cut u v) x y = if (x = a ∧ y = b) ∨ (x = b ∧ y = a) then none else absEdge g x y := by
  have hl : ∀ z, (g.cut u v).vertexOf z = g.vertexOf z := fun z => rfl
  simp only [absEdge, hl, G.edge_cut]
  cases hx : g.vertexOf x with
  | none => simp
  | some x' =>
    cases hy : g.vertexOf y with
    | none => simp
    | some y' =>
      simp only [Option.bind_some]
      have : ((x = a ∧ y = b) ∨ (x = b ∧ y = a)) ↔ ((x' = u ∧ y' = v) ∨ (x' = v ∧ y' = u)) := by
        constructor
        · rintro (⟨rfl, rfl⟩ | ⟨rfl, rfl⟩)
          · left; constructor <;> simp_all
          · right; constructor <;> simp_all
        · rintro (⟨rfl, rfl⟩ | ⟨rfl, rfl⟩)
          · left; exact ⟨hw.vertexOf_inj hx ha, hw.vertexOf_inj hy hb⟩
          · right; exact ⟨hw.vertexOf_inj hx hb, hw.vertexOf_inj hy ha⟩
      simp only [this]
      split <;> rfl

theorem absEdge_setPair_ne {g : G F E} (hw : WF g) {a b : FrameId} {u v : VId} (huv : u ≠ v) {e1 e2 : ERec E} {p : E}
    (ha : g.vertexOf a = some u) (hb : g.vertexOf b = some v) (h1 : g.edge u v = some e1)
    (h2 : (g.setProp e1.id p).edge v u = some e2) (x y : FrameId) :
    absEdge ((g.setProp e1.id p).setProp e2.id (EdgeProp.inverse p)) x y =
      if x = a ∧ y = b then some p else if x = b ∧ y = a then some (EdgeProp.inverse p) else absEdge g x y := by
  obtain ⟨m1, s1, t1⟩ := G.edge_some h1
  have h2' := h2
  rw [G.edge_setProp] at h2'
  obtain ⟨e2', h2', hee⟩ := Option.map_eq_some_iff.1 h2'
  obtain ⟨m2, s2, t2⟩ := G.edge_some h2'
  have hid : e2.id = e2'.id := by rw [← hee]; split <;> rfl
  have hab : a ≠ b := by rintro rfl; rw [ha] at hb; exact huv (Option.some.inj hb)
  have hne : e1.id ≠ e2'.id := by
    intro hh
    have := map_inj_of_nodup hw.enodup m1 m2 hh
    subst this
    exact huv (s1.symm.trans s2)
  have hl : ∀ z, ((g.setProp e1.id p).setProp e2.id (EdgeProp.inverse p)).vertexOf z = g.vertexOf z := fun z => rfl
  have hi : ∀ (x : ERec E) (e : EId) (p : E), (if x.id = e then { x with prop := p } else x).id = x.id := by
    intro x e p; split <;> rfl
  have hpr : ∀ (x : ERec E) (e : EId) (p : E),
      (if x.id = e then { x with prop := p } else x).prop = if x.id = e then p else x.prop := by
    intro x e p; split <;> rfl
  simp only [absEdge, hl, G.edge_setProp, Option.map_map]
  rw [hid]
  by_cases c1 : x = a ∧ y = b
  · obtain ⟨rfl, rfl⟩ := c1
    simp only [ha, hb, Option.bind_some, h1, Option.map_some, Function.comp, hpr, hi]
    simp [hne]
  · by_cases c2 : x = b ∧ y = a
    · obtain ⟨rfl, rfl⟩ := c2
      simp only [ha, hb, Option.bind_some, h2', Option.map_some, Function.comp, hpr, hi]
      simp [hab]
    · simp only [c1, c2, if_false]
      cases hx : g.vertexOf x with
      | none => rfl
      | some x' =>
        cases hy : g.vertexOf y with
        | none => rfl
        | some y' =>
          simp only [Option.bind_some]
          cases he : g.edge x' y' with
          | none => rfl
          | some e =>
            obtain ⟨m, s, t⟩ := G.edge_some he
            simp only [Option.map_some, Function.comp, hpr, hi]
            rw [if_neg, if_neg]
            · intro hh
              have := map_inj_of_nodup hw.enodup m m1 hh
              subst this
              refine c1 ⟨hw.vertexOf_inj (hx.trans ?_) ha, hw.vertexOf_inj (hy.trans ?_) hb⟩
              · rw [← s, s1]
              · rw [← t, t1]
            · intro hh
              have := map_inj_of_nodup hw.enodup m m2 hh
              subst this
              refine c2 ⟨hw.vertexOf_inj (hx.trans ?_) hb, hw.vertexOf_inj (hy.trans ?_) ha⟩
              · rw [← s, s2]
              · rw [← t, t2]

theorem absEdge_setPair {g : G F E} (hw : WF g) (h : Paired g) {a b : FrameId} {u v : VId} {e1 e2 : ERec E} {p : E}
    (ha : g.vertexOf a = some u) (hb : g.vertexOf b = some v) (h1 : g.edge u v = some e1)
    (h2 : (g.setProp e1.id p).edge v u = some e2) (x y : FrameId) :
    absEdge ((g.setProp e1.id p).setProp e2.id (EdgeProp.inverse p)) x y =
      if x = a ∧ y = b then some p else if x = b ∧ y = a then some (EdgeProp.inverse p) else absEdge g x y := by
  obtain ⟨m1, s1, t1⟩ := G.edge_some h1
  exact absEdge_setPair_ne hw (by rw [← s1, ← t1]; exact h.noself e1 m1) ha hb h1 h2 x y

theorem G.vertexOf_removeVertex (g : G F E) (v : VId) (f f' : FrameId) :
    (g.removeVertex v f).vertexOf f' = if f = f' then none else g.vertexOf f' := by
  simp [G.vertexOf, G.removeVertex, AMap.get_erase]

theorem absEdge_removeVertex {g : G F E} {f : FrameId} {v : VId} (hv : g.vertexOf f = some v)
    (hd : g.degree v = 0) (x y : FrameId) : absEdge (g.removeVertex v f) x y = absEdge g x y := by
  have hd' := G.degree_eq_zero.1 hd
  have he : ∀ a b, (g.removeVertex v f).edge a b = g.edge a b := fun a b => rfl
  have n1 : ∀ a, g.edge v a = none := by
    intro a; rw [G.edge_none]; intro e he h; exact (hd' e he).1 h.1
  have n2 : ∀ a, g.edge a v = none := by
    intro a; rw [G.edge_none]; intro e he h; exact (hd' e he).2 h.2
  simp only [absEdge, he, G.vertexOf_removeVertex]
  by_cases h1 : f = x
  · subst h1
    simp only [if_true, Option.bind_none, hv, Option.bind_some, n1, Option.map_none]
    cases g.vertexOf y <;> rfl
  · simp only [h1, if_false]
    cases hx : g.vertexOf x with
    | none => rfl
    | some x' =>
      by_cases h2 : f = y
      · subst h2; simp [hv, n2]
      · simp [h2]

theorem degree_zero_iff {g : G F E} (hw : WF g) {f : FrameId} {v : VId} (hv : g.vertexOf f = some v) :
    g.degree v = 0 ↔ ∀ x, absEdge g f x = none ∧ absEdge g x f = none := by
  rw [G.degree_eq_zero]
  constructor
  · intro h x
    constructor
    · cases hx : g.vertexOf x with
      | none => exact absEdge_none_right hx
      | some x' =>
        rw [absEdge_of hv hx, Option.map_eq_none_iff, G.edge_none]
        intro e he hh; exact (h e he).1 hh.1
    · cases hx : g.vertexOf x with
      | none => exact absEdge_none_left hx
      | some x' =>
        rw [absEdge_of hx hv, Option.map_eq_none_iff, G.edge_none]
        intro e he hh; exact (h e he).2 hh.2
  · intro h e he
    obtain ⟨r1, m1, i1⟩ := hw.esrc e he
    obtain ⟨r2, m2, i2⟩ := hw.etgt e he
    constructor
    · intro hs
      have h1 := (h (FrameProp.getId r2.prop)).1
      rw [absEdge_of hv (hw.vertexOf_iff.2 ⟨r2, m2, rfl, rfl⟩), Option.map_eq_none_iff, G.edge_none] at h1
      exact h1 e he ⟨hs, i2.symm⟩
    · intro hs
      have h1 := (h (FrameProp.getId r1.prop)).2
      rw [absEdge_of (hw.vertexOf_iff.2 ⟨r1, m1, rfl, rfl⟩) hv, Option.map_eq_none_iff, G.edge_none] at h1
      exact h1 e he ⟨i1.symm, hs⟩

end Verif
