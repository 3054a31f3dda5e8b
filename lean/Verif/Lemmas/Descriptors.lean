import Verif.Lemmas.Mirror
import Verif.Lemmas.Written

/-! Descriptors of vertices and edges along elementary steps. -/

namespace Verif
variable {F E : Type} [FrameProp F] [EdgeProp E]

theorem G.edge_filter_other {g : G F E} {u v : VId} {i : EId}
    (h : ∀ r ∈ g.edges, r.id = i → ¬ (r.src = u ∧ r.tgt = v)) :
    G.edge { g with edges := g.edges.filter (fun r => r.id ≠ i) } u v = g.edge u v := by
  simp only [G.edge, G.outEdges]
  generalize g.edges = l at h
  induction l with
  | nil => rfl
  | cons r l ih =>
    have ih := ih (fun x hx => h x (List.mem_cons_of_mem _ hx))
    have hr := h r List.mem_cons_self
    by_cases h1 : r.id = i
    · have := hr h1
      rw [List.filter_cons_of_neg (by simp [h1]), ih]
      by_cases h2 : r.src = u
      · rw [List.filter_cons_of_pos (by simp [h2]), List.find?_cons_of_neg (by simpa using fun h3 => this ⟨h2, h3⟩)]
      · rw [List.filter_cons_of_neg (by simp [h2])]
    · rw [List.filter_cons_of_pos (by simp [h1])]
      by_cases h2 : r.src = u
      · rw [List.filter_cons_of_pos (by simp [h2]), List.filter_cons_of_pos (by simp [h2])]
        by_cases h3 : r.tgt = v
        · rw [List.find?_cons_of_pos (by simp [h3]), List.find?_cons_of_pos (by simp [h3])]
        · rw [List.find?_cons_of_neg (by simp [h3]), List.find?_cons_of_neg (by simp [h3]), ih]
      · rw [List.filter_cons_of_neg (by simp [h2]), List.filter_cons_of_neg (by simp [h2]), ih]

/-- one step keeps the descriptor of a frame, unless it announces the removal of the frame -/
theorem GStep.vertex_kept {g g' : G F E} {x : Event × G F E} (hs : GStep g x g') {f : FrameId} {v : VId}
    (hv : g.vertexOf f = some v) (hx : x.1 ≠ .frameRemoved f) : g'.vertexOf f = some v := by
  cases hs with
  | @addV f2 p hn hp =>
    rw [G.vertexOf_addVertex _ hn, if_neg, hv]
    rintro rfl
    rw [hn] at hv; cases hv
  | dupV => exact hv
  | addE ha hb hn => exact hv
  | rmE ha hb h1 h2 hg1 hg2 =>
    obtain ⟨-, rfl⟩ := G.removeEdge_some hg1
    obtain ⟨-, rfl⟩ := G.removeEdge_some hg2
    exact hv
  | setP ha hb h1 h2 => exact hv
  | @rmV f2 w hw hd =>
    rw [G.vertexOf_removeVertex, if_neg, hv]
    rintro rfl
    exact hx rfl

/-- one step keeps the descriptor of an edge, unless it announces the removal of the connection -/
theorem GStep.edge_kept {g g' : G F E} {x : Event × G F E} (hs : GStep g x g') (hw : WF g) {a b : FrameId} {u v : VId} {e : ERec E}
    (ha : g.vertexOf a = some u) (hb : g.vertexOf b = some v) (he : g.edge u v = some e)
    (hx : x.1 ≠ .edgeRemoved a b) (hx' : x.1 ≠ .edgeRemoved b a) :
    g'.vertexOf a = some u ∧ g'.vertexOf b = some v ∧ ∃ e', g'.edge u v = some e' ∧ e'.id = e.id := by
  obtain ⟨me, se, te⟩ := G.edge_some he
  have fr : x.1 ≠ .frameRemoved a ∧ x.1 ≠ .frameRemoved b := by
    cases hs with
    | @rmV f2 w hw' hd =>
      have : ∀ r ∈ g.edges, r.src ≠ w ∧ r.tgt ≠ w := by
        intro r hr
        simp only [G.degree, Nat.add_eq_zero_iff, List.length_eq_zero_iff, List.filter_eq_nil_iff] at hd
        exact ⟨by simpa using hd.1 r hr, by simpa using hd.2 r hr⟩
      constructor
      · rintro ⟨⟩
        rw [ha] at hw'; injection hw' with hw'
        exact (this e me).1 (se.trans hw')
      · rintro ⟨⟩
        rw [hb] at hw'; injection hw' with hw'
        exact (this e me).2 (te.trans hw')
    | _ => exact ⟨by rintro ⟨⟩, by rintro ⟨⟩⟩
  refine ⟨hs.vertex_kept ha fr.1, hs.vertex_kept hb fr.2, ?_⟩
  cases hs with
  | @addV f2 p hn hp =>
    refine ⟨e, ?_, rfl⟩
    rw [G.addVertex_new p hn]; exact he
  | dupV => exact ⟨e, he, rfl⟩
  | addE ha' hb' hn =>
    refine ⟨e, ?_, rfl⟩
    rw [G.edge_addEdge, G.edge_addEdge, he]; rfl
  | @rmE g1 _ a2 b2 u2 v2 e1 e2 ha' hb' h1 h2 hg1 hg2 =>
    obtain ⟨-, rfl⟩ := G.removeEdge_some hg1
    obtain ⟨-, rfl⟩ := G.removeEdge_some hg2
    obtain ⟨m1, s1, t1⟩ := G.edge_some h1
    obtain ⟨m2, s2, t2⟩ := G.edge_some h2
    refine ⟨e, ?_, rfl⟩
    have o1 : ∀ r ∈ g.edges, r.id = e1.id → ¬ (r.src = u ∧ r.tgt = v) := by
      rintro r hr hid ⟨q1, q2⟩
      have := map_inj_of_nodup hw.enodup hr m1 hid
      subst this
      refine hx ?_
      rw [hw.vertexOf_inj ha' (by rw [ha, ← q1, s1]), hw.vertexOf_inj hb' (by rw [hb, ← q2, t1])]
    have o2 : ∀ r ∈ g.edges, r.id = e2.id → ¬ (r.src = u ∧ r.tgt = v) := by
      rintro r hr hid ⟨q1, q2⟩
      have := map_inj_of_nodup hw.enodup hr m2 hid
      subst this
      refine hx' ?_
      rw [hw.vertexOf_inj ha' (by rw [hb, ← q2, t2]), hw.vertexOf_inj hb' (by rw [ha, ← q1, s2])]
    have k1 := G.edge_filter_other (g := g) (u := u) (v := v) (i := e1.id) o1
    have k2 := G.edge_filter_other (g := { g with edges := g.edges.filter (fun r => r.id ≠ e1.id) }) (u := u) (v := v) (i := e2.id)
      (fun r hr => o2 r (List.mem_of_mem_filter hr))
    rw [k2, k1, he]
  | setP ha' hb' h1 h2 =>
    rw [G.edge_setProp, G.edge_setProp, he]
    refine ⟨_, rfl, ?_⟩
    dsimp only
    split
    · split <;> rfl
    · first | rfl | (split <;> rfl)
  | rmV hv hd => exact ⟨e, he, rfl⟩

theorem GSteps.vertex_kept {P : G F E → Event → Prop} {g g' : G F E} {l : List (Event × G F E)} (hs : GSteps P g l g') {f : FrameId}
    {v : VId} (hv : g.vertexOf f = some v) (hx : ∀ x ∈ l, x.1 ≠ .frameRemoved f) : g'.vertexOf f = some v := by
  induction hs with
  | nil => exact hv
  | cons h _ _ ih => exact ih (h.vertex_kept hv (hx _ List.mem_cons_self)) (fun x m => hx x (List.mem_cons_of_mem _ m))

theorem GSteps.edge_kept {P : G F E → Event → Prop} {g g' : G F E} {l : List (Event × G F E)} (hs : GSteps P g l g') :
    ∀ {a b : FrameId} {u v : VId} {e : ERec E}, WF g → g.vertexOf a = some u → g.vertexOf b = some v → g.edge u v = some e →
      (∀ x ∈ l, x.1 ≠ .edgeRemoved a b ∧ x.1 ≠ .edgeRemoved b a) →
      g'.vertexOf a = some u ∧ g'.vertexOf b = some v ∧ ∃ e', g'.edge u v = some e' ∧ e'.id = e.id := by
  induction hs with
  | nil => intro a b u v e _ ha hb he _; exact ⟨ha, hb, e, he, rfl⟩
  | cons h _ _ ih =>
    intro a b u v e hw ha hb he hx
    obtain ⟨h1, h2, e', h3, h4⟩ := h.edge_kept hw ha hb he (hx _ List.mem_cons_self).1 (hx _ List.mem_cons_self).2
    obtain ⟨k1, k2, e2, k3, k4⟩ := ih (h.wf hw) h1 h2 h3 (fun x m => hx x (List.mem_cons_of_mem _ m))
    exact ⟨k1, k2, e2, k3, k4.trans h4⟩

/-- number `v` was given out and belongs to no vertex any more -/
def G.GoneV (g : G F E) (v : VId) : Prop := (v : Nat) < g.nextV ∧ ∀ r ∈ g.verts, r.id ≠ v

/-- number `i` was given out and belongs to no edge any more -/
def G.GoneE (g : G F E) (i : EId) : Prop := (i : Nat) < g.nextE ∧ ∀ r ∈ g.edges, r.id ≠ i

theorem GStep.goneV {g g' : G F E} {x : Event × G F E} (hs : GStep g x g') {v : VId} (h : g.GoneV v) : g'.GoneV v := by
  obtain ⟨h1, h2⟩ := h
  cases hs with
  | @addV f2 p hn hp =>
    rw [G.addVertex_new p hn]
    refine ⟨Nat.lt_succ_of_lt h1, fun r hr => ?_⟩
    rcases List.mem_append.1 hr with hr | hr
    · exact h2 r hr
    · simp only [List.mem_singleton] at hr
      subst hr
      exact fun hh => Nat.lt_irrefl _ (by rw [← hh] at h1; exact h1)
  | dupV => exact ⟨h1, h2⟩
  | addE ha hb hn => exact ⟨h1, h2⟩
  | rmE ha hb q1 q2 hg1 hg2 =>
    obtain ⟨-, rfl⟩ := G.removeEdge_some hg1
    obtain ⟨-, rfl⟩ := G.removeEdge_some hg2
    exact ⟨h1, h2⟩
  | setP ha hb q1 q2 => exact ⟨h1, h2⟩
  | rmV hv hd => exact ⟨h1, fun r hr => h2 r (List.mem_of_mem_filter hr)⟩

theorem GStep.goneE {g g' : G F E} {x : Event × G F E} (hs : GStep g x g') {i : EId} (h : g.GoneE i) : g'.GoneE i := by
  obtain ⟨h1, h2⟩ := h
  cases hs with
  | @addV f2 p hn hp =>
    rw [G.addVertex_new p hn]
    exact ⟨h1, h2⟩
  | dupV => exact ⟨h1, h2⟩
  | @addE a b u v p ha hb hn =>
    refine ⟨Nat.lt_succ_of_lt (Nat.lt_succ_of_lt h1), fun r hr => ?_⟩
    simp only [G.addEdge, List.append_assoc, List.mem_append, List.mem_singleton] at hr
    rcases hr with hr | rfl | rfl
    · exact h2 r hr
    · exact fun hh => Nat.lt_irrefl _ (by rw [← hh] at h1; exact h1)
    · exact fun hh => Nat.lt_irrefl _ (Nat.lt_of_succ_lt (by rw [← hh] at h1; exact h1))
  | rmE ha hb q1 q2 hg1 hg2 =>
    obtain ⟨-, rfl⟩ := G.removeEdge_some hg1
    obtain ⟨-, rfl⟩ := G.removeEdge_some hg2
    exact ⟨h1, fun r hr => h2 r (List.mem_of_mem_filter (List.mem_of_mem_filter hr))⟩
  | setP ha hb q1 q2 =>
    refine ⟨h1, fun r hr => ?_⟩
    obtain ⟨r1, hr1, a1, -⟩ := G.mem_setProp hr
    obtain ⟨r2, hr2, b1, -⟩ := G.mem_setProp hr1
    rw [a1, b1]; exact h2 r2 hr2
  | rmV hv hd => exact ⟨h1, h2⟩

theorem GSteps.goneV {P : G F E → Event → Prop} {g g' : G F E} {l : List (Event × G F E)} (hs : GSteps P g l g') {v : VId}
    (h : g.GoneV v) : g'.GoneV v := by
  induction hs with
  | nil => exact h
  | cons h' _ _ ih => exact ih (h'.goneV h)

theorem GSteps.goneE {P : G F E → Event → Prop} {g g' : G F E} {l : List (Event × G F E)} (hs : GSteps P g l g') {i : EId}
    (h : g.GoneE i) : g'.GoneE i := by
  induction hs with
  | nil => exact h
  | cons h' _ _ ih => exact ih (h'.goneE h)

/-- the announced removal of a frame ends its descriptor -/
theorem GSteps.vertex_gone {P : G F E → Event → Prop} {g g' : G F E} {l : List (Event × G F E)} (hs : GSteps P g l g') :
    ∀ {f : FrameId} {v : VId}, WF g → g.vertexOf f = some v → (∃ x ∈ l, x.1 = .frameRemoved f) → g'.GoneV v := by
  induction hs with
  | nil => rintro f v _ _ ⟨x, hx, -⟩; cases hx
  | @cons g g1 g2 x l h _ t ih =>
    rintro f v hw hv ⟨y, hy, hyf⟩
    by_cases hx : x.1 = .frameRemoved f
    · refine t.goneV ?_
      obtain ⟨r, hr, hid⟩ := hw.live hv
      cases h with
      | @rmV f2 w hw' hd =>
        injection hx with hx
        subst hx
        rw [hv] at hw'; injection hw' with hw'
        subst hw'
        refine ⟨?_, fun r hr => by simpa using (List.mem_filter.1 hr).2⟩
        have := hw.vlt r hr
        rw [hid] at this; exact this
      | _ => cases hx
    · rcases List.mem_cons.1 hy with rfl | hy
      · exact (hx hyf).elim
      · exact ih (h.wf hw) (h.vertex_kept hv hx) ⟨y, hy, hyf⟩

/-- the announced removal of a connection, in either direction, ends the descriptors of both edges -/
theorem GSteps.edge_gone {P : G F E → Event → Prop} {g g' : G F E} {l : List (Event × G F E)} (hs : GSteps P g l g') :
    ∀ {a b : FrameId} {u v : VId} {e : ERec E}, WF g → g.vertexOf a = some u → g.vertexOf b = some v → g.edge u v = some e →
      (∃ x ∈ l, x.1 = .edgeRemoved a b ∨ x.1 = .edgeRemoved b a) → g'.GoneE e.id := by
  induction hs with
  | nil => rintro a b u v e _ _ _ _ ⟨x, hx, -⟩; cases hx
  | @cons g g1 g2 x l h _ t ih =>
    rintro a b u v e hw ha hb he ⟨y, hy, hyf⟩
    by_cases hx : x.1 = .edgeRemoved a b ∨ x.1 = .edgeRemoved b a
    · refine t.goneE ?_
      obtain ⟨me, -, -⟩ := G.edge_some he
      cases h with
      | @rmE g1 _ a2 b2 u2 v2 e1 e2 ha' hb' h1 h2 hg1 hg2 =>
        obtain ⟨-, rfl⟩ := G.removeEdge_some hg1
        obtain ⟨-, rfl⟩ := G.removeEdge_some hg2
        refine ⟨hw.elt e me, fun r hr => ?_⟩
        have hr2 := (List.mem_filter.1 hr).2
        have hr1 := (List.mem_filter.1 (List.mem_filter.1 hr).1).2
        rcases hx with hx | hx <;> injection hx with q1 q2 <;> subst q1 <;> subst q2
        · rw [ha] at ha'; rw [hb] at hb'
          injection ha' with ha'; injection hb' with hb'
          subst ha'; subst hb'
          rw [he] at h1; injection h1 with h1
          subst h1
          simpa using hr1
        · rw [hb] at ha'; rw [ha] at hb'
          injection ha' with ha'; injection hb' with hb'
          subst ha'; subst hb'
          rw [he] at h2; injection h2 with h2
          subst h2
          simpa using hr2
      | _ => rcases hx with hx | hx <;> cases hx
    · obtain ⟨n1, n2⟩ := not_or.1 hx
      rcases List.mem_cons.1 hy with rfl | hy
      · exact (hx hyf).elim
      · obtain ⟨k1, k2, e', k3, k4⟩ := h.edge_kept hw ha hb he n1 n2
        rw [← k4]
        exact ih (h.wf hw) k1 k2 k3 ⟨y, hy, hyf⟩

end Verif
