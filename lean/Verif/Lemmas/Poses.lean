import Verif.Lemmas.TransformView
import Verif.Lemmas.ForestHistory

set_option linter.unusedSectionVars false
set_option linter.unusedSimpArgs false
/-! Graphs without cycles have consistent poses. -/

namespace Verif
open GS
variable {F T : Type} [FrameProp F] [Group T]

/-- there is an assignment of poses to the vertices that explains all edges -/
def G.HasPoses (g : G F (Tf T)) : Prop := ∃ pose : VId → T, ∀ e ∈ g.edges, e.prop.pose = (pose e.src)⁻¹ * pose e.tgt

theorem G.HasPoses.sub {g g' : G F (Tf T)} (h : g.HasPoses) (hs : ∀ e ∈ g'.edges, e ∈ g.edges) : g'.HasPoses := by
  obtain ⟨pose, hp⟩ := h
  exact ⟨pose, fun e he => hp e (hs e he)⟩

/-- new poses after the edges between `x` and `y` got new properties, or were added, when nothing else connects them -/
theorem G.HasPoses.shift {g g' : G F (Tf T)} (h : g.HasPoses) {x y : VId} {t : T} {old : VId → VId → Prop}
    (hsym : ∀ u v, old u v → old v u)
    (hnr : ¬ Relation.ReflTransGen old y x)
    (hedges : ∀ e ∈ g'.edges, (e ∈ g.edges ∧ old e.src e.tgt) ∨ (e.src = x ∧ e.tgt = y ∧ e.prop.pose = t) ∨
      (e.src = y ∧ e.tgt = x ∧ e.prop.pose = t⁻¹)) : g'.HasPoses := by
  classical
  obtain ⟨pose, hp⟩ := h
  refine ⟨fun v => if Relation.ReflTransGen old y v then pose x * t * (pose y)⁻¹ * pose v else pose v, ?_⟩
  intro e he
  rcases hedges e he with ⟨h1, h2⟩ | ⟨h1, h2, h3⟩ | ⟨h1, h2, h3⟩
  · have hiff : Relation.ReflTransGen old y e.src ↔ Relation.ReflTransGen old y e.tgt :=
      ⟨fun hh => hh.tail h2, fun hh => hh.tail (hsym _ _ h2)⟩
    simp only [hiff]
    split
    · rw [hp e h1]
      simp [mul_assoc]
    · exact hp e h1
  · rw [h1, h2]
    have hy : Relation.ReflTransGen old y y := .refl
    simp only [hnr, hy, if_true, if_false]
    rw [h3]; simp [mul_assoc]
  · rw [h1, h2]
    have hy : Relation.ReflTransGen old y y := .refl
    simp only [hnr, hy, if_true, if_false]
    rw [h3]; simp [mul_assoc]

theorem GStep.poses {g g' : G F (Tf T)} {x : Event × G F (Tf T)} (hs : GStep g x g') (hw : WF g) (hp : Paired g) (hf : g.Forest)
    (h : g.HasPoses) (hx : ∀ a b i, x.1 ≠ .edgeAdded a b i) : g'.HasPoses := by
  cases hs with
  | addV hn hp' => exact h.sub (by rw [addVertex_edges]; exact fun _ => id)
  | dupV => exact h
  | addE ha hb hn => exact absurd rfl (hx _ _ _)
  | rmE ha hb h1 h2 hg1 hg2 =>
    obtain ⟨-, rfl⟩ := G.removeEdge_some hg1
    obtain ⟨-, rfl⟩ := G.removeEdge_some hg2
    refine h.sub ?_
    intro e he
    simp only [List.mem_filter] at he
    exact he.1.1
  | @setP a b u v e1 e2 p ha hb h1 h2 =>
    have hp2 := hp.setPair hw.enodup h1 h2
    obtain ⟨m1, s1, t1⟩ := G.edge_some h1
    have huv : u ≠ v := by rw [← s1, ← t1]; exact hp.noself e1 m1
    refine h.shift (x := u) (y := v) (t := p.pose) (old := (g.cut u v).Adj) (fun _ _ hh => hh.symm (cut_paired hp _ _)) ?_ ?_
    · intro hr
      exact hf u v ⟨e1, m1, s1, t1⟩ (G.Reach.symm (cut_paired hp _ _) hr)
    · intro e he
      obtain ⟨e', he', i1, j1, k1, l1⟩ := G.mem_setProp he
      obtain ⟨e'', he'', i2, j2, k2, l2⟩ := G.mem_setProp he'
      have hid2 : e2.id = e2.id := rfl
      rw [G.edge_setProp] at h2
      obtain ⟨e2', h2', hee⟩ := Option.map_eq_some_iff.1 h2
      obtain ⟨m2, s2, t2⟩ := G.edge_some h2'
      have hid : e2.id = e2'.id := by rw [← hee]; split <;> rfl
      by_cases c1 : e''.id = e1.id
      · have : e'' = e1 := map_inj_of_nodup hw.enodup he'' m1 c1
        subst this
        have hne : e''.id ≠ e2'.id := by
          intro hh
          have := map_inj_of_nodup hw.enodup he'' m2 hh
          subst this
          exact huv (s1.symm.trans s2)
        refine Or.inr (Or.inl ⟨?_, ?_, ?_⟩)
        · rw [j1, j2, s1]
        · rw [k1, k2, t1]
        · rw [l1, i2, hid, if_neg hne, l2, if_pos rfl]
      · by_cases c2 : e''.id = e2'.id
        · have : e'' = e2' := map_inj_of_nodup hw.enodup he'' m2 c2
          subst this
          refine Or.inr (Or.inr ⟨?_, ?_, ?_⟩)
          · rw [j1, j2, s2]
          · rw [k1, k2, t2]
          · rw [l1, i2, hid, if_pos rfl]; rfl
        · have hes : e = e'' := by
            cases e; cases e''; cases e'
            simp only at i1 i2 j1 j2 k1 k2 l1 l2 c1 c2
            rw [if_neg c1] at l2
            rw [i2, hid, if_neg c2] at l1
            subst i1; subst i2; subst j1; subst j2; subst k1; subst k2; subst l1; subst l2
            rfl
          subst hes
          refine Or.inl ⟨he'', cut_adj.2 ⟨⟨e, he'', rfl, rfl⟩, ?_⟩⟩
          rintro (⟨q1, q2⟩ | ⟨q1, q2⟩)
          · exact c1 (by rw [hp.uniq e he'' e1 m1 (q1.trans s1.symm) (q2.trans t1.symm)])
          · exact c2 (by rw [hp.uniq e he'' e2' m2 (q1.trans s2.symm) (q2.trans t2.symm)])
  | rmV hv hd => exact h.sub (fun _ => id)

theorem exec_poses {c : Cmd F (Tf T)} {s s' : GS F (Tf T)} (hw : WF s.g) (hp : Paired s.g) (hf : s.g.Forest) (h : s.g.HasPoses)
    (hc : c.noCycle s) (hx : (exec c s).st? = some s') : s'.g.HasPoses := by
  have key : c.noAdd → s'.g.HasPoses := by
    intro hna
    obtain ⟨l, a1, -⟩ := exec_advances_noAdd hw hna hx
    refine (GSteps.inv (I := fun g => g.Forest ∧ g.HasPoses) ?_ a1 hw hp ⟨hf, h⟩).2
    intro g x g' hw hp hf hs hP
    exact ⟨⟨hs.forest hf.1 hP, hs.poses hw hp hf.1 hf.2 hP⟩, hs.paired hw hp (by
      intro hself
      cases x with
      | mk e g1 => cases e <;> first | exact hself | exact hP _ _ _ rfl)⟩
  cases c with
  | addEdge a b p =>
    obtain ⟨hab, hc⟩ := hc
    simp only [exec] at hx
    obtain ⟨g1, u, v, hw1, hp1, he, ha, hb, hm, hlive, hna, hnb, hres⟩ := addEdge_graph hw hp hx
    have h1 : g1.HasPoses := h.sub (by rw [he]; exact fun _ => id)
    rcases hres with ⟨-, hs⟩ | ⟨hnone, hs⟩
    · rw [hs]; exact h1
    · rw [hs]
      have hnr : ¬ g1.Reach u v := by
        rcases hc with hc | hc
        · exfalso
          obtain ⟨u', v', e1, e2, -⟩ := conn_iff.1 hc
          have := (adj_iff_conn e1 e2).1 hc
          rw [hm _ _ e1] at ha
          rw [hm _ _ e2] at hb
          obtain rfl := Option.some.inj ha
          obtain rfl := Option.some.inj hb
          obtain ⟨e, hme, h1, h2⟩ := this
          exact G.edge_none.1 hnone e (by rw [he]; exact hme) ⟨h1, h2⟩
        · exact noCycle_not_reach hw hab hc hw1 he ha hb hm hna hnb
      refine h1.shift (x := u) (y := v) (t := p.pose) (old := g1.Adj) (fun _ _ hh => hh.symm hp1)
        (fun hh => hnr (G.Reach.symm hp1 hh)) ?_
      intro e hme
      simp only [G.addEdge, List.append_assoc, List.mem_append, List.mem_singleton, List.cons_append, List.nil_append,
        List.mem_cons, List.not_mem_nil, or_false] at hme
      rcases hme with hme | rfl | rfl
      · exact Or.inl ⟨hme, e, hme, rfl, rfl⟩
      · exact Or.inr (Or.inl ⟨rfl, rfl, rfl⟩)
      · exact Or.inr (Or.inr ⟨rfl, rfl, rfl⟩)
  | _ => exact key trivial

theorem run_poses {cs : List (Cmd F (Tf T))} : ∀ {s s' : GS F (Tf T)}, TreeInv s → s.g.HasPoses → TreeHistory cs s →
    GS.run cs s = some s' → s'.g.HasPoses := by
  induction cs with
  | nil => intro s s' _ h _ hr; simp only [GS.run, Option.some.injEq] at hr; subst hr; exact h
  | cons c cs ih =>
    intro s s' hi h ht hr
    obtain ⟨s1, h1, h2⟩ := hi.exec ht.1
    rw [run_of_exec h1] at hr
    exact ih h2 (exec_poses hi.wf hi.paired hi.forest h ht.1 h1) (ht.cons h1) hr

theorem G.HasPoses.empty : (G.empty : G F (Tf T)).HasPoses := ⟨fun _ => 1, by simp [G.empty]⟩

/-- poses of vertices as poses of frames -/
theorem consistent_of_poses {s : GS F (Tf T)} (h : s.g.HasPoses) : ∃ pose : FrameId → T, Consistent s pose := by
  obtain ⟨pose, hp⟩ := h
  refine ⟨fun f => match s.g.vertexOf f with | some v => pose v | none => 1, ?_⟩
  intro a b p hab
  obtain ⟨u, v, e, h1, h2, h3, rfl, -⟩ := getEdgeProperty_ok hab
  obtain ⟨m1, m2, m3⟩ := G.edge_some h3
  simp only [h1, h2]
  rw [hp e m1, m2, m3]

end Verif
