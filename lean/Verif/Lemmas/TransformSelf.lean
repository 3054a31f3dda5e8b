import Verif.Lemmas.TransformView
import Verif.Lemmas.FollowSelf
set_option linter.unusedSectionVars false
/-! # Transforms over views of graphs with self edges -/

namespace Verif
open GS TreeView
variable {F T : Type} [FrameProp F] [Group T]

/-- edges between different vertices have an inverse -/
theorem edge_inverse_ns {E : Type} [EdgeProp E] {g : G F E} (hp : Paired g.ns) {x y : VId} (hxy : x ≠ y) {e : ERec E} (he : g.edge x y = some e) :
    ∃ e', g.edge y x = some e' ∧ (e'.prop = EdgeProp.inverse e.prop ∨ e.prop = EdgeProp.inverse e'.prop) := by
  obtain ⟨e', h1, h2⟩ := hp.inverse (show g.ns.edge x y = some e by rw [G.edge_ns g hxy]; exact he)
  rw [G.edge_ns g hxy.symm] at h1
  exact ⟨e', h1, h2⟩

theorem parent_ne {w : TreeView} {d : VId → Nat} (hd : ∀ v p, w.parentOf v = some p → d v = d p + 1) {x y : VId} (h : w.parentOf x = some y) : x ≠ y := by
  rintro rfl
  have := hd _ _ h
  omega

/-- edges of the view in terms of the potential -/
theorem viewEdge_pose_ns {s : GS F (Tf T)} (hp : Paired s.g.ns) {w : TreeView} {d : VId → Nat}
    (hd : ∀ v p, w.parentOf v = some p → d v = d p + 1) {x y : VId} {e : ERec (Tf T)} (h : w.TreeEdge x y)
    (he : s.g.edge x y = some e) : e.prop.pose = upProd s.g w (d x) x * (upProd s.g w (d y) y)⁻¹ := by
  rcases h with hxy | hxy
  · exact upProd_edge hd hxy he
  · obtain ⟨e', he', hinv⟩ := edge_inverse_ns hp (parent_ne hd hxy).symm he
    have h1 := upProd_edge hd hxy he'
    have h2 : e.prop.pose = e'.prop.pose⁻¹ := by
      rcases hinv with hh | hh
      · rw [hh]; simp [EdgeProp.inverse, Tf.inverse]
      · rw [hh]; simp [EdgeProp.inverse, Tf.inverse]
    rw [h2, h1]
    simp

/-- `getTransform` over a view without circles whose connections all exist -/
theorem getTransformView_intact_ns {s : GS F (Tf T)} (hw : WF s.g) (hp : Paired s.g.ns) {root : VId} {w : TreeView}
    (hr : w.root = some root) (hi : w.Intact s.g) (hrank : ∃ d : VId → Nat, ∀ v p, w.parentOf v = some p → d v = d p + 1)
    {a b : FrameId} {u v : VId} (ha : s.g.vertexOf a = some u) (hb : s.g.vertexOf b = some v) :
    ((u = v ∨ (w.Under u root ∧ w.Under v root)) ∧ ∃ t l, IsPath (ViewConn s w) a b l ∧ Along s l t ∧
      (∀ l' t', IsPath (ViewConn s w) a b l' → Along s l' t' → t' = t) ∧ getTransformView a b w s = .ok ⟨0, t⟩ s) ∨
    (u ≠ v ∧ ¬ (w.Under u root ∧ w.Under v root) ∧ ∃ x, getTransformView a b w s = .throw x s) := by
  obtain ⟨d, hd⟩ := hrank
  have hpot := fun x y e (h : w.TreeEdge x y) (he : s.g.edge x y = some e) => viewEdge_pose_ns hp hd h he
  have huniq : ∀ l' t', IsPath (ViewConn s w) a b l' → Along s l' t' →
      t' = upProd s.g w (d u) u * (upProd s.g w (d v) v)⁻¹ := by
    intro l' t' h1 h2
    exact along_pot (pot := fun x => upProd s.g w (d x) x) hpot h2 h1.steps h1.first h1.last ha hb
  have hconn : ∀ x y, ViewConn s w x y → s.Conn x y := by
    rintro x y ⟨i, j, h1, h2, h3⟩
    refine (adj_iff_conn (getVertex_ok h1) (getVertex_ok h2)).2 ?_
    rcases h3 with h3 | h3
    · exact hi _ _ h3
    · obtain ⟨e, he, e1, e2⟩ := hi _ _ h3
      obtain ⟨e', he', hinv⟩ := hp.inverse (hp.edge_iff.2 ⟨G.mem_ns.2 ⟨he, by rw [e1, e2]; exact parent_ne hd h3⟩, e1, e2⟩)
      obtain ⟨f1, f2, f3⟩ := G.edge_some he'
      exact ⟨e', (G.mem_ns.1 f1).1, f2, f3⟩
  by_cases huv : u = v
  · subst huv
    have hab : a = b := by rw [← nameOf_vertexOf hw ha, ← nameOf_vertexOf hw hb]
    subst hab
    refine Or.inl ⟨Or.inl rfl, 1, [a], ⟨rfl, rfl, by simp⟩, .one a, ?_, ?_⟩
    · intro l' t' h1 h2
      rw [huniq l' t' h1 h2]; simp
    · simp [getTransformView, ha, getTransformViewV, Tf.ident]
  · rcases up_total hw hr hi hd u (hw.live ha) with ⟨a1, a2⟩ | ⟨a1, x, a2⟩
    · rcases up_total hw hr hi hd v (hw.live hb) with ⟨b1, b2⟩ | ⟨b1, x, b2⟩
      · have hup : ∀ {z : VId}, Live s.g z → w.Under z root →
            Relation.ReflTransGen (ViewConn s w) (nameOf s.g z) (nameOf s.g root) := by
          intro z hz hu
          induction hu using Relation.ReflTransGen.head_induction_on with
          | refl => exact .refl
          | @head x y hxy _ ih =>
            obtain ⟨e, he, e1, e2⟩ := hi x y hxy
            have hx : Live s.g x := e1 ▸ hw.esrc e he
            have hy : Live s.g y := e2 ▸ hw.etgt e he
            exact .head ⟨x, y, by simp [getVertex, vertexOf_nameOf hw hx], by simp [getVertex, vertexOf_nameOf hw hy], Or.inl hxy⟩ (ih hy)
        have hsym : ∀ x y, ViewConn s w x y → ViewConn s w y x := by
          rintro x y ⟨i, j, h1, h2, h3⟩
          exact ⟨j, i, h2, h1, h3.symm⟩
        have hpath : Relation.ReflTransGen (ViewConn s w) a b := by
          have q1 := hup (hw.live ha) a1
          have q2 := hup (hw.live hb) b1
          rw [nameOf_vertexOf hw ha] at q1
          rw [nameOf_vertexOf hw hb] at q2
          exact q1.trans (rtg_symm hsym q2)
        obtain ⟨l, hl⟩ := path_of_rtg hpath
        obtain ⟨t, ht⟩ := exists_along (s := s) (l := l) (by rintro rfl; simpa using hl.first) (hl.steps.imp hconn)
        refine Or.inl ⟨Or.inr ⟨a1, b1⟩, t, l, hl, ht, ?_, ?_⟩
        · intro l' t' h1 h2
          rw [huniq l' t' h1 h2, huniq l t hl ht]
        · simp only [getTransformView, ha, hb, getTransformViewV, huv, if_false, a2, b2]
          rw [huniq l t hl ht]
          simp [mul_assoc]
      · exact Or.inr ⟨huv, fun hh => b1 hh.2, x, by simp only [getTransformView, ha, hb, getTransformViewV, huv, if_false, a2, b2]⟩
    · exact Or.inr ⟨huv, fun hh => a1 hh.1, x, by simp only [getTransformView, ha, hb, getTransformViewV, huv, if_false, a2]⟩

/-- the connections of a view that is correct apart from self edges exist, and its vertices are under the root -/
theorem IsTreeViewLoops.intact {E : Type} [EdgeProp E] {g : G F E} (hp : Paired g.ns) {root : VId} {w : TreeView} (h : IsTreeViewLoops g root w) :
    w.Intact g := by
  intro u p hup
  obtain ⟨e, he, e1, e2⟩ := IsTreeView.intact hp h.view u p hup
  exact ⟨e, (G.mem_ns.1 he).1, e1, e2⟩

theorem IsTreeViewLoops.under_root {E : Type} [EdgeProp E] {g : G F E} (hp : Paired g.ns) {root : VId} {w : TreeView} (h : IsTreeViewLoops g root w)
    {v : VId} : w.vertexExists v = true ↔ w.Under v root := IsTreeView.under_root hp h.view

end Verif
