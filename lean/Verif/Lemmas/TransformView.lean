import Verif.Lemmas.Transform

set_option linter.unusedSectionVars false
set_option linter.unusedSimpArgs false
/-! Transforms over a tree view. -/

namespace Verif
open GS
variable {F T : Type} [FrameProp F] [Group T]

theorem tfToRoot_root {w : TreeView} {s : GS F (Tf T)} {n : Nat} {v : VId} {acc : T} (h : w.root = some v) :
    tfToRoot w s n (some v) acc = .ok acc s := by
  unfold tfToRoot
  simp [h]

theorem tfToRoot_step {w : TreeView} {s : GS F (Tf T)} (hw : WF s.g) {n : Nat} {v p : VId} {acc : T} (h : w.root ≠ some v)
    (hp : w.parentOf v = some p) (hv : Live s.g v) :
    tfToRoot w s (n + 1) (some v) acc =
      match s.g.edge v p with
      | some e => tfToRoot w s n (some p) (acc * e.prop.pose)
      | none => tfToRoot w s n (some p) acc := by
  obtain ⟨r, hr, hid⟩ := hv
  have f1 : s.g.findV v = some r := hw.findV_iff.2 ⟨hr, hid⟩
  obtain ⟨rel, h1, h2⟩ : ∃ rel, w.tree.get v = some rel ∧ rel.parent = some p := by
    unfold TreeView.parentOf at hp
    cases hg : w.tree.get v with
    | none => simp [hg] at hp
    | some rel => exact ⟨rel, rfl, by simpa [hg] using hp⟩
  rw [tfToRoot]
  simp only [h, if_false, TreeView.getParent, h1, h2, Option.bind_some, f1, hid]
  rfl

/-- product of the edges upwards, for a given number of steps -/
def upProd (g : G F (Tf T)) (w : TreeView) : Nat → VId → T
  | 0, _ => 1
  | n + 1, v =>
    match w.parentOf v with
    | none => 1
    | some p =>
      match g.edge v p with
      | none => 1
      | some e => e.prop.pose * upProd g w n p

theorem upProd_edge {g : G F (Tf T)} {w : TreeView} {d : VId → Nat} (hd : ∀ v p, w.parentOf v = some p → d v = d p + 1)
    {v p : VId} {e : ERec (Tf T)} (h : w.parentOf v = some p) (he : g.edge v p = some e) :
    e.prop.pose = upProd g w (d v) v * (upProd g w (d p) p)⁻¹ := by
  rw [hd v p h, upProd]
  simp [h, he]

/-- The loop from a vertex upwards, over a view without circles whose connections all exist: it ends with an exception or at the
root with the product on the way. -/
theorem up_list {s : GS F (Tf T)} (hw : WF s.g) {root : VId} {w : TreeView} (hr : w.root = some root) (hi : w.Intact s.g)
    {d : VId → Nat} (hd : ∀ v p, w.parentOf v = some p → d v = d p + 1) : ∀ (m : Nat) (v : VId), d v ≤ m → Live s.g v →
    ∃ l : List VId, l.Nodup ∧ (∀ x ∈ l, w.vertexExists x = true ∧ d x ≤ d v) ∧
      ((w.Under v root ∧ ∀ n acc, l.length ≤ n → tfToRoot w s n (some v) acc =
          .ok (acc * (upProd s.g w (d v) v * (upProd s.g w (d root) root)⁻¹)) s) ∨
       (¬ w.Under v root ∧ ∃ x, ∀ n acc, l.length ≤ n → tfToRoot w s n (some v) acc = .throw x s)) := by
  intro m
  induction m with
  | zero =>
    intro v hm hl
    have hpn : w.parentOf v = none := by
      cases hp : w.parentOf v with
      | none => rfl
      | some p => have := hd v p hp; omega
    exact up_top hw hr hpn hl
  | succ m ih =>
    intro v hm hl
    cases hp : w.parentOf v with
    | none => exact up_top hw hr hp hl
    | some p =>
      by_cases hv : v = root
      · subst hv
        exact ⟨[], by simp, by simp, Or.inl ⟨.refl, fun n acc _ => by rw [tfToRoot_root hr]; simp⟩⟩
      · have h1 := hd v p hp
        obtain ⟨e, he, e1, e2⟩ := hi v p hp
        obtain ⟨e', he'⟩ := Option.isSome_iff_exists.1 (G.edge_isSome.2 ⟨e, he, e1, e2⟩)
        have hpose := upProd_edge (g := s.g) hd hp he'
        have hroot : w.root ≠ some v := by rw [hr]; simpa using fun hh => hv hh.symm
        have hvin : w.vertexExists v = true := by
          unfold TreeView.parentOf at hp
          unfold TreeView.vertexExists
          cases hg : w.tree.get v with
          | none => simp [hg] at hp
          | some r => rfl
        obtain ⟨l, i1, i2, i3⟩ := ih p (by omega) (e2 ▸ hw.etgt e he)
        refine ⟨v :: l, ?_, ?_, ?_⟩
        · refine List.nodup_cons.2 ⟨fun hh => ?_, i1⟩
          have := (i2 v hh).2
          omega
        · intro x hx
          rcases List.mem_cons.1 hx with rfl | hx
          · exact ⟨hvin, Nat.le_refl _⟩
          · exact ⟨(i2 x hx).1, by have := (i2 x hx).2; omega⟩
        · rcases i3 with ⟨j1, j2⟩ | ⟨j1, x, j2⟩
          · refine Or.inl ⟨.head hp j1, fun n acc hn => ?_⟩
            cases n with
            | zero => simp at hn
            | succ n =>
              rw [tfToRoot_step hw hroot hp hl, he']
              simp only
              rw [j2 n _ (by simpa using hn), hpose]
              simp [mul_assoc]
          · refine Or.inr ⟨fun hu => ?_, x, fun n acc hn => ?_⟩
            · rcases Relation.ReflTransGen.cases_head hu with hh | ⟨y, hy, hu'⟩
              · exact hv hh
              · rw [hp] at hy
                obtain rfl := Option.some.inj hy
                exact j1 hu'
            · cases n with
              | zero => simp at hn
              | succ n =>
                rw [tfToRoot_step hw hroot hp hl, he']
                simp only
                exact j2 n _ (by simpa using hn)
where
  up_top {s : GS F (Tf T)} (hw : WF s.g) {root : VId} {w : TreeView} (hr : w.root = some root) {d : VId → Nat} {v : VId}
      (hp : w.parentOf v = none) (hl : Live s.g v) :
      ∃ l : List VId, l.Nodup ∧ (∀ x ∈ l, w.vertexExists x = true ∧ d x ≤ d v) ∧
        ((w.Under v root ∧ ∀ n acc, l.length ≤ n → tfToRoot w s n (some v) acc =
            .ok (acc * (upProd s.g w (d v) v * (upProd s.g w (d root) root)⁻¹)) s) ∨
         (¬ w.Under v root ∧ ∃ x, ∀ n acc, l.length ≤ n → tfToRoot w s n (some v) acc = .throw x s)) := by
    by_cases hv : v = root
    · subst hv
      exact ⟨[], by simp, by simp, Or.inl ⟨.refl, fun n acc _ => by rw [tfToRoot_root hr]; simp⟩⟩
    · have hroot : w.root ≠ some v := by rw [hr]; simpa using fun hh => hv hh.symm
      have hnu : ¬ w.Under v root := by
        intro hu
        rcases Relation.ReflTransGen.cases_head hu with hh | ⟨y, hy, -⟩
        · exact hv hh
        · rw [hp] at hy; cases hy
      cases hg : w.tree.get v with
      | none =>
        refine ⟨[], by simp, by simp, Or.inr ⟨hnu, .runtimeError "not in the tree", fun n acc _ => ?_⟩⟩
        unfold tfToRoot
        simp only [hroot, if_false, TreeView.getParent, hg]
      | some r =>
        have hpar : r.parent = none := by simpa [TreeView.parentOf, hg] using hp
        refine ⟨[v], by simp, ?_, Or.inr ⟨hnu, .runtimeError "null vertex", fun n acc hn => ?_⟩⟩
        · intro x hx
          rw [List.mem_singleton.1 hx]
          exact ⟨by simp [TreeView.vertexExists, hg], Nat.le_refl _⟩
        · cases n with
          | zero => simp at hn
          | succ n =>
            obtain ⟨rv, hrv, hid⟩ := hl
            have f1 : s.g.findV v = some rv := hw.findV_iff.2 ⟨hrv, hid⟩
            have hnone : w.root ≠ none := by rw [hr]; simp
            unfold tfToRoot
            simp only [hroot, if_false, TreeView.getParent, hg, hpar, Option.bind_some, f1, Option.bind_none]
            unfold tfToRoot
            simp only [hnone, if_false, TreeView.getParent]

/-- with the fuel that the model provides -/
theorem up_total {s : GS F (Tf T)} (hw : WF s.g) {root : VId} {w : TreeView} (hr : w.root = some root) (hi : w.Intact s.g)
    {d : VId → Nat} (hd : ∀ v p, w.parentOf v = some p → d v = d p + 1) (v : VId) (hl : Live s.g v) :
    (w.Under v root ∧ ∀ acc, tfToRoot w s (w.tree.length + 1) (some v) acc =
        .ok (acc * (upProd s.g w (d v) v * (upProd s.g w (d root) root)⁻¹)) s) ∨
    (¬ w.Under v root ∧ ∃ x, ∀ acc, tfToRoot w s (w.tree.length + 1) (some v) acc = .throw x s) := by
  obtain ⟨l, h1, h2, h3⟩ := up_list hw hr hi hd (d v) v (Nat.le_refl _) hl
  have hsub : l ⊆ AMap.keys w.tree := by
    intro x hx
    have := (h2 x hx).1
    unfold TreeView.vertexExists at this
    exact AMap.mem_keys_iff.2 (Option.isSome_iff_exists.1 this)
  have hle : l.length ≤ w.tree.length + 1 := by
    have := (h1.subperm hsub).length_le
    simp [AMap.keys] at this
    omega
  rcases h3 with ⟨a1, a2⟩ | ⟨a1, x, a2⟩
  · exact Or.inl ⟨a1, fun acc => a2 _ _ hle⟩
  · exact Or.inr ⟨a1, x, fun acc => a2 _ _ hle⟩

/-- edges of the view in terms of the potential -/
theorem viewEdge_pose {s : GS F (Tf T)} (hp : Paired s.g) {w : TreeView} {d : VId → Nat}
    (hd : ∀ v p, w.parentOf v = some p → d v = d p + 1) {x y : VId} {e : ERec (Tf T)} (h : w.TreeEdge x y)
    (he : s.g.edge x y = some e) : e.prop.pose = upProd s.g w (d x) x * (upProd s.g w (d y) y)⁻¹ := by
  rcases h with hxy | hxy
  · exact upProd_edge hd hxy he
  · obtain ⟨e', he', hinv⟩ := hp.inverse he
    have h1 := upProd_edge hd hxy he'
    have h2 : e.prop.pose = e'.prop.pose⁻¹ := by
      rcases hinv with hh | hh
      · rw [hh]; simp [EdgeProp.inverse, Tf.inverse]
      · rw [hh]; simp [EdgeProp.inverse, Tf.inverse]
    rw [h2, h1]
    simp

/-- along a path in the view -/
theorem along_pot {s : GS F (Tf T)} {w : TreeView} {pot : VId → T}
    (hpot : ∀ x y e, w.TreeEdge x y → s.g.edge x y = some e → e.prop.pose = pot x * (pot y)⁻¹)
    {l : List FrameId} {t : T} (h : Along s l t) : l.IsChain (ViewConn s w) → ∀ {a b : FrameId} {u v : VId},
      l.head? = some a → l.getLast? = some b → s.g.vertexOf a = some u → s.g.vertexOf b = some v → t = pot u * (pot v)⁻¹ := by
  induction h with
  | one x =>
    intro _ a b u v ha hb hu hv
    simp at ha hb
    subst ha; subst hb
    rw [hu] at hv
    obtain rfl := Option.some.inj hv
    simp
  | step he _ ih =>
    intro hc a b u v ha hb hu hv
    simp only [List.head?_cons, Option.some.injEq] at ha
    subst ha
    rw [List.getLast?_cons_cons] at hb
    obtain ⟨⟨x, y, h1, h2, h3⟩, hc'⟩ := List.isChain_cons_cons.1 hc
    obtain ⟨x', y', e, k1, k2, k3, rfl, -⟩ := getEdgeProperty_ok he
    have e1 := getVertex_ok h1
    have e2 := getVertex_ok h2
    rw [k1] at e1; rw [k2] at e2
    obtain rfl := Option.some.inj e1
    obtain rfl := Option.some.inj e2
    rw [hu] at k1
    obtain rfl := Option.some.inj k1
    rw [ih hc' rfl hb k2 hv, hpot _ _ _ h3 k3]
    simp [mul_assoc]

theorem path_of_rtg {α : Type} {R : α → α → Prop} {a b : α} (h : Relation.ReflTransGen R a b) : ∃ l, IsPath R a b l := by
  induction h with
  | refl => exact ⟨[a], rfl, rfl, by simp⟩
  | @tail x y _ hxy ih =>
    obtain ⟨l, hl⟩ := ih
    refine ⟨l ++ [y], ?_, by simp, ?_⟩
    · rw [List.head?_append, hl.first]; rfl
    · rw [List.isChain_append]
      refine ⟨hl.steps, by simp, ?_⟩
      intro p hp q hq
      rw [hl.last] at hp
      simp only [Option.mem_def, Option.some.injEq, List.head?_cons] at hp hq
      subst hp; subst hq
      exact hxy

theorem rtg_symm {α : Type} {R : α → α → Prop} (hs : ∀ x y, R x y → R y x) {a b : α} (h : Relation.ReflTransGen R a b) :
    Relation.ReflTransGen R b a := by
  induction h with
  | refl => exact .refl
  | tail _ hxy ih => exact .head (hs _ _ hxy) ih

theorem nameOf_vertexOf {F E : Type} [FrameProp F] [EdgeProp E] {g : G F E} (hw : WF g) {a : FrameId} {u : VId} (h : g.vertexOf a = some u) : nameOf g u = a := by
  have h1 := vertexOf_nameOf hw (hw.live h)
  exact hw.vertexOf_inj h1 h

/-- `getTransform` over a view without circles whose connections all exist -/
theorem getTransformView_intact {s : GS F (Tf T)} (hw : WF s.g) (hp : Paired s.g) {root : VId} {w : TreeView}
    (hr : w.root = some root) (hi : w.Intact s.g) (hrank : ∃ d : VId → Nat, ∀ v p, w.parentOf v = some p → d v = d p + 1)
    {a b : FrameId} {u v : VId} (ha : s.g.vertexOf a = some u) (hb : s.g.vertexOf b = some v) :
    ((u = v ∨ (w.Under u root ∧ w.Under v root)) ∧ ∃ t l, IsPath (ViewConn s w) a b l ∧ Along s l t ∧
      (∀ l' t', IsPath (ViewConn s w) a b l' → Along s l' t' → t' = t) ∧ getTransformView a b w s = .ok ⟨0, t⟩ s) ∨
    (u ≠ v ∧ ¬ (w.Under u root ∧ w.Under v root) ∧ ∃ x, getTransformView a b w s = .throw x s) := by
  obtain ⟨d, hd⟩ := hrank
  have hpot := fun x y e (h : w.TreeEdge x y) (he : s.g.edge x y = some e) => viewEdge_pose hp hd h he
  have huniq : ∀ l' t', IsPath (ViewConn s w) a b l' → Along s l' t' →
      t' = upProd s.g w (d u) u * (upProd s.g w (d v) v)⁻¹ := by
    intro l' t' h1 h2
    exact along_pot (pot := fun x => upProd s.g w (d x) x) hpot h2 h1.steps h1.first h1.last ha hb
  have hconn : ∀ x y, ViewConn s w x y → s.Conn x y := by
    rintro x y ⟨i, j, h1, h2, h3⟩
    refine (adj_iff_conn (getVertex_ok h1) (getVertex_ok h2)).2 ?_
    rcases h3 with h3 | h3
    · exact hi _ _ h3
    · obtain ⟨e, he, e1, e2⟩ := hi _ _ h3
      obtain ⟨e', he', hinv⟩ := hp.inverse (hp.edge_iff.2 ⟨he, e1, e2⟩)
      obtain ⟨f1, f2, f3⟩ := G.edge_some he'
      exact ⟨e', f1, f2, f3⟩
  by_cases huv : u = v
  · subst huv
    have hab : a = b := by rw [← nameOf_vertexOf hw ha, ← nameOf_vertexOf hw hb]
    subst hab
    refine Or.inl ⟨Or.inl rfl, 1, [a], ⟨rfl, rfl, by simp⟩, .one a, ?_, ?_⟩
    · intro l' t' h1 h2
      rw [huniq l' t' h1 h2]; simp
    · simp [getTransformView, ha, getTransformViewV, Tf.ident]
  · rcases up_total hw hr hi hd u (hw.live ha) with ⟨a1, a2⟩ | ⟨a1, x, a2⟩
    · rcases up_total hw hr hi hd v (hw.live hb) with ⟨b1, b2⟩ | ⟨b1, x, b2⟩
      · have hup : ∀ {z : VId}, Live s.g z → w.Under z root →
            Relation.ReflTransGen (ViewConn s w) (nameOf s.g z) (nameOf s.g root) := by
          intro z hz hu
          induction hu using Relation.ReflTransGen.head_induction_on with
          | refl => exact .refl
          | @head x y hxy _ ih =>
            obtain ⟨e, he, e1, e2⟩ := hi x y hxy
            have hx : Live s.g x := e1 ▸ hw.esrc e he
            have hy : Live s.g y := e2 ▸ hw.etgt e he
            exact .head ⟨x, y, by simp [getVertex, vertexOf_nameOf hw hx], by simp [getVertex, vertexOf_nameOf hw hy], Or.inl hxy⟩ (ih hy)
        have hsym : ∀ x y, ViewConn s w x y → ViewConn s w y x := by
          rintro x y ⟨i, j, h1, h2, h3⟩
          exact ⟨j, i, h2, h1, h3.symm⟩
        have hpath : Relation.ReflTransGen (ViewConn s w) a b := by
          have q1 := hup (hw.live ha) a1
          have q2 := hup (hw.live hb) b1
          rw [nameOf_vertexOf hw ha] at q1
          rw [nameOf_vertexOf hw hb] at q2
          exact q1.trans (rtg_symm hsym q2)
        obtain ⟨l, hl⟩ := path_of_rtg hpath
        obtain ⟨t, ht⟩ := exists_along (s := s) (l := l) (by rintro rfl; simpa using hl.first) (hl.steps.imp hconn)
        refine Or.inl ⟨Or.inr ⟨a1, b1⟩, t, l, hl, ht, ?_, ?_⟩
        · intro l' t' h1 h2
          rw [huniq l' t' h1 h2, huniq l t hl ht]
        · simp only [getTransformView, ha, hb, getTransformViewV, huv, if_false, a2, b2]
          rw [huniq l t hl ht]
          simp [mul_assoc]
      · exact Or.inr ⟨huv, fun hh => b1 hh.2, x, by simp only [getTransformView, ha, hb, getTransformViewV, huv, if_false, a2, b2]⟩
    · exact Or.inr ⟨huv, fun hh => a1 hh.1, x, by simp only [getTransformView, ha, hb, getTransformViewV, huv, if_false, a2]⟩

/-- a correct view is intact and its vertices are under the root -/
theorem IsTreeView.intact {F E : Type} [FrameProp F] [EdgeProp E] {g : G F E} (hp : Paired g) {root : VId} {w : TreeView} (h : IsTreeView g root w) : w.Intact g := by
  intro u p hup
  obtain ⟨e, he, e1, e2⟩ := (h.parent_adj hup).1
  obtain ⟨e', he', -⟩ := hp.inverse (hp.edge_iff.2 ⟨he, e1, e2⟩)
  obtain ⟨f1, f2, f3⟩ := G.edge_some he'
  exact ⟨e', f1, f2, f3⟩

theorem IsTreeView.under_root {F E : Type} [FrameProp F] [EdgeProp E] {g : G F E} (hp : Paired g) {root : VId} {w : TreeView} (h : IsTreeView g root w) {v : VId} :
    w.vertexExists v = true ↔ w.Under v root := by
  constructor
  · obtain ⟨d, hd⟩ := h.rank
    have : ∀ (m : Nat) (v : VId), d v ≤ m → w.vertexExists v = true → w.Under v root := by
      intro m
      induction m with
      | zero =>
        intro v hm hv
        by_cases hr : v = root
        · subst hr; exact .refl
        · obtain ⟨p, h1, -⟩ := h.parent v hv hr
          have := hd v p h1
          omega
      | succ m ih =>
        intro v hm hv
        by_cases hr : v = root
        · subst hr; exact .refl
        · obtain ⟨p, h1, -⟩ := h.parent v hv hr
          have := hd v p h1
          exact .head h1 (ih p (by omega) (h.parent_in hp h1))
    exact this (d v) v (Nat.le_refl _)
  · intro hu
    rcases Relation.ReflTransGen.cases_head hu with hh | ⟨y, hy, -⟩
    · subst hh; exact h.root_in
    · unfold TreeView.parentOf at hy
      unfold TreeView.vertexExists
      cases hg : w.tree.get v with
      | none => simp [hg] at hy
      | some r => rfl

end Verif
