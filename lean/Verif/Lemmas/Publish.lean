import Verif.Lemmas.Mirror

set_option linter.unusedSectionVars false
set_option linter.unusedSimpArgs false
/-! Publishing and unpublishing the current state. -/

namespace Verif
variable {F E : Type} [FrameProp F] [EdgeProp E]

namespace GS

/-- the other direction, as a relation -/
def isInv (g : G F E) (e e' : ERec E) : Prop := g.edge e.tgt e.src = some e'

theorem isInv_exists {g : G F E} (hp : Paired g) {e : ERec E} (he : e ∈ g.edges) : ∃ e', isInv g e e' ∧ e' ∈ g.edges := by
  have h1 : g.edge e.src e.tgt = some e := hp.edge_iff.2 ⟨he, rfl, rfl⟩
  obtain ⟨e', h2, -⟩ := hp.inverse h1
  exact ⟨e', h2, (G.edge_some h2).1⟩

theorem isInv_symm {g : G F E} (hp : Paired g) {e e' : ERec E} (he : e ∈ g.edges) (h : isInv g e e') : isInv g e' e := by
  obtain ⟨m, h1, h2⟩ := G.edge_some h
  unfold isInv
  rw [h1, h2]
  exact hp.edge_iff.2 ⟨he, rfl, rfl⟩

theorem isInv_ne {g : G F E} (hp : Paired g) {e e' : ERec E} (he : e ∈ g.edges) (h : isInv g e e') : e ≠ e' := by
  rintro rfl
  obtain ⟨-, h1, -⟩ := G.edge_some h
  exact hp.noself e he h1

/-- the loop over the edges publishes exactly one edge of each pair -/
theorem publish_fold {g : G F E} (hw : WF g) (hp : Paired g) (mk : FrameId → FrameId → EId → Event) (l : List (ERec E)) :
    ∀ (pre : List (ERec E)) (st : List EId × List Event) (pub : List (ERec E)),
    (pre ++ l) = g.edges → pub.Sublist pre →
    (∀ i, i ∈ st.1 ↔ ∃ e ∈ pub, ∃ e', isInv g e e' ∧ e'.id = i) →
    st.2 = pub.map (fun e => mk (nameOf g e.src) (nameOf g e.tgt) e.id) →
    (∀ e ∈ pre, e ∉ pub → ∃ e' ∈ pub, isInv g e e') →
    (∀ e ∈ pub, ∀ e' ∈ pub, ¬ isInv g e e') →
    ∃ st' pub', l.foldlM (publishEdge g mk) st = some st' ∧ List.Sublist pub' g.edges ∧
      st'.2 = pub'.map (fun e => mk (nameOf g e.src) (nameOf g e.tgt) e.id) ∧
      (∀ e ∈ g.edges, e ∉ pub' → ∃ e' ∈ pub', isInv g e e') ∧
      (∀ e ∈ pub', ∀ e' ∈ pub', ¬ isInv g e e') := by
  induction l with
  | nil =>
    intro pre st pub h1 h2 h3 h4 h5 h6
    simp only [List.append_nil] at h1
    subst h1
    exact ⟨st, pub, rfl, h2, h4, h5, h6⟩
  | cons e l ih =>
    intro pre st pub h1 h2 h3 h4 h5 h6
    have hem : e ∈ g.edges := by rw [← h1]; simp
    have hnd : g.edges.Nodup := List.Nodup.of_map _ hw.enodup
    have hepre : e ∉ pre := by
      rw [← h1] at hnd
      intro hh
      exact (List.nodup_append.1 hnd).2.2 e hh e (by simp) rfl
    have hepub : e ∉ pub := fun hh => hepre (h2.subset hh)
    have hpubm : ∀ x ∈ pub, x ∈ g.edges := by
      intro x hx; rw [← h1]; exact List.mem_append_left _ (h2.subset hx)
    have hid : ∀ x ∈ g.edges, ∀ y ∈ g.edges, x.id = y.id → x = y := fun x hx y hy h =>
      map_inj_of_nodup hw.enodup hx hy h
    by_cases hskip : e.id ∈ st.1
    · have hstep : publishEdge g mk st e = some st := by simp [publishEdge, hskip]
      obtain ⟨p, hpp, p', hp1, hp2⟩ := (h3 e.id).1 hskip
      have hp'e : p' = e := hid _ (G.edge_some hp1).1 _ hem hp2
      subst hp'e
      have hsym := isInv_symm hp (hpubm p hpp) hp1
      obtain ⟨st', pub', r1, r2⟩ := ih (pre ++ [p']) st pub (by simp [h1]) (h2.trans (by simp)) h3 h4 (by
        intro x hx hxp
        rcases List.mem_append.1 hx with hx | hx
        · exact h5 x hx hxp
        · obtain rfl : x = p' := by simpa using hx
          exact ⟨p, hpp, hsym⟩) h6
      exact ⟨st', pub', by simp [List.foldlM_cons, hstep, r1], r2⟩
    · obtain ⟨ei, hei, heim⟩ := isInv_exists hp hem
      obtain ⟨rs, hrs, hrs'⟩ := hw.esrc e hem
      obtain ⟨rt, hrt, hrt'⟩ := hw.etgt e hem
      have f1 : g.findV e.src = some rs := hw.findV_iff.2 ⟨hrs, hrs'⟩
      have f2 : g.findV e.tgt = some rt := hw.findV_iff.2 ⟨hrt, hrt'⟩
      have n1 : nameOf g e.src = FrameProp.getId rs.prop := by simp [nameOf, f1]
      have n2 : nameOf g e.tgt = FrameProp.getId rt.prop := by simp [nameOf, f2]
      have hstep : publishEdge g mk st e =
          some (st.1 ++ [ei.id], st.2 ++ [mk (nameOf g e.src) (nameOf g e.tgt) e.id]) := by
        simp only [publishEdge, hskip, if_false, f1, f2, n1, n2]
        rw [hei]
      have heipub : ei ∉ pub := by
        intro hh
        exact hskip ((h3 e.id).2 ⟨ei, hh, e, isInv_symm hp hem hei, rfl⟩)
      obtain ⟨st', pub', r1, r2⟩ := ih (pre ++ [e]) (st.1 ++ [ei.id], st.2 ++ [mk (nameOf g e.src) (nameOf g e.tgt) e.id])
        (pub ++ [e]) (by simp [h1]) (h2.append (List.Sublist.refl _)) (by
          intro i
          simp only [List.mem_append, List.mem_singleton, h3]
          constructor
          · rintro (⟨x, hx, y, hy⟩ | rfl)
            · exact ⟨x, Or.inl hx, y, hy⟩
            · exact ⟨e, Or.inr rfl, ei, hei, rfl⟩
          · rintro ⟨x, hx | rfl, y, hy, hyi⟩
            · exact Or.inl ⟨x, hx, y, hy, hyi⟩
            · right
              have : y = ei := Option.some.inj (hy.symm.trans hei)
              rw [← hyi, this]) (by simp [h4]) (by
          intro x hx hxp
          have hxp' : x ∉ pub ∧ x ≠ e := by
            constructor
            · intro hh; exact hxp (List.mem_append_left _ hh)
            · rintro rfl; exact hxp (by simp)
          rcases List.mem_append.1 hx with hx | hx
          · obtain ⟨y, hy, hy'⟩ := h5 x hx hxp'.1
            exact ⟨y, List.mem_append_left _ hy, hy'⟩
          · exact (hxp'.2 (by simpa using hx)).elim) (by
          intro x hx y hy hxy
          rcases List.mem_append.1 hx with hx' | hx' <;> rcases List.mem_append.1 hy with hy' | hy' <;> clear hx hy <;>
            rename' hx' => hx, hy' => hy
          · exact h6 x hx y hy hxy
          · obtain rfl : y = e := by simpa using hy
            exact hskip ((h3 y.id).2 ⟨x, hx, y, hxy, rfl⟩)
          · obtain rfl : x = e := by simpa using hx
            have : y = ei := Option.some.inj (hxy.symm.trans hei)
            exact heipub (this ▸ hy)
          · obtain rfl : x = e := by simpa using hx
            obtain rfl : y = x := by simpa using hy
            exact isInv_ne hp hem hxy rfl)
      refine ⟨st', pub', ?_, r2⟩
      simp only [List.foldlM_cons, hstep]
      exact r1

end GS

/-- names of a pair of frames, as the edge events carry them -/
def pairOf (g : G F E) (e : ERec E) : FrameId × FrameId := (GS.nameOf g e.src, GS.nameOf g e.tgt)

/-- a list that names each connection of the graph exactly once, in one of its two directions -/
structure OncePerConnection (g : G F E) (ps : List (FrameId × FrameId)) : Prop where
  nodup : ps.Nodup
  noswap : ∀ p ∈ ps, p.swap ∉ ps
  iff : ∀ a b, (absEdge g a b).isSome ↔ (a, b) ∈ ps ∨ (b, a) ∈ ps

theorem once_of_pub {g : G F E} (hw : WF g) (hp : Paired g) {pub : List (ERec E)} (hsub : pub.Sublist g.edges)
    (h1 : ∀ e ∈ g.edges, e ∉ pub → ∃ e' ∈ pub, GS.isInv g e e') (h2 : ∀ e ∈ pub, ∀ e' ∈ pub, ¬ GS.isInv g e e') :
    OncePerConnection g (pub.map (pairOf g)) := by
  have hl : ∀ e ∈ g.edges, g.vertexOf (GS.nameOf g e.src) = some e.src ∧ g.vertexOf (GS.nameOf g e.tgt) = some e.tgt :=
    fun e he => ⟨GS.vertexOf_nameOf hw (hw.esrc e he), GS.vertexOf_nameOf hw (hw.etgt e he)⟩
  have inj : ∀ x ∈ g.edges, ∀ y ∈ g.edges, GS.nameOf g x.src = GS.nameOf g y.src → GS.nameOf g x.tgt = GS.nameOf g y.tgt →
      x.src = y.src ∧ x.tgt = y.tgt := by
    intro x hx y hy a b
    have q1 := hl x hx
    have q2 := hl y hy
    rw [a, b] at q1
    exact ⟨Option.some.inj (q1.1.symm.trans q2.1), Option.some.inj (q1.2.symm.trans q2.2)⟩
  refine ⟨?_, ?_, ?_⟩
  · have hnd : pub.Nodup := (List.Nodup.of_map _ hw.enodup).sublist hsub
    refine (List.nodup_map_iff_inj_on hnd).2 ?_
    intro x hx y hy hxy
    simp only [pairOf, Prod.mk.injEq] at hxy
    have := inj x (hsub.subset hx) y (hsub.subset hy) hxy.1 hxy.2
    exact hp.uniq x (hsub.subset hx) y (hsub.subset hy) this.1 this.2
  · intro p hpm hsw
    obtain ⟨x, hx, rfl⟩ := List.mem_map.1 hpm
    obtain ⟨y, hy, hxy⟩ := List.mem_map.1 hsw
    simp only [pairOf, Prod.swap_prod_mk, Prod.mk.injEq] at hxy
    have q1 := hl x (hsub.subset hx)
    have q2 := hl y (hsub.subset hy)
    rw [hxy.1, hxy.2] at q2
    refine h2 x hx y hy ?_
    exact hp.edge_iff.2 ⟨hsub.subset hy, Option.some.inj (q2.1.symm.trans q1.2), Option.some.inj (q2.2.symm.trans q1.1)⟩
  · intro a b
    constructor
    · intro hab
      obtain ⟨u, v, e, hu, hv, he⟩ := absEdge_isSome hab
      obtain ⟨m, hs, ht⟩ := G.edge_some he
      have n1 : GS.nameOf g e.src = a := by rw [hs]; exact GS.nameOf_eq hw hu
      have n2 : GS.nameOf g e.tgt = b := by rw [ht]; exact GS.nameOf_eq hw hv
      by_cases hep : e ∈ pub
      · left; exact List.mem_map.2 ⟨e, hep, by simp [pairOf, n1, n2]⟩
      · right
        obtain ⟨e', he', hi⟩ := h1 e m hep
        obtain ⟨-, i1, i2⟩ := G.edge_some hi
        exact List.mem_map.2 ⟨e', he', by simp [pairOf, i1, i2, n1, n2]⟩
    · have half : ∀ a b, (a, b) ∈ pub.map (pairOf g) → (absEdge g a b).isSome := by
        intro a b hab
        obtain ⟨x, hx, hxy⟩ := List.mem_map.1 hab
        simp only [pairOf, Prod.mk.injEq] at hxy
        obtain ⟨q1, q2⟩ := hl x (hsub.subset hx)
        rw [hxy.1] at q1
        rw [hxy.2] at q2
        rw [absEdge_of q1 q2]
        have : (g.edge x.src x.tgt).isSome := G.edge_isSome.2 ⟨x, hsub.subset hx, rfl, rfl⟩
        simpa using this
      rintro (h | h)
      · exact half a b h
      · exact absEdge_symm hp (half b a h)

namespace Mirror

theorem replay_frames (l : List FrameId) : ∀ (m : Mirror), l.Nodup → (∀ f ∈ l, f ∉ m.frames) →
    m.replay (l.map Event.frameAdded) = some { m with frames := m.frames ∪ l.toFinset } := by
  induction l with
  | nil => intro m _ _; cases m; simp [replay]
  | cons f l ih =>
    intro m hnd hno
    rw [List.nodup_cons] at hnd
    simp only [List.map_cons, replay, apply, if_neg (hno f (by simp)), Option.bind_some]
    rw [ih _ hnd.2]
    · congr 2
      ext x
      simp only [Finset.mem_union, Finset.mem_insert, List.mem_toFinset, List.toFinset_cons]
      tauto
    · intro x hx
      simp only [Finset.mem_insert, not_or]
      exact ⟨fun h => hnd.1 (h ▸ hx), hno x (by simp [hx])⟩

theorem replay_rmFrames (l : List FrameId) : ∀ (m : Mirror), l.Nodup → (∀ f ∈ l, f ∈ m.frames) → m.conns = ∅ →
    m.replay (l.map Event.frameRemoved) = some { m with frames := m.frames \ l.toFinset } := by
  induction l with
  | nil => intro m _ _ _; simp [replay]
  | cons f l ih =>
    intro m hnd hno hc
    rw [List.nodup_cons] at hnd
    have : f ∈ m.frames ∧ ∀ c ∈ m.conns, c.1 ≠ f ∧ c.2 ≠ f := ⟨hno f (by simp), by rw [hc]; simp⟩
    simp only [List.map_cons, replay, apply, if_pos this, Option.bind_some]
    rw [ih _ hnd.2]
    · congr 2
      ext x
      simp only [Finset.mem_sdiff, Finset.mem_erase, List.mem_toFinset, List.toFinset_cons, Finset.mem_insert]
      tauto
    · intro x hx
      simp only [Finset.mem_erase]
      exact ⟨fun h => hnd.1 (h ▸ hx), hno x (by simp [hx])⟩
    · exact hc

theorem replay_edges {α : Type} (pr : α → FrameId × FrameId) (i : α → EId) (l : List α) : ∀ (m : Mirror),
    (l.map pr).Nodup → (∀ p ∈ l.map pr, p.swap ∉ l.map pr) → (∀ p ∈ l.map pr, p.1 ∈ m.frames ∧ p.2 ∈ m.frames) →
    (∀ p ∈ l.map pr, p ∉ m.conns ∧ p.swap ∉ m.conns) →
    ∃ c, m.replay (l.map (fun e => Event.edgeAdded (pr e).1 (pr e).2 (i e))) = some { m with conns := c } ∧
      ∀ x, x ∈ c ↔ x ∈ m.conns ∨ x ∈ l.map pr ∨ x.swap ∈ l.map pr := by
  induction l with
  | nil => intro m _ _ _ _; exact ⟨m.conns, rfl, by simp⟩
  | cons e l ih =>
    intro m hnd hsw hfr hno
    simp only [List.map_cons, List.nodup_cons] at hnd
    have hne : (pr e).1 ≠ (pr e).2 := by
      intro hh
      refine hsw (pr e) (by simp) ?_
      have : (pr e).swap = pr e := Prod.ext hh.symm hh
      rw [this]; simp
    have hcond : (pr e).1 ∈ m.frames ∧ (pr e).2 ∈ m.frames ∧ (pr e).1 ≠ (pr e).2 ∧ ((pr e).1, (pr e).2) ∉ m.conns :=
      ⟨(hfr (pr e) (by simp)).1, (hfr (pr e) (by simp)).2, hne, (hno (pr e) (by simp)).1⟩
    simp only [List.map_cons, replay, apply, if_pos hcond, Option.bind_some]
    obtain ⟨c, h1, h2⟩ := ih { m with conns := insert ((pr e).1, (pr e).2) (insert ((pr e).2, (pr e).1) m.conns) } hnd.2
      (fun p hp hh => hsw p (by simp only [List.map_cons]; exact List.mem_cons_of_mem _ hp)
        (by simp only [List.map_cons]; exact List.mem_cons_of_mem _ hh))
      (fun p hp => hfr p (by simp only [List.map_cons]; exact List.mem_cons_of_mem _ hp))
      (by
        intro p hp
        have hp' : p ∈ (e :: l).map pr := by simp only [List.map_cons]; exact List.mem_cons_of_mem _ hp
        have hn1 : p ≠ pr e := by rintro rfl; exact hnd.1 hp
        have hn2 : p ≠ (pr e).swap := by
          rintro rfl
          exact hsw (pr e) (by simp) hp'
        have hn3 : p.swap ≠ pr e := by
          intro hh; exact hn2 (by rw [← hh]; simp)
        have hn4 : p.swap ≠ (pr e).swap := by
          intro hh; exact hn1 (Prod.swap_injective hh)
        have hsw' : ((pr e).2, (pr e).1) = (pr e).swap := rfl
        simp only [Finset.mem_insert, not_or, hsw']
        exact ⟨⟨hn1, hn2, (hno p hp').1⟩, ⟨hn3, hn4, (hno p hp').2⟩⟩)
    refine ⟨c, h1, ?_⟩
    intro x
    rw [h2]
    have hsw' : x = ((pr e).2, (pr e).1) ↔ x.swap = pr e := by
      constructor
      · rintro rfl; rfl
      · intro hh; rw [← hh]; rfl
    simp only [Finset.mem_insert, List.mem_cons, hsw', List.map_cons]
    tauto

theorem replay_rmEdges {α : Type} (pr : α → FrameId × FrameId) (l : List α) : ∀ (m : Mirror),
    (l.map pr).Nodup → (∀ p ∈ l.map pr, p.swap ∉ l.map pr) → (∀ p ∈ l.map pr, p ∈ m.conns) →
    ∃ c, m.replay (l.map (fun e => Event.edgeRemoved (pr e).1 (pr e).2)) = some { m with conns := c } ∧
      ∀ x, x ∈ c ↔ x ∈ m.conns ∧ x ∉ l.map pr ∧ x.swap ∉ l.map pr := by
  induction l with
  | nil => intro m _ _ _; exact ⟨m.conns, rfl, by simp⟩
  | cons e l ih =>
    intro m hnd hsw hin
    simp only [List.map_cons, List.nodup_cons] at hnd
    have hcond : ((pr e).1, (pr e).2) ∈ m.conns := hin (pr e) (by simp)
    simp only [List.map_cons, replay, apply, if_pos hcond, Option.bind_some]
    obtain ⟨c, h1, h2⟩ := ih { m with conns := (m.conns.erase ((pr e).1, (pr e).2)).erase ((pr e).2, (pr e).1) } hnd.2
      (fun p hp hh => hsw p (by simp only [List.map_cons]; exact List.mem_cons_of_mem _ hp)
        (by simp only [List.map_cons]; exact List.mem_cons_of_mem _ hh))
      (by
        intro p hp
        have hp' : p ∈ (e :: l).map pr := by simp only [List.map_cons]; exact List.mem_cons_of_mem _ hp
        have hn1 : p ≠ pr e := by rintro rfl; exact hnd.1 hp
        have hn2 : p ≠ (pr e).swap := by
          rintro rfl
          exact hsw (pr e) (by simp) hp'
        have hsw' : ((pr e).2, (pr e).1) = (pr e).swap := rfl
        simp only [Finset.mem_erase, hsw']
        exact ⟨hn2, hn1, hin p hp'⟩)
    refine ⟨c, h1, ?_⟩
    intro x
    rw [h2]
    have hsw' : x = ((pr e).2, (pr e).1) ↔ x.swap = pr e := by
      constructor
      · rintro rfl; rfl
      · intro hh; rw [← hh]; rfl
    simp only [Finset.mem_erase, ne_eq, List.mem_cons, hsw', List.map_cons]
    tauto

end Mirror

namespace GS

/-- names of the frames in the order of the vertices -/
def names (g : G F E) : List FrameId := g.verts.map (fun r => FrameProp.getId r.prop)

theorem names_nodup {g : G F E} (hw : WF g) : (names g).Nodup :=
  (List.nodup_map_iff_inj_on (List.Nodup.of_map _ hw.vnodup)).2 (fun _ hr _ hr' he => hw.name_inj hr hr' he)

theorem mem_names {g : G F E} (hw : WF g) {f : FrameId} : f ∈ names g ↔ (g.vertexOf f).isSome := by
  simp only [names, Option.isSome_iff_exists, hw.vertexOf_iff, List.mem_map]
  constructor
  · rintro ⟨r, hr, h2⟩; exact ⟨r.id, r, hr, rfl, h2⟩
  · rintro ⟨v, r, hr, h1, h2⟩; exact ⟨r, hr, h2⟩

/-- what `publishCurrentState` sends -/
theorem publishCurrentState_eq {s : GS F E} (hw : WF s.g) (hp : Paired s.g) :
    ∃ pub : List (ERec E), publishCurrentState s = some ((names s.g).map Event.frameAdded ++
        pub.map (fun e => Event.edgeAdded (pairOf s.g e).1 (pairOf s.g e).2 e.id)) ∧
      pub.Sublist s.g.edges ∧ OncePerConnection s.g (pub.map (pairOf s.g)) := by
  obtain ⟨st', pub, h1, h2, h3, h4, h5⟩ := publish_fold hw hp (fun o t e => .edgeAdded o t e) s.g.edges [] ([], []) []
    (by simp) (List.Sublist.refl _) (by simp) rfl (by simp) (by simp)
  refine ⟨pub, ?_, h2, once_of_pub hw hp h2 h4 h5⟩
  simp only [publishCurrentState, h1, h3, names, List.map_map]
  rfl

/-- what `unpublishCurrentState` sends -/
theorem unpublishCurrentState_eq {s : GS F E} (hw : WF s.g) (hp : Paired s.g) :
    ∃ pub : List (ERec E), unpublishCurrentState s = some (
        pub.map (fun e => Event.edgeRemoved (pairOf s.g e).1 (pairOf s.g e).2) ++ (names s.g).map Event.frameRemoved) ∧
      pub.Sublist s.g.edges ∧ OncePerConnection s.g (pub.map (pairOf s.g)) := by
  obtain ⟨st', pub, h1, h2, h3, h4, h5⟩ := publish_fold hw hp (fun o t _ => .edgeRemoved o t) s.g.edges [] ([], []) []
    (by simp) (List.Sublist.refl _) (by simp) rfl (by simp) (by simp)
  refine ⟨pub, ?_, h2, once_of_pub hw hp h2 h4 h5⟩
  simp only [unpublishCurrentState, h1, h3, names, List.map_map]
  rfl

theorem publish_replay {s : GS F E} (hw : WF s.g) (hp : Paired s.g) {evs : List Event}
    (h : publishCurrentState s = some evs) : ∃ m, Mirror.empty.replay evs = some m ∧ MirrorOf s.g m := by
  obtain ⟨pub, h1, -, h3⟩ := publishCurrentState_eq hw hp
  rw [h] at h1
  obtain rfl := Option.some.inj h1
  rw [Mirror.replay_append, Mirror.replay_frames _ _ (names_nodup hw) (by simp [Mirror.empty])]
  simp only [Option.bind_some]
  have hconn : ∀ p ∈ pub.map (pairOf s.g), (absEdge s.g p.1 p.2).isSome := fun p hp => (h3.iff _ _).2 (Or.inl hp)
  obtain ⟨c, r1, r2⟩ := Mirror.replay_edges (pairOf s.g) ERec.id pub
    { Mirror.empty with frames := Mirror.empty.frames ∪ (names s.g).toFinset } h3.nodup h3.noswap
    (by
      intro p hpp
      obtain ⟨u, v, e, hu, hv, -⟩ := absEdge_isSome (hconn p hpp)
      simp [Mirror.empty, mem_names hw, hu, hv])
    (by intro p _; simp [Mirror.empty])
  refine ⟨_, r1, ?_, ?_⟩
  · intro f; simp [Mirror.empty, mem_names hw]
  · intro a b
    rw [r2, h3.iff]
    simp [Mirror.empty]

theorem unpublish_replay {s : GS F E} (hw : WF s.g) (hp : Paired s.g) {evs : List Event} {m : Mirror} (hm : MirrorOf s.g m)
    (h : unpublishCurrentState s = some evs) : m.replay evs = some Mirror.empty := by
  obtain ⟨pub, h1, -, h3⟩ := unpublishCurrentState_eq hw hp
  rw [h] at h1
  obtain rfl := Option.some.inj h1
  obtain ⟨c, r1, r2⟩ := Mirror.replay_rmEdges (pairOf s.g) pub m h3.nodup h3.noswap
    (by rintro ⟨a, b⟩ hpp; rw [hm.conns]; exact (h3.iff _ _).2 (Or.inl hpp))
  have hc : c = ∅ := by
    ext ⟨a, b⟩
    rw [r2, hm.conns, h3.iff]
    simp only [Prod.swap_prod_mk, Finset.notMem_empty, iff_false]
    tauto
  rw [Mirror.replay_append, r1]
  simp only [Option.bind_some]
  rw [Mirror.replay_rmFrames _ _ (names_nodup hw)]
  · congr 1
    simp only [Mirror.empty, Mirror.mk.injEq, hc, and_true]
    ext f
    simp only [Finset.mem_sdiff, hm.frames, List.mem_toFinset, mem_names hw, and_not_self, Finset.notMem_empty]
  · intro f hf
    simp only [hm.frames]
    exact (mem_names hw).1 hf
  · exact hc

end GS
end Verif
