import Verif.Lemmas.GraphSearch
import Verif.Spec.TreeView

set_option linter.unusedSectionVars false
set_option linter.unusedSimpArgs false
/-! What the tree builder visitor makes of the callbacks of a search. -/

namespace Verif
open GS TreeView

theorem TreeView.addEdge_get {w : TreeView} {o t : VId} (hot : o ≠ t) (ht : w.tree.get t = none)
    (hc : t ∉ (w.relOf o).children) (v : VId) :
    (w.addEdge o t).tree.get v = if v = t then some ⟨some o, []⟩
      else if v = o then some { w.relOf o with children := (w.relOf o).children ++ [t] } else w.tree.get v := by
  simp only [TreeView.addEdge, AMap.get_set]
  by_cases hv : t = v
  · subst hv
    have h2 : ∀ x : VRel, (w.tree.set o x).get t = none := fun x => by rw [AMap.get_set_ne hot, ht]
    simp [TreeView.relOf, h2]
  · rw [if_neg hv, if_neg (Ne.symm hv)]
    by_cases ho : o = v
    · subst ho; simp [setInsert, hc]
    · rw [if_neg ho, if_neg (Ne.symm ho)]

/-- children that the tree edges `T` give to `v` -/
def kids (T : List Arc) (v : VId) : List VId := (T.filter (fun a => a.src = v)).map Arc.tgt

theorem mem_kids {T : List Arc} {v c : VId} : c ∈ kids T v ↔ ∃ a ∈ T, a.src = v ∧ a.tgt = c := by
  simp only [kids, List.mem_map, List.mem_filter, decide_eq_true_eq]
  constructor
  · rintro ⟨a, ⟨h1, h2⟩, h3⟩; exact ⟨a, h1, h2, h3⟩
  · rintro ⟨a, h1, h2, h3⟩; exact ⟨a, ⟨h1, h2⟩, h3⟩

theorem kids_append (T T' : List Arc) (v : VId) : kids (T ++ T') v = kids T v ++ kids T' v := by
  simp [kids]

/-- the parent that the tree edges give to `v` -/
def par (T : List Arc) (v : VId) : Option VId := (T.find? (fun a => a.tgt = v)).map Arc.src

theorem par_none {T : List Arc} {v : VId} : par T v = none ↔ v ∉ T.map Arc.tgt := by
  simp [par, List.find?_eq_none]

theorem par_some {T : List Arc} (hT : (T.map Arc.tgt).Nodup) {v p : VId} : par T v = some p ↔ ∃ a ∈ T, a.tgt = v ∧ a.src = p := by
  constructor
  · intro h
    obtain ⟨a, ha, h1⟩ := Option.map_eq_some_iff.1 h
    exact ⟨a, List.mem_of_find?_eq_some ha, by simpa using List.find?_some ha, h1⟩
  · rintro ⟨a, ha, rfl, rfl⟩
    have : T.find? (fun b => b.tgt = a.tgt) = some a := by
      refine find?_eq_some_of_unique ha (by simp) ?_
      intro b hb hab
      exact map_inj_of_nodup hT hb ha (by simpa using hab)
    simp [par, this]

/-- Closed form of the view after the callbacks of a search, started on a view `w0` that contains the root of the search and
none of the other discovered vertices. -/
theorem Good.build {root : VId} {lvl : VId → Nat} {l : List BfsEv} (h : Good root lvl l) {w0 : TreeView}
    (hr : (w0.tree.get root).isSome) (hnew : ∀ v ∈ (treeArcs l).map Arc.tgt, w0.tree.get v = none)
    (hch : ∀ v rel, w0.tree.get v = some rel → ∀ c ∈ rel.children, (w0.tree.get c).isSome) :
    (∀ v, (w0.build l).tree.get v = if v ∈ (treeArcs l).map Arc.tgt then some ⟨par (treeArcs l) v, kids (treeArcs l) v⟩
      else (w0.tree.get v).map (fun rel => { rel with children := rel.children ++ kids (treeArcs l) v })) ∧
    (w0.build l).crossEdges = w0.crossEdges ++ (grayArcs l).map (fun a => ⟨a.src, a.tgt, a.id⟩) ∧
    (w0.build l).root = w0.root ∧ (w0.build l).publisher = w0.publisher := by
  induction h with
  | init => refine ⟨?_, by simp [TreeView.build, grayArcs, buildStep], rfl, rfl⟩
            intro v
            simp only [TreeView.build, List.foldl_cons, buildStep, List.foldl_nil, treeArcs, List.filterMap_cons_none,
              List.filterMap_nil, List.map_nil, List.not_mem_nil, if_false, kids, List.filter_nil, List.append_nil]
            cases w0.tree.get v <;> rfl
  | @tree l a h h1 h2 h3 ih =>
    have hT : treeArcs (l ++ [.treeEdge a, .discover a.tgt]) = treeArcs l ++ [a] := by rw [treeArcs_append]; rfl
    rw [hT] at hnew
    obtain ⟨i1, i2, i3, i4⟩ := ih (fun v hv => hnew v (by rw [List.map_append]; exact List.mem_append_left _ hv))
    have hb : w0.build (l ++ [.treeEdge a, .discover a.tgt]) = (w0.build l).addEdge a.src a.tgt := by
      simp [TreeView.build, buildStep]
    have ht0 : w0.tree.get a.tgt = none := hnew a.tgt (by simp)
    have htT : a.tgt ∉ (treeArcs l).map Arc.tgt := by
      intro hh; apply h2; rw [h.tgts]; exact List.mem_cons_of_mem _ hh
    have hst : a.src ≠ a.tgt := by rintro he; exact h2 (he ▸ h1)
    have ht : (w0.build l).tree.get a.tgt = none := by rw [i1, if_neg htT, ht0]; rfl
    have hkt : kids (treeArcs l) a.tgt = [] := by
      rw [List.eq_nil_iff_forall_not_mem]
      intro c hc
      obtain ⟨b, hb, hbs, -⟩ := mem_kids.1 hc
      exact h2 (hbs ▸ (h.tree_arc hb).1)
    have hrel : ∃ rel, (w0.build l).tree.get a.src = some rel ∧ a.tgt ∉ rel.children := by
      rw [i1]
      by_cases hs : a.src ∈ (treeArcs l).map Arc.tgt
      · refine ⟨_, by rw [if_pos hs], ?_⟩
        intro hh
        obtain ⟨b, hb, -, hbt⟩ := mem_kids.1 hh
        exact htT (hbt ▸ List.mem_map.2 ⟨b, hb, rfl⟩)
      · have hsr : a.src = root := by
          rw [h.tgts, List.mem_cons] at h1
          exact h1.resolve_right hs
        obtain ⟨rel, hrel⟩ := Option.isSome_iff_exists.1 hr
        refine ⟨_, by rw [if_neg hs, hsr, hrel]; rfl, ?_⟩
        intro hh
        rcases List.mem_append.1 hh with hh | hh
        · have := hch root rel hrel _ hh
          rw [ht0] at this; cases this
        · obtain ⟨b, hb, -, hbt⟩ := mem_kids.1 hh
          exact htT (hbt ▸ List.mem_map.2 ⟨b, hb, rfl⟩)
    obtain ⟨rel, hrel, hcr⟩ := hrel
    have hro : (w0.build l).relOf a.src = rel := by simp [TreeView.relOf, hrel]
    refine ⟨?_, ?_, ?_, ?_⟩
    · intro v
      rw [hb, TreeView.addEdge_get hst ht (by rw [hro]; exact hcr), hT]
      by_cases hv : v = a.tgt
      · subst hv
        have e1 : a.tgt ∈ (treeArcs l ++ [a]).map Arc.tgt := by simp
        have e2 : par (treeArcs l ++ [a]) a.tgt = some a.src := by
          have : (treeArcs l).find? (fun b => b.tgt = a.tgt) = none := by
            rw [List.find?_eq_none]
            intro b hb hbt
            exact htT (List.mem_map.2 ⟨b, hb, by simpa using hbt⟩)
          simp [par, List.find?_append, this]
        rw [if_pos rfl, if_pos e1, e2, kids_append, hkt]
        simp [kids, hst]
      · rw [if_neg hv]
        have hm : v ∈ (treeArcs l ++ [a]).map Arc.tgt ↔ v ∈ (treeArcs l).map Arc.tgt := by
          simp only [List.map_append, List.map_cons, List.map_nil, List.mem_append, List.mem_singleton, hv, or_false]
        have hp : par (treeArcs l ++ [a]) v = par (treeArcs l) v := by
          simp only [par, List.find?_append]
          cases (treeArcs l).find? (fun b => b.tgt = v) with
          | some b => rfl
          | none => simp [Ne.symm hv]
        by_cases ho : v = a.src
        · rw [if_pos ho, hro]
          have hk : kids (treeArcs l ++ [a]) v = kids (treeArcs l) v ++ [a.tgt] := by
            rw [kids_append]; simp [kids, ho]
          have := i1 v
          rw [ho] at this
          rw [hrel] at this
          rw [ho] at hm hp hk ⊢
          by_cases hs : a.src ∈ (treeArcs l).map Arc.tgt
          · rw [if_pos hs] at this
            rw [if_pos (hm.2 hs), hp, hk]
            rw [Option.some.inj this]
          · rw [if_neg hs] at this
            rw [if_neg (fun h => hs (hm.1 h)), hk]
            obtain ⟨rel0, e0, e1⟩ := Option.map_eq_some_iff.1 this.symm
            rw [e0, ← e1]
            simp
        · rw [if_neg ho, i1]
          have hk : kids (treeArcs l ++ [a]) v = kids (treeArcs l) v := by
            rw [kids_append]; simp [kids, Ne.symm ho]
          rw [hk, hp]
          by_cases hs : v ∈ (treeArcs l).map Arc.tgt
          · rw [if_pos hs, if_pos (hm.2 hs)]
          · rw [if_neg hs, if_neg (fun h => hs (hm.1 h))]
    · rw [hb, grayArcs_append]
      simp only [TreeView.addEdge, i2]
      simp [grayArcs]
    · rw [hb]; simp only [TreeView.addEdge, i3]
    · rw [hb]; simp only [TreeView.addEdge, i4]
  | @gray l a h ih =>
    have hT : treeArcs (l ++ [.grayTarget a]) = treeArcs l := by rw [treeArcs_append]; simp [treeArcs]
    rw [hT] at hnew
    obtain ⟨i1, i2, i3, i4⟩ := ih hnew
    have hb : w0.build (l ++ [.grayTarget a]) = (w0.build l).addCrossEdge a.src a.tgt a.id := by
      simp [TreeView.build, buildStep]
    rw [hb, hT, grayArcs_append]
    refine ⟨i1, ?_, i3, i4⟩
    simp only [TreeView.addCrossEdge, i2, List.map_append, List.append_assoc]
    rfl
  | @black l a h ih =>
    have hT : treeArcs (l ++ [.blackTarget a]) = treeArcs l := by rw [treeArcs_append]; simp [treeArcs]
    rw [hT] at hnew
    obtain ⟨i1, i2, i3, i4⟩ := ih hnew
    have hb : w0.build (l ++ [.blackTarget a]) = w0.build l := by
      simp [TreeView.build, buildStep]
    rw [hb, hT, grayArcs_append]
    refine ⟨i1, ?_, i3, i4⟩
    rw [i2]; simp [grayArcs]

/-! ## which connections are cross edges -/

theorem grayArcs_sublist : ∀ (l : List BfsEv), (grayArcs l).Sublist (arcsOf l) := by
  intro l
  induction l with
  | nil => exact List.Sublist.refl _
  | cons e l ih =>
    cases e with
    | discover v => exact ih
    | treeEdge a => exact List.Sublist.cons _ ih
    | grayTarget a => exact List.Sublist.cons_cons _ ih
    | blackTarget a => exact List.Sublist.cons _ ih

theorem tree_not_gray {a : Arc} : ∀ {l : List BfsEv}, (arcsOf l).Nodup → a ∈ treeArcs l → a ∉ grayArcs l := by
  intro l
  induction l with
  | nil => intro _ h; cases h
  | cons e l ih =>
    cases e with
    | discover v => exact ih
    | treeEdge b =>
      intro hn ht hg
      have hn' : (b :: arcsOf l).Nodup := hn
      have ht' : a ∈ b :: treeArcs l := ht
      have hg' : a ∈ grayArcs l := hg
      rw [List.nodup_cons] at hn'
      rcases List.mem_cons.1 ht' with rfl | ht'
      · exact hn'.1 ((grayArcs_sublist l).subset hg')
      · exact ih hn'.2 ht' hg'
    | grayTarget b =>
      intro hn ht hg
      have hn' : (b :: arcsOf l).Nodup := hn
      have ht' : a ∈ treeArcs l := ht
      have hg' : a ∈ b :: grayArcs l := hg
      rw [List.nodup_cons] at hn'
      rcases List.mem_cons.1 hg' with rfl | hg'
      · exact hn'.1 (mem_arcsOf.2 (Or.inl (mem_treeArcs.1 ht')))
      · exact ih hn'.2 ht' hg'
    | blackTarget b =>
      intro hn ht hg
      have hn' : (b :: arcsOf l).Nodup := hn
      exact ih (List.nodup_cons.1 hn').2 ht hg

/-- Arcs of a graph without self edges whose edges come in pairs, one per direction. -/
structure PairedArcs (out : VId → List Arc) : Prop where
  src : ∀ u, ∀ a ∈ out u, a.src = u
  nodup : ∀ u, (out u).Nodup
  uniq : ∀ u, ∀ a ∈ out u, ∀ b ∈ out u, a.tgt = b.tgt → a = b
  noself : ∀ u, ∀ a ∈ out u, a.tgt ≠ u
  inv : ∀ u, ∀ a ∈ out u, ∃ b ∈ out a.tgt, b.tgt = u

theorem BfsDone.arcs_nodup {out : VId → List Arc} (ho : PairedArcs out) {root : VId} {evs : List BfsEv}
    {lvl : VId → Nat} (h : BfsDone out root evs lvl) : (arcsOf evs).Nodup := by
  rw [h.arcs, List.nodup_flatMap]
  refine ⟨fun x _ => ho.nodup x, ?_⟩
  refine h.nodup.imp ?_
  intro x y hxy
  rw [Function.onFun, List.disjoint_left]
  intro a ha hb
  exact hxy ((ho.src x a ha).symm.trans (ho.src y a hb))

theorem length_one {α : Type} {l : List α} {a : α} (hn : l.Nodup) (ha : a ∈ l) (hu : ∀ b ∈ l, b = a) : l.length = 1 := by
  match l, hn, ha, hu with
  | [_], _, _, _ => rfl
  | x :: y :: l, hn, _, hu =>
    exfalso
    have h1 := hu x (by simp)
    have h2 := hu y (by simp)
    subst h1; subst h2
    simp at hn

/-- the arc joins `u` and `v` -/
def Arc.Joins (a : Arc) (u v : VId) : Prop := (a.src = u ∧ a.tgt = v) ∨ (a.src = v ∧ a.tgt = u)

instance (a : Arc) (u v : VId) : Decidable (a.Joins u v) := by unfold Arc.Joins; infer_instance

theorem Arc.joins_comm {a : Arc} {u v : VId} : a.Joins u v ↔ a.Joins v u := or_comm

/-- A connection between discovered vertices is either one tree edge and no gray edge, or no tree edge and one gray edge. -/
theorem BfsDone.joins {out : VId → List Arc} (ho : PairedArcs out) {root : VId} {evs : List BfsEv} {lvl : VId → Nat}
    (h : BfsDone out root evs lvl) {u : VId} (hu : u ∈ discovered evs) {a : Arc} (ha : a ∈ out u) :
    ((∃ t ∈ treeArcs evs, t.Joins u a.tgt) ∧ (grayArcs evs).filter (fun g => g.Joins u a.tgt) = []) ∨
    ((¬ ∃ t ∈ treeArcs evs, t.Joins u a.tgt) ∧ ((grayArcs evs).filter (fun g => g.Joins u a.tgt)).length = 1) := by
  -- it is enough to look at the direction that starts at the vertex discovered first
  have key : ∀ (u : VId) (a : Arc), u ∈ discovered evs → a ∈ out u →
      (discovered evs).idxOf u < (discovered evs).idxOf a.tgt →
      ((∃ t ∈ treeArcs evs, t.Joins u a.tgt) ∧ (grayArcs evs).filter (fun g => g.Joins u a.tgt) = []) ∨
      ((¬ ∃ t ∈ treeArcs evs, t.Joins u a.tgt) ∧ ((grayArcs evs).filter (fun g => g.Joins u a.tgt)).length = 1) := by
    intro u a hu ha hlt
    have hsrc := ho.src u a ha
    have hin : a ∈ arcsOf evs := by
      rw [h.arcs, List.mem_flatMap]; exact ⟨u, hu, ha⟩
    have hnb : BfsEv.blackTarget a ∉ evs := by
      intro hb
      have := h.black a hb
      rw [hsrc] at this
      omega
    -- a joining tree or gray arc is `a` itself
    have honly : ∀ b, (b ∈ treeArcs evs ∨ b ∈ grayArcs evs) → b.Joins u a.tgt → b = a := by
      intro b hb hj
      have hbo : BfsEv.treeEdge b ∈ evs ∨ BfsEv.grayTarget b ∈ evs := by
        rcases hb with hb | hb
        · exact Or.inl (mem_treeArcs.1 hb)
        · exact Or.inr (mem_grayArcs.1 hb)
      have hbin : b ∈ arcsOf evs := by
        rcases hbo with hb | hb
        · exact mem_arcsOf.2 (Or.inl hb)
        · exact mem_arcsOf.2 (Or.inr (Or.inl hb))
      have hbout := (h.tree_out ho.src hbin).2
      rcases hj with ⟨h1, h2⟩ | ⟨h1, h2⟩
      · rw [h1] at hbout
        exact ho.uniq u b hbout a ha h2
      · exfalso
        have := h.other b hbo
        rw [h1, h2] at this
        omega
    have haJ : a.Joins u a.tgt := Or.inl ⟨hsrc, rfl⟩
    have hgn : (grayArcs evs).Nodup := (grayArcs_sublist evs).nodup (h.arcs_nodup ho)
    rcases mem_arcsOf.1 hin with ht | hg | hb
    · left
      have ht' := mem_treeArcs.2 ht
      refine ⟨⟨a, ht', haJ⟩, ?_⟩
      rw [List.filter_eq_nil_iff]
      intro b hb hj
      have := honly b (Or.inr hb) (by simpa using hj)
      subst this
      exact tree_not_gray (h.arcs_nodup ho) ht' hb
    · right
      have hg' := mem_grayArcs.2 hg
      refine ⟨?_, ?_⟩
      · rintro ⟨t, ht, hj⟩
        have := honly t (Or.inl ht) hj
        subst this
        exact tree_not_gray (h.arcs_nodup ho) ht hg'
      · refine length_one (a := a) (hgn.sublist List.filter_sublist) ?_ ?_
        · rw [List.mem_filter]; exact ⟨hg', by simpa using haJ⟩
        · intro b hb
          rw [List.mem_filter] at hb
          exact honly b (Or.inr hb.1) (by simpa using hb.2)
    · exact absurd hb hnb
  have hne := ho.noself u a ha
  obtain ⟨hv, -⟩ := h.closed u hu a ha
  rcases Nat.lt_trichotomy ((discovered evs).idxOf u) ((discovered evs).idxOf a.tgt) with hlt | heq | hgt
  · exact key u a hu ha hlt
  · exact absurd ((List.idxOf_inj hu).1 heq).symm hne
  · obtain ⟨b, hb, hbt⟩ := ho.inv u a ha
    have := key a.tgt b hv hb (by rw [hbt]; exact hgt)
    rw [hbt] at this
    simpa only [Arc.joins_comm (u := a.tgt) (v := u)] using this

/-! ## a freshly built view -/

section fresh
variable {F E : Type} [FrameProp F] [EdgeProp E]

theorem outArcs_paired {g : G F E} (hw : WF g) (hp : Paired g) : PairedArcs g.outArcs := by
  constructor
  · exact outArcs_src
  · intro u
    have h1 : (g.edges.map ERec.id).Nodup := hw.enodup
    have h2 : (g.edges.filter (fun e => decide (e.src = u))).Nodup := (List.Nodup.of_map _ h1).sublist List.filter_sublist
    refine List.Nodup.map_on ?_ h2
    intro x hx y hy hxy
    have := congrArg Arc.id hxy
    exact map_inj_of_nodup h1 (List.mem_filter.1 hx).1 (List.mem_filter.1 hy).1 this
  · intro u a ha b hb hab
    obtain ⟨e, he, h1, rfl⟩ := mem_outArcs.1 ha
    obtain ⟨e', he', h1', rfl⟩ := mem_outArcs.1 hb
    rw [hp.uniq e he e' he' (h1.trans h1'.symm) hab]
  · intro u a ha
    obtain ⟨e, he, h1, rfl⟩ := mem_outArcs.1 ha
    rw [← h1]
    exact (hp.noself e he).symm
  · intro u a ha
    obtain ⟨e, he, h1, rfl⟩ := mem_outArcs.1 ha
    obtain ⟨e', he', h2, h3, -⟩ := hp.inv e he
    exact ⟨e'.arc, mem_outArcs.2 ⟨e', he', h2, rfl⟩, h3.trans h1⟩

theorem adj_iff_arcs {g : G F E} {x y : VId} : g.Adj x y ↔ Arcs g.outArcs x y := by
  constructor
  · rintro ⟨e, he, h1, h2⟩; exact ⟨e.arc, mem_outArcs.2 ⟨e, he, h1, rfl⟩, h2⟩
  · rintro ⟨a, ha, h⟩
    obtain ⟨e, he, h1, rfl⟩ := mem_outArcs.1 ha
    exact ⟨e, he, h1, h⟩

/-- a search discovers exactly what can be reached along the arcs -/
theorem BfsDone.mem_iff {out : VId → List Arc} (hout : ∀ u, ∀ a ∈ out u, a.src = u) {root : VId} {evs : List BfsEv}
    {lvl : VId → Nat} (h : BfsDone out root evs lvl) {v : VId} :
    v ∈ discovered evs ↔ Relation.ReflTransGen (Arcs out) root v := by
  constructor
  · intro hv
    obtain ⟨path, hp, -, -⟩ := h.good.path v hv
    have hc := h.tree_walk hout hp
    have : ∀ (p : List VId) (r : VId), p.IsChain (Arcs out) → p.head? = some r → p.getLast? = some v →
        Relation.ReflTransGen (Arcs out) r v := by
      intro p
      induction p with
      | nil => intro r _ h; cases h
      | cons x p ih =>
        intro r hc hh hl
        obtain rfl : x = r := by simpa using hh
        cases p with
        | nil =>
          obtain rfl : x = v := by simpa using hl
          exact .refl
        | cons y p =>
          obtain ⟨c1, c2⟩ := List.isChain_cons_cons.1 hc
          rw [List.getLast?_cons_cons] at hl
          exact .head c1 (ih y c2 rfl hl)
    exact this path root hc hp.head hp.last
  · intro hr
    induction hr with
    | refl => exact h.good.root_mem
    | tail _ hxy ih =>
      obtain ⟨a, ha, rfl⟩ := hxy
      exact (h.closed _ ih a ha).1

/-- the tree part of a built view, in closed form -/
theorem getTreeInto_get {root : VId} {evs : List BfsEv} {lvl : VId → Nat} (h : Good root lvl evs) (v : VId) :
    ((TreeView.empty.addRoot root).build evs).tree.get v =
      if v ∈ discovered evs then some ⟨par (treeArcs evs) v, kids (treeArcs evs) v⟩ else none := by
  have hroot : ∀ v, (TreeView.empty.addRoot root).tree.get v = if root = v then some ⟨none, []⟩ else none := by
    intro v
    simp only [TreeView.addRoot, AMap.get_set]
    rfl
  have hn := h.nodup
  rw [h.tgts, List.nodup_cons] at hn
  obtain ⟨h1, -, -, -⟩ := h.build (w0 := TreeView.empty.addRoot root) (by rw [hroot]; simp)
    (by intro v hv; rw [hroot, if_neg]; rintro rfl; exact hn.1 hv)
    (by intro v rel hv c hc; rw [hroot] at hv; split at hv <;> simp at hv; subst hv; simp at hc)
  rw [h1, hroot, h.tgts]
  by_cases hv : v ∈ (treeArcs evs).map Arc.tgt
  · rw [if_pos hv, if_pos (List.mem_cons_of_mem _ hv)]
  · rw [if_neg hv]
    by_cases hr : root = v
    · subst hr
      rw [if_pos rfl, if_pos (by simp), par_none.2 hn.1]
      simp
    · rw [if_neg hr, if_neg (by simp only [List.mem_cons, not_or]; exact ⟨Ne.symm hr, hv⟩)]
      rfl

theorem getTreeInto_cross {root : VId} {evs : List BfsEv} {lvl : VId → Nat} (h : Good root lvl evs) :
    ((TreeView.empty.addRoot root).build evs).crossEdges = (grayArcs evs).map (fun a => ⟨a.src, a.tgt, a.id⟩) ∧
    ((TreeView.empty.addRoot root).build evs).root = some root ∧
    ((TreeView.empty.addRoot root).build evs).publisher = false := by
  have hroot : ∀ v, (TreeView.empty.addRoot root).tree.get v = if root = v then some ⟨none, []⟩ else none := by
    intro v
    simp only [TreeView.addRoot, AMap.get_set]
    rfl
  have hn := h.nodup
  rw [h.tgts, List.nodup_cons] at hn
  obtain ⟨-, h1, h2, h3⟩ := h.build (w0 := TreeView.empty.addRoot root) (by rw [hroot]; simp)
    (by intro v hv; rw [hroot, if_neg]; rintro rfl; exact hn.1 hv)
    (by intro v rel hv c hc; rw [hroot] at hv; split at hv <;> simp at hv; subst hv; simp at hc)
  exact ⟨h1.trans rfl, h2.trans rfl, h3.trans rfl⟩

theorem filter_map_joins (l : List Arc) (u v : VId) :
    (l.map (fun a => (⟨a.src, a.tgt, a.id⟩ : CrossEdge))).filter (fun c => c.Joins u v) =
    (l.filter (fun a => a.Joins u v)).map (fun a => (⟨a.src, a.tgt, a.id⟩ : CrossEdge)) := by
  rw [List.filter_map]
  rfl

theorem Good.par_iff {root : VId} {evs : List BfsEv} {lvl : VId → Nat} (h : Good root lvl evs) {v p : VId} :
    par (treeArcs evs) v = some p ↔ ∃ a ∈ treeArcs evs, a.tgt = v ∧ a.src = p := by
  have hn := h.nodup
  rw [h.tgts, List.nodup_cons] at hn
  exact par_some hn.2

theorem built_parentOf {root : VId} {evs : List BfsEv} {lvl : VId → Nat} (h : Good root lvl evs) (v : VId) :
    ((TreeView.empty.addRoot root).build evs).parentOf v = par (treeArcs evs) v := by
  simp only [TreeView.parentOf, getTreeInto_get h]
  by_cases hv : v ∈ discovered evs
  · rw [if_pos hv]; rfl
  · rw [if_neg hv]
    symm
    rw [Option.bind_none, par_none]
    intro hh
    exact hv (h.tgts ▸ List.mem_cons_of_mem _ hh)

/-- A view built by a complete search is correct. -/
theorem built_isTreeView {g : G F E} (hw : WF g) (hp : Paired g) {root : VId} {evs : List BfsEv}
    {lvl : VId → Nat} (h : BfsDone g.outArcs root evs lvl) :
    IsTreeView g root ((TreeView.empty.addRoot root).build evs) := by
  have ho := outArcs_paired hw hp
  have hget := getTreeInto_get h.good
  have hpar := built_parentOf h.good
  obtain ⟨hcross, hroot, -⟩ := getTreeInto_cross h.good
  have hreach : ∀ v, g.Reach root v ↔ v ∈ discovered evs := by
    intro v
    rw [h.mem_iff ho.src, G.Reach]
    have : g.Adj = Arcs g.outArcs := by funext x y; exact propext adj_iff_arcs
    rw [this]
  have hin : ∀ v, ((TreeView.empty.addRoot root).build evs).vertexExists v = true ↔ v ∈ discovered evs := by
    intro v
    rw [TreeView.vertexExists, hget]
    by_cases hv : v ∈ discovered evs <;> simp [hv]
  have htree : ∀ u v, ((TreeView.empty.addRoot root).build evs).TreeEdge u v ↔ ∃ t ∈ treeArcs evs, t.Joins u v := by
    intro u v
    rw [TreeView.TreeEdge, hpar, hpar, h.good.par_iff, h.good.par_iff]
    constructor
    · rintro (⟨a, h1, h2, h3⟩ | ⟨a, h1, h2, h3⟩)
      · exact ⟨a, h1, Or.inr ⟨h3, h2⟩⟩
      · exact ⟨a, h1, Or.inl ⟨h3, h2⟩⟩
    · rintro ⟨a, h1, ⟨h2, h3⟩ | ⟨h2, h3⟩⟩
      · exact Or.inr ⟨a, h1, h3, h2⟩
      · exact Or.inl ⟨a, h1, h3, h2⟩
  refine ⟨hroot, ?_, ?_, ?_, ?_, ⟨lvl, ?_⟩, ?_, ?_, ?_⟩
  · intro v; rw [hin, hreach]
  · rw [hpar, par_none]
    intro hh
    obtain ⟨a, ha, h1⟩ := List.mem_map.1 hh
    exact (h.good.tree_arc ha).2.2.1 h1
  · intro v hv hne
    rw [hin, h.good.tgts, List.mem_cons] at hv
    obtain ⟨a, ha, rfl⟩ := List.mem_map.1 (hv.resolve_left hne)
    refine ⟨a.src, by rw [hpar, h.good.par_iff]; exact ⟨a, ha, rfl, rfl⟩, ?_⟩
    exact adj_iff_arcs.2 ⟨a, (h.tree_out ho.src (mem_arcsOf.2 (Or.inl (mem_treeArcs.1 ha)))).2, rfl⟩
  · intro p rel hrel
    rw [hget] at hrel
    by_cases hv : p ∈ discovered evs
    · rw [if_pos hv] at hrel
      obtain rfl := Option.some.inj hrel
      constructor
      · have hn := h.nodup
        rw [h.good.tgts, List.nodup_cons] at hn
        exact hn.2.sublist (List.filter_sublist.map _)
      · intro c
        rw [hpar, h.good.par_iff, mem_kids]
        constructor
        · rintro ⟨a, h1, h2, h3⟩; exact ⟨a, h1, h3, h2⟩
        · rintro ⟨a, h1, h2, h3⟩; exact ⟨a, h1, h3, h2⟩
    · rw [if_neg hv] at hrel; cases hrel
  · intro v p hvp
    rw [hpar, h.good.par_iff] at hvp
    obtain ⟨a, ha, rfl, rfl⟩ := hvp
    exact (h.good.tree_arc ha).2.2.2
  · intro c hc
    rw [hcross] at hc
    obtain ⟨a, ha, rfl⟩ := List.mem_map.1 hc
    obtain ⟨h1, h2⟩ := h.tree_out ho.src (mem_arcsOf.2 (Or.inr (Or.inl (mem_grayArcs.1 ha))))
    obtain ⟨e, he, h3, rfl⟩ := mem_outArcs.1 h2
    exact ⟨e, he, rfl, rfl, rfl, (hreach _).2 h1⟩
  · intro u v huv hu ht
    obtain ⟨a, ha, rfl⟩ := adj_iff_arcs.1 huv
    rw [htree] at ht
    rw [hcross, filter_map_joins]
    rcases h.joins ho ((hreach _).1 hu) ha with ⟨-, h2⟩ | ⟨h1, -⟩
    · rw [h2]; rfl
    · exact absurd ht h1
  · intro u v huv hu ht
    obtain ⟨a, ha, rfl⟩ := adj_iff_arcs.1 huv
    rw [htree] at ht
    rw [hcross, filter_map_joins, List.length_map]
    rcases h.joins ho ((hreach _).1 hu) ha with ⟨h1, -⟩ | ⟨-, h2⟩
    · exact absurd h1 ht
    · exact h2

end fresh

end Verif

namespace Verif
open GS TreeView
variable {F E : Type} [FrameProp F] [EdgeProp E]

theorem getTreeFresh_eq {s : GS F E} (hw : WF s.g) {r : FrameId} {u : VId} (hr : s.g.vertexOf r = some u) :
    ∃ evs lvl, BfsDone s.g.outArcs u evs lvl ∧ getTreeFresh r s = .ok ((TreeView.empty.addRoot u).build evs) s := by
  obtain ⟨evs, lvl, h1, h2⟩ := searchEvents_done hw (hw.live hr)
  exact ⟨evs, lvl, h2, by simp [getTreeFresh, hr, getTreeInto, h1]⟩

theorem chain_reverse {α : Type} {R : α → α → Prop} {l : List α} (h : l.IsChain R) : l.reverse.IsChain (fun x y => R y x) := by
  rw [List.isChain_reverse]; exact h

/-- the way along the parents is the tree path, reversed -/
theorem built_parent_path {root v : VId} {evs : List BfsEv} {lvl : VId → Nat} (h : Good root lvl evs) {p : List VId}
    (hp : TreePath root v (treeArcs evs) p) :
    IsPath (fun x y => ((TreeView.empty.addRoot root).build evs).parentOf x = some y) v root p.reverse := by
  refine ⟨by rw [List.head?_reverse, hp.last], by rw [List.getLast?_reverse, hp.head], ?_⟩
  refine (chain_reverse hp.chain).imp ?_
  rintro x y ⟨a, ha, rfl, rfl⟩
  rw [built_parentOf h, h.par_iff]
  exact ⟨a, ha, rfl, rfl⟩

/-- a way along parents whose rank decreases by one has a fixed length -/
theorem parent_path_length {α : Type} {P : α → α → Prop} {d : α → Nat} (hd : ∀ x y, P x y → d x = d y + 1) :
    ∀ {l : List α} {a b : α}, IsPath P a b l → l.length = d a - d b + 1 ∧ d b ≤ d a := by
  intro l
  induction l with
  | nil => intro a b h; cases h.first
  | cons x l ih =>
    intro a b h
    obtain rfl : x = a := by simpa using h.first
    cases l with
    | nil =>
      obtain rfl : x = b := by simpa using h.last
      simp
    | cons y l =>
      obtain ⟨c1, c2⟩ := List.isChain_cons_cons.1 h.steps
      have hl := h.last
      rw [List.getLast?_cons_cons] at hl
      obtain ⟨i1, i2⟩ := ih (a := y) ⟨rfl, hl, c2⟩
      have := hd x y c1
      simp only [List.length_cons] at i1 ⊢
      omega

end Verif
