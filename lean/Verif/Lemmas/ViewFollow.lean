import Verif.Lemmas.ViewBuild

set_option linter.unusedSectionVars false
set_option linter.unusedSimpArgs false
/-! A correct view stays correct when a pair of edges is added. -/

namespace Verif
open GS TreeView
variable {F E : Type} [FrameProp F] [EdgeProp E]

theorem IsTreeView.of_edges {g g' : G F E} {root : VId} {w : TreeView} (h : IsTreeView g root w) (he : g'.edges = g.edges) :
    IsTreeView g' root w := by
  have ha : g'.Adj = g.Adj := by funext x y; simp only [G.Adj, he]
  have hr : g'.Reach = g.Reach := by unfold G.Reach; rw [ha]
  refine ⟨h.root_eq, ?_, h.root_parent, ?_, h.children, h.rank, ?_, ?_, ?_⟩
  · rw [hr]; exact h.span
  · rw [ha]; exact h.parent
  · rw [hr, he]; exact h.cross_edge
  · rw [hr, ha]; exact h.tree_not_cross
  · rw [hr, ha]; exact h.cross_once

/-- only these parts of the view matter -/
theorem IsTreeView.of_view {g : G F E} {root : VId} {w w' : TreeView} (h : IsTreeView g root w) (h1 : w'.tree = w.tree)
    (h2 : w'.crossEdges = w.crossEdges) (h3 : w'.root = w.root) : IsTreeView g root w' := by
  cases w; cases w'
  simp only at h1 h2 h3
  subst h1; subst h2; subst h3
  exact ⟨h.root_eq, h.span, h.root_parent, h.parent, h.children, h.rank, h.cross_edge, h.tree_not_cross, h.cross_once⟩

theorem IsTreeView.parent_adj {g : G F E} {root : VId} {w : TreeView} (h : IsTreeView g root w) {v p : VId}
    (hp : w.parentOf v = some p) : g.Adj p v ∧ w.vertexExists v = true := by
  have hin : w.vertexExists v = true := by
    unfold TreeView.parentOf at hp
    unfold TreeView.vertexExists
    cases hg : w.tree.get v with
    | none => simp [hg] at hp
    | some r => rfl
  have hne : v ≠ root := by rintro rfl; rw [h.root_parent] at hp; cases hp
  obtain ⟨q, hq, ha⟩ := h.parent v hin hne
  rw [hp] at hq
  obtain rfl := Option.some.inj hq
  exact ⟨ha, hin⟩

theorem G.Adj.symm {g : G F E} (hp : Paired g) {x y : VId} (h : g.Adj x y) : g.Adj y x := by
  obtain ⟨e, he, h1, h2⟩ := h
  obtain ⟨e', he', h3, h4, -⟩ := hp.inv e he
  exact ⟨e', he', h3.trans h2, h4.trans h1⟩

theorem G.Reach.symm {g : G F E} (hp : Paired g) {x y : VId} (h : g.Reach x y) : g.Reach y x := by
  induction h with
  | refl => exact .refl
  | tail _ hxy ih => exact .head (hxy.symm hp) ih

theorem G.Reach.mono {g g2 : G F E} (h : ∀ x y, g.Adj x y → g2.Adj x y) {x y : VId} (hr : g.Reach x y) : g2.Reach x y := by
  induction hr with
  | refl => exact .refl
  | tail _ hxy ih => exact .tail ih (h _ _ hxy)

theorem IsTreeView.root_in {g : G F E} {root : VId} {w : TreeView} (h : IsTreeView g root w) : w.vertexExists root = true :=
  (h.span root).2 .refl

theorem IsTreeView.parent_in {g : G F E} (hp : Paired g) {root : VId} {w : TreeView} (h : IsTreeView g root w) {v p : VId}
    (hvp : w.parentOf v = some p) : w.vertexExists p = true := by
  obtain ⟨h1, h2⟩ := h.parent_adj hvp
  exact (h.span p).2 (.tail ((h.span v).1 h2) (h1.symm hp))

/-- `g2` is `g` with one more connection, between vertices that were not connected -/
structure AddedPair (g g2 : G F E) (e e' : ERec E) : Prop where
  edges : g2.edges = g.edges ++ [e, e']
  verts : g2.verts = g.verts
  ids : ∀ x ∈ g.edges, x.id ≠ e.id ∧ x.id ≠ e'.id
  src : e'.src = e.tgt
  tgt : e'.tgt = e.src
  ne : e.src ≠ e.tgt
  fresh : ¬ g.Adj e.src e.tgt ∧ ¬ g.Adj e.tgt e.src
  live : Live g e.src ∧ Live g e.tgt

theorem AddedPair.adj {g g2 : G F E} {e e' : ERec E} (h : AddedPair g g2 e e') {x y : VId} :
    g2.Adj x y ↔ g.Adj x y ∨ (x = e.src ∧ y = e.tgt) ∨ (x = e.tgt ∧ y = e.src) := by
  simp only [G.Adj, h.edges, List.mem_append, List.mem_cons, List.not_mem_nil, or_false]
  constructor
  · rintro ⟨r, hr | rfl | rfl, rfl, rfl⟩
    · exact Or.inl ⟨r, hr, rfl, rfl⟩
    · exact Or.inr (Or.inl ⟨rfl, rfl⟩)
    · exact Or.inr (Or.inr ⟨h.src, h.tgt⟩)
  · rintro (⟨r, hr, h1, h2⟩ | ⟨rfl, rfl⟩ | ⟨rfl, rfl⟩)
    · exact ⟨r, Or.inl hr, h1, h2⟩
    · exact ⟨e, Or.inr (Or.inl rfl), rfl, rfl⟩
    · exact ⟨e', Or.inr (Or.inr rfl), h.src, h.tgt⟩

theorem AddedPair.swap {g g2 : G F E} {e e' : ERec E} (h : AddedPair g g2 e e') : 
    (∀ {x y : VId}, g2.Adj x y ↔ g.Adj x y ∨ (x = e'.src ∧ y = e'.tgt) ∨ (x = e'.tgt ∧ y = e'.src)) := by
  intro x y
  rw [h.adj, h.src, h.tgt]
  tauto

theorem joins_adj {g : G F E} (hp : Paired g) {root : VId} {w : TreeView} (h : IsTreeView g root w) {c : CrossEdge}
    (hc : c ∈ w.crossEdges) {u v : VId} (hj : c.Joins u v) :
    g.Adj u v ∧ g.Adj v u ∧ w.vertexExists u = true ∧ w.vertexExists v = true := by
  obtain ⟨e, he, -, h2, h3, h4⟩ := h.cross_edge c hc
  have ha : g.Adj e.src e.tgt := ⟨e, he, rfl, rfl⟩
  have h5 := (h.span _).2 h4
  have h6 := (h.span _).2 (h4.tail ha)
  rcases hj with ⟨rfl, rfl⟩ | ⟨rfl, rfl⟩
  · rw [← h2, ← h3]; exact ⟨ha, ha.symm hp, h5, h6⟩
  · rw [← h2, ← h3]; exact ⟨ha.symm hp, ha, h6, h5⟩

/-- both ends are in the view: the new connection becomes a cross edge -/
theorem IsTreeView.add_inside {g g2 : G F E} {e e' : ERec E} (hp : Paired g) (ha : AddedPair g g2 e e') {root : VId}
    {w : TreeView} (h : IsTreeView g root w) (h1 : w.vertexExists e.src = true) (h2 : w.vertexExists e.tgt = true) :
    IsTreeView g2 root (w.addCrossEdge e.src e.tgt e.id) := by
  have hr : ∀ v, g2.Reach root v ↔ g.Reach root v := by
    intro v
    constructor
    · intro hv
      induction hv with
      | refl => exact .refl
      | tail _ hxy ih =>
        rcases ha.adj.1 hxy with hxy | ⟨-, rfl⟩ | ⟨-, rfl⟩
        · exact ih.tail hxy
        · exact (h.span _).1 h2
        · exact (h.span _).1 h1
    · intro hv
      exact hv.mono (fun x y hxy => ha.adj.2 (Or.inl hxy))
  have hnt : ∀ u v, w.TreeEdge u v → g.Adj u v := by
    rintro u v (ht | ht)
    · exact (h.parent_adj ht).1.symm hp
    · exact (h.parent_adj ht).1
  have hte : ∀ u v, (w.addCrossEdge e.src e.tgt e.id).TreeEdge u v ↔ w.TreeEdge u v := fun u v => Iff.rfl
  have hfilt : ∀ u v, (w.addCrossEdge e.src e.tgt e.id).crossEdges.filter (fun c => c.Joins u v) =
      w.crossEdges.filter (fun c => c.Joins u v) ++
        (if (⟨e.src, e.tgt, e.id⟩ : CrossEdge).Joins u v then [⟨e.src, e.tgt, e.id⟩] else []) := by
    intro u v
    simp only [TreeView.addCrossEdge, List.filter_append, List.filter_cons, List.filter_nil, decide_eq_true_eq]
  have hnj : ∀ u v, g.Adj u v → ¬ (⟨e.src, e.tgt, e.id⟩ : CrossEdge).Joins u v := by
    rintro u v huv (⟨rfl, rfl⟩ | ⟨rfl, rfl⟩)
    · exact ha.fresh.1 huv
    · exact ha.fresh.2 huv
  have hnew : ∀ u v, (u = e.src ∧ v = e.tgt) ∨ (u = e.tgt ∧ v = e.src) → ¬ w.TreeEdge u v := by
    rintro u v (⟨rfl, rfl⟩ | ⟨rfl, rfl⟩) ht
    · exact ha.fresh.1 (hnt _ _ ht)
    · exact ha.fresh.2 (hnt _ _ ht)
  refine ⟨h.root_eq, ?_, h.root_parent, ?_, h.children, h.rank, ?_, ?_, ?_⟩
  · intro v; rw [hr]; exact h.span v
  · intro v hv hne
    obtain ⟨p, h3, h4⟩ := h.parent v hv hne
    exact ⟨p, h3, ha.adj.2 (Or.inl h4)⟩
  · intro c hc
    simp only [TreeView.addCrossEdge, List.mem_append, List.mem_singleton] at hc
    rcases hc with hc | rfl
    · obtain ⟨x, hx, h3, h4, h5, h6⟩ := h.cross_edge c hc
      exact ⟨x, by rw [ha.edges]; exact List.mem_append_left _ hx, h3, h4, h5, (hr _).2 h6⟩
    · exact ⟨e, by rw [ha.edges]; simp, rfl, rfl, rfl, (hr _).2 ((h.span _).1 h1)⟩
  · intro u v huv hu ht
    rw [hte] at ht
    rw [hfilt]
    rcases ha.adj.1 huv with h3 | h3
    · rw [h.tree_not_cross u v h3 ((hr _).1 hu) ht, if_neg (hnj u v h3)]; rfl
    · exact absurd ht (hnew u v h3)
  · intro u v huv hu ht
    rw [hte] at ht
    rw [hfilt, List.length_append]
    rcases ha.adj.1 huv with h3 | h3
    · rw [h.cross_once u v h3 ((hr _).1 hu) ht, if_neg (hnj u v h3)]; rfl
    · have : w.crossEdges.filter (fun c => c.Joins u v) = [] := by
        rw [List.filter_eq_nil_iff]
        intro c hc hj
        have := joins_adj hp h hc (by simpa using hj)
        rcases h3 with ⟨rfl, rfl⟩ | ⟨rfl, rfl⟩
        · exact ha.fresh.1 this.1
        · exact ha.fresh.2 this.1
      rw [this, if_pos]
      · rfl
      · rcases h3 with ⟨rfl, rfl⟩ | ⟨rfl, rfl⟩
        · exact Or.inl ⟨rfl, rfl⟩
        · exact Or.inr ⟨rfl, rfl⟩

theorem build_no_arcs : ∀ (evs : List BfsEv) (w : TreeView), arcsOf evs = [] → w.build evs = w := by
  intro evs
  induction evs with
  | nil => intro w _; rfl
  | cons e evs ih =>
    intro w h
    cases e with
    | discover v => exact ih w h
    | treeEdge a => cases h
    | grayTarget a => cases h
    | blackTarget a => cases h

/-- one end is in the view: the component of the other end is attached below it -/
theorem IsTreeView.add_outside {g g2 : G F E} (hw : WF g) (hp : Paired g) {i n : VId} {root : VId} {w : TreeView}
    (hadj : ∀ {x y : VId}, g2.Adj x y ↔ g.Adj x y ∨ (x = i ∧ y = n) ∨ (x = n ∧ y = i))
    (hsub : ∀ e ∈ g.edges, e ∈ g2.edges) (h : IsTreeView g root w) (hi : w.vertexExists i = true)
    (hn : w.vertexExists n = false) {evs : List BfsEv} {lvl : VId → Nat} (hd : BfsDone g.outArcs n evs lvl) :
    IsTreeView g2 root ((w.addEdge i n).build evs) ∧ ((w.addEdge i n).build evs).publisher = w.publisher := by
  have ho := outArcs_paired hw hp
  have hAdj : g.Adj = Arcs g.outArcs := by funext x y; exact propext adj_iff_arcs
  have hD : ∀ v, v ∈ discovered evs ↔ g.Reach n v := by
    intro v; rw [hd.mem_iff ho.src, G.Reach, hAdj]
  have hin : i ≠ n := by rintro rfl; rw [hi] at hn; cases hn
  -- the new component is disjoint from the view
  have hdis : ∀ v, v ∈ discovered evs → w.vertexExists v = false := by
    intro v hv
    by_contra hh
    have h1 : g.Reach root v := (h.span v).1 (by simpa using hh)
    have h2 : g.Reach root n := Relation.ReflTransGen.trans h1 (((hD v).1 hv).symm hp)
    rw [(h.span n).2 h2] at hn
    cases hn
  have hdis' : ∀ v, w.vertexExists v = true → v ∉ discovered evs := by
    intro v hv hh; rw [hdis v hh] at hv; cases hv
  have hnone : ∀ v, w.vertexExists v = false → w.tree.get v = none := by
    intro v hv; simpa [TreeView.vertexExists] using hv
  have hsome : ∀ v rel, w.tree.get v = some rel → w.vertexExists v = true := by
    intro v rel hv; simp [TreeView.vertexExists, hv]
  have hpof : ∀ v rel, w.tree.get v = some rel → w.parentOf v = rel.parent := by
    intro v rel hv; simp [TreeView.parentOf, hv]
  have hchin : ∀ v rel, w.tree.get v = some rel → ∀ c ∈ rel.children, w.vertexExists c = true := by
    intro v rel hv c hc
    exact (h.parent_adj (((h.children v rel hv).2 c).1 hc)).2
  obtain ⟨reli, hreli⟩ : ∃ rel, w.tree.get i = some rel := by
    simpa [TreeView.vertexExists, Option.isSome_iff_exists] using hi
  have hro : w.relOf i = reli := by simp [TreeView.relOf, hreli]
  have hni : n ∉ reli.children := by
    intro hh; rw [hchin i reli hreli n hh] at hn; cases hn
  have hg1 := TreeView.addEdge_get (w := w) hin (hnone n hn) (by rw [hro]; exact hni)
  rw [hro] at hg1
  -- facts about the searched component
  have hnd := hd.nodup
  rw [hd.good.tgts, List.nodup_cons] at hnd
  have hTD : ∀ v, v ∈ (treeArcs evs).map Arc.tgt → v ∈ discovered evs := by
    intro v hv; rw [hd.good.tgts]; exact List.mem_cons_of_mem _ hv
  have hTn : ∀ v, v ∈ (treeArcs evs).map Arc.tgt → v ≠ n := by rintro v hv rfl; exact hnd.1 hv
  have hDT : ∀ v, v ∈ discovered evs ↔ v = n ∨ v ∈ (treeArcs evs).map Arc.tgt := by
    intro v; rw [hd.good.tgts, List.mem_cons]
  have hkD : ∀ v, v ∉ discovered evs → kids (treeArcs evs) v = [] := by
    intro v hv
    rw [List.eq_nil_iff_forall_not_mem]
    intro c hc
    obtain ⟨b, hb, hbs, -⟩ := mem_kids.1 hc
    exact hv (hbs ▸ (hd.good.tree_arc hb).1)
  obtain ⟨b1, b2, b3, b4⟩ := hd.good.build (w0 := w.addEdge i n)
    (by rw [hg1, if_pos rfl]; rfl)
    (by
      intro v hv
      have h1 := hdis v (hTD v hv)
      rw [hg1, if_neg (hTn v hv), if_neg (by rintro rfl; rw [hi] at h1; cases h1)]
      exact hnone v h1)
    (by
      intro v rel hv c hc
      have hex : ∀ c, w.vertexExists c = true ∨ c = n → ((w.addEdge i n).tree.get c).isSome := by
        intro c hc
        rw [hg1]
        by_cases hcn : c = n
        · rw [if_pos hcn]; rfl
        · rw [if_neg hcn]
          by_cases hci : c = i
          · rw [if_pos hci]; rfl
          · rw [if_neg hci]; exact hc.resolve_right hcn
      apply hex
      rw [hg1] at hv
      split at hv
      · cases hv; simp at hc
      · split at hv
        · cases hv
          rcases List.mem_append.1 hc with hc | hc
          · exact Or.inl (hchin i reli hreli c hc)
          · exact Or.inr (by simpa using hc)
        · exact Or.inl (hchin v rel hv c hc))
  generalize hw2 : (w.addEdge i n).build evs = w2 at b1 b2 b3 b4
  -- closed form
  have hget : ∀ v, w2.tree.get v = if v ∈ (treeArcs evs).map Arc.tgt then some ⟨par (treeArcs evs) v, kids (treeArcs evs) v⟩
      else if v = n then some ⟨some i, kids (treeArcs evs) n⟩
      else if v = i then some ⟨reli.parent, reli.children ++ [n]⟩ else w.tree.get v := by
    intro v
    rw [b1, hg1]
    split
    · rfl
    · rename_i hvT
      split
      · rename_i hvn; rw [hvn]; rfl
      · rename_i hvn
        have hk : kids (treeArcs evs) v = [] := hkD v (by rw [hDT]; rintro (h1 | h1); exact hvn h1; exact hvT h1)
        split
        · simp [hk]
        · rw [hk]
          cases w.tree.get v <;> simp
  have hex2 : ∀ v, w2.vertexExists v = true ↔ w.vertexExists v = true ∨ v ∈ discovered evs := by
    intro v
    rw [TreeView.vertexExists, hget, hDT]
    by_cases h1 : v ∈ (treeArcs evs).map Arc.tgt
    · simp [h1]
    · rw [if_neg h1]
      by_cases h2 : v = n
      · simp [h2]
      · rw [if_neg h2]
        by_cases h3 : v = i
        · rw [if_pos h3, h3, hi]; simp
        · rw [if_neg h3]
          simp only [h1, h2, or_false]
          rfl
  have hparI : ∀ v, w.vertexExists v = true → w2.parentOf v = w.parentOf v := by
    intro v hv
    have h0 := hdis' v hv
    rw [hDT] at h0
    push Not at h0
    unfold TreeView.parentOf
    rw [hget, if_neg h0.2, if_neg h0.1]
    by_cases h3 : v = i
    · rw [if_pos h3, h3, hreli]; rfl
    · rw [if_neg h3]
  have hparN : w2.parentOf n = some i := by
    unfold TreeView.parentOf
    rw [hget, if_neg hnd.1, if_pos rfl]; rfl
  have hparT : ∀ v, v ∈ (treeArcs evs).map Arc.tgt → w2.parentOf v = par (treeArcs evs) v := by
    intro v hv
    unfold TreeView.parentOf
    rw [hget, if_pos hv]; rfl
  have hparO : ∀ v, w2.vertexExists v = false → w2.parentOf v = none := by
    intro v hv
    unfold TreeView.parentOf
    have : w2.tree.get v = none := by simpa [TreeView.vertexExists] using hv
    rw [this]; rfl
  -- the parent in all cases
  have hpar2 : ∀ v p, w2.parentOf v = some p ↔ (w.parentOf v = some p) ∨ (v = n ∧ p = i) ∨
      (∃ a ∈ treeArcs evs, a.tgt = v ∧ a.src = p) := by
    intro v p
    have hold : w.parentOf v = some p → w.vertexExists v = true := fun hh => (h.parent_adj hh).2
    have htr : (∃ a ∈ treeArcs evs, a.tgt = v ∧ a.src = p) → v ∈ (treeArcs evs).map Arc.tgt := by
      rintro ⟨a, ha, h1, -⟩; exact List.mem_map.2 ⟨a, ha, h1⟩
    by_cases h1 : w.vertexExists v = true
    · rw [hparI v h1]
      have h0 := hdis' v h1
      rw [hDT] at h0
      push Not at h0
      constructor
      · exact Or.inl
      · rintro (hh | ⟨hh, -⟩ | hh)
        · exact hh
        · exact absurd hh h0.1
        · exact absurd (htr hh) h0.2
    · by_cases h2 : v ∈ (treeArcs evs).map Arc.tgt
      · rw [hparT v h2, hd.good.par_iff]
        constructor
        · exact fun hh => Or.inr (Or.inr hh)
        · rintro (hh | ⟨hh, -⟩ | hh)
          · exact absurd (hold hh) h1
          · exact absurd hh (hTn v h2)
          · exact hh
      · by_cases h3 : v = n
        · subst h3
          rw [hparN]
          constructor
          · intro hh; exact Or.inr (Or.inl ⟨rfl, (Option.some.inj hh).symm⟩)
          · rintro (hh | ⟨-, hh⟩ | hh)
            · exact absurd (hold hh) h1
            · rw [hh]
            · exact absurd (htr hh) h2
        · have h4 : w2.vertexExists v = false := by
            rw [Bool.eq_false_iff, Ne, hex2, hDT]
            rintro (hh | hh | hh)
            · exact h1 hh
            · exact h3 hh
            · exact h2 hh
          rw [hparO v h4]
          constructor
          · intro hh; cases hh
          · rintro (hh | ⟨hh, -⟩ | hh)
            · exact absurd (hold hh) h1
            · exact absurd hh h3
            · exact absurd (htr hh) h2
  have hadjT : ∀ a ∈ treeArcs evs, g.Adj a.src a.tgt := by
    intro a ha
    exact adj_iff_arcs.2 ⟨a, (hd.tree_out ho.src (mem_arcsOf.2 (Or.inl (mem_treeArcs.1 ha)))).2, rfl⟩
  have hclI : ∀ u v, g.Adj u v → w.vertexExists u = true → w.vertexExists v = true := by
    intro u v huv hu
    exact (h.span v).2 (((h.span u).1 hu).tail huv)
  have hclD : ∀ u v, g.Adj u v → u ∈ discovered evs → v ∈ discovered evs := by
    intro u v huv hu
    exact (hD v).2 (((hD u).1 hu).tail huv)
  have hreach : ∀ v, g2.Reach root v ↔ w.vertexExists v = true ∨ v ∈ discovered evs := by
    intro v
    constructor
    · intro hv
      induction hv with
      | refl => exact Or.inl h.root_in
      | tail _ hxy ih =>
        rcases hadj.1 hxy with hxy | ⟨-, rfl⟩ | ⟨-, rfl⟩
        · rcases ih with ih | ih
          · exact Or.inl (hclI _ _ hxy ih)
          · exact Or.inr (hclD _ _ hxy ih)
        · exact Or.inr hd.good.root_mem
        · exact Or.inl hi
    · have hmono : ∀ x y, g.Reach x y → g2.Reach x y := fun x y hxy =>
        hxy.mono (fun x y hxy => hadj.2 (Or.inl hxy))
      rintro (hv | hv)
      · exact hmono _ _ ((h.span v).1 hv)
      · have h1 := hmono _ _ ((h.span i).1 hi)
        have h2 : g2.Adj i n := hadj.2 (Or.inr (Or.inl ⟨rfl, rfl⟩))
        exact Relation.ReflTransGen.trans (h1.tail h2) (hmono _ _ ((hD v).1 hv))
  have hgray : ∀ b ∈ grayArcs evs, b.src ∈ discovered evs ∧ b.tgt ∈ discovered evs ∧ b ∈ g.outArcs b.src := by
    intro b hb
    obtain ⟨h1, h2⟩ := hd.tree_out ho.src (mem_arcsOf.2 (Or.inr (Or.inl (mem_grayArcs.1 hb))))
    exact ⟨h1, (hd.closed _ h1 b h2).1, h2⟩
  have hcr : w2.crossEdges = w.crossEdges ++ (grayArcs evs).map (fun a => ⟨a.src, a.tgt, a.id⟩) := b2
  have hfilt : ∀ u v, w2.crossEdges.filter (fun c => c.Joins u v) = w.crossEdges.filter (fun c => c.Joins u v) ++
      ((grayArcs evs).filter (fun a => a.Joins u v)).map (fun a => (⟨a.src, a.tgt, a.id⟩ : CrossEdge)) := by
    intro u v
    rw [hcr, List.filter_append, filter_map_joins]
  have hgI : ∀ u v, u ∉ discovered evs → (grayArcs evs).filter (fun a => a.Joins u v) = [] := by
    intro u v hu
    rw [List.filter_eq_nil_iff]
    intro b hb hj
    obtain ⟨h1, h2, -⟩ := hgray b hb
    have hj' : b.Joins u v := by simpa using hj
    rcases hj' with ⟨rfl, -⟩ | ⟨-, rfl⟩
    · exact hu h1
    · exact hu h2
  have hgI' : ∀ u v, v ∉ discovered evs → (grayArcs evs).filter (fun a => a.Joins u v) = [] := by
    intro u v hv
    have := hgI v u hv
    simpa only [Arc.joins_comm (u := v) (v := u)] using this
  have hcI : ∀ u v, w.vertexExists u = false → w.crossEdges.filter (fun c => c.Joins u v) = [] := by
    intro u v hu
    rw [List.filter_eq_nil_iff]
    intro c hc hj
    have := (joins_adj hp h hc (by simpa using hj)).2.2.1
    rw [hu] at this; cases this
  have hcI' : ∀ u v, w.vertexExists v = false → w.crossEdges.filter (fun c => c.Joins u v) = [] := by
    intro u v hu
    rw [List.filter_eq_nil_iff]
    intro c hc hj
    have := (joins_adj hp h hc (by simpa using hj)).2.2.2
    rw [hu] at this; cases this
  have hteI : ∀ u v, w.vertexExists u = true → w.vertexExists v = true → (w2.TreeEdge u v ↔ w.TreeEdge u v) := by
    intro u v hu hv
    rw [TreeView.TreeEdge, hparI u hu, hparI v hv]; rfl
  have hteD : ∀ u v, u ∈ discovered evs → v ∈ discovered evs →
      (w2.TreeEdge u v ↔ ∃ t ∈ treeArcs evs, t.Joins u v) := by
    intro u v hu hv
    have hni' : ∀ x, x ∈ discovered evs → x ≠ i := by rintro x hx rfl; exact hdis' _ hi hx
    rw [TreeView.TreeEdge, hpar2, hpar2]
    constructor
    · rintro ((h1 | ⟨-, h1⟩ | ⟨a, h1, h2, h3⟩) | (h1 | ⟨-, h1⟩ | ⟨a, h1, h2, h3⟩))
      · exact absurd hu (hdis' _ (h.parent_adj h1).2)
      · exact absurd h1 (hni' v hv)
      · exact ⟨a, h1, Or.inr ⟨h3, h2⟩⟩
      · exact absurd hv (hdis' _ (h.parent_adj h1).2)
      · exact absurd h1 (hni' u hu)
      · exact ⟨a, h1, Or.inl ⟨h3, h2⟩⟩
    · rintro ⟨a, h1, ⟨h2, h3⟩ | ⟨h2, h3⟩⟩
      · exact Or.inr (Or.inr (Or.inr ⟨a, h1, h3, h2⟩))
      · exact Or.inl (Or.inr (Or.inr ⟨a, h1, h3, h2⟩))
  refine ⟨⟨?_, ?_, ?_, ?_, ?_, ?_, ?_, ?_, ?_⟩, ?_⟩
  · rw [b3]; exact h.root_eq
  · intro v; rw [hex2, hreach]
  · rw [hparI root h.root_in]; exact h.root_parent
  · intro v hv hne
    rcases (hex2 v).1 hv with h1 | h1
    · obtain ⟨p, h2, h3⟩ := h.parent v h1 hne
      exact ⟨p, (hpar2 v p).2 (Or.inl h2), hadj.2 (Or.inl h3)⟩
    · rcases (hDT v).1 h1 with rfl | h1
      · exact ⟨i, hparN, hadj.2 (Or.inr (Or.inl ⟨rfl, rfl⟩))⟩
      · obtain ⟨a, ha, rfl⟩ := List.mem_map.1 h1
        exact ⟨a.src, (hpar2 _ _).2 (Or.inr (Or.inr ⟨a, ha, rfl, rfl⟩)), hadj.2 (Or.inl (hadjT a ha))⟩
  · intro p rel hrel
    have hkn : (kids (treeArcs evs) p).Nodup := hnd.2.sublist (List.filter_sublist.map _)
    have hkm : ∀ c, p ∈ discovered evs → (c ∈ kids (treeArcs evs) p ↔ w2.parentOf c = some p) := by
      intro c hpD
      rw [mem_kids, hpar2]
      constructor
      · rintro ⟨a, h1, h2, h3⟩; exact Or.inr (Or.inr ⟨a, h1, h3, h2⟩)
      · rintro (h1 | ⟨-, h1⟩ | ⟨a, h1, h2, h3⟩)
        · exact absurd hpD (hdis' _ (h.parent_in hp h1))
        · subst h1; exact absurd hpD (hdis' _ hi)
        · exact ⟨a, h1, h3, h2⟩
    rw [hget] at hrel
    split at hrel
    · rename_i hT
      obtain rfl := Option.some.inj hrel
      exact ⟨hkn, fun c => hkm c (hTD p hT)⟩
    · split at hrel
      · rename_i hT hpn
        obtain rfl := Option.some.inj hrel
        subst hpn
        exact ⟨hkn, fun c => hkm c hd.good.root_mem⟩
      · rename_i hT hpn
        have hpD : p ∉ discovered evs := by
          rw [hDT]; rintro (h1 | h1)
          · exact hpn h1
          · exact hT h1
        have hnoT : ∀ c, ¬ ∃ a ∈ treeArcs evs, a.tgt = c ∧ a.src = p := by
          rintro c ⟨a, h1, -, h3⟩
          exact hpD (h3 ▸ (hd.good.tree_arc h1).1)
        split at hrel
        · rename_i hpi
          obtain rfl := Option.some.inj hrel
          subst hpi
          obtain ⟨c1, c2⟩ := h.children p reli hreli
          refine ⟨?_, ?_⟩
          · rw [List.nodup_append]
            exact ⟨c1, by simp, fun a ha b hb => by rintro rfl; rw [List.mem_singleton] at hb; subst hb; exact hni ha⟩
          · intro c
            rw [hpar2, List.mem_append, c2, List.mem_singleton]
            constructor
            · rintro (h1 | h1)
              · exact Or.inl h1
              · exact Or.inr (Or.inl ⟨h1, rfl⟩)
            · rintro (h1 | ⟨h1, -⟩ | h1)
              · exact Or.inl h1
              · exact Or.inr h1
              · exact absurd h1 (hnoT c)
        · rename_i hpi
          obtain ⟨c1, c2⟩ := h.children p rel hrel
          refine ⟨c1, fun c => ?_⟩
          rw [hpar2, c2]
          constructor
          · exact Or.inl
          · rintro (h1 | ⟨-, h1⟩ | h1)
            · exact h1
            · exact absurd h1 hpi
            · exact absurd h1 (hnoT c)
  · obtain ⟨d, hdd⟩ := h.rank
    refine ⟨fun v => if v ∈ discovered evs then lvl v + d i + 1 else d v, ?_⟩
    intro v p hvp
    rcases (hpar2 v p).1 hvp with h1 | ⟨rfl, rfl⟩ | ⟨a, h1, rfl, rfl⟩
    · simp only [if_neg (hdis' _ (h.parent_adj h1).2), if_neg (hdis' _ (h.parent_in hp h1))]
      exact hdd v p h1
    · simp only [if_pos hd.good.root_mem, if_neg (hdis' _ hi), hd.good.lvl_root]
      omega
    · obtain ⟨t1, t2, -, t4⟩ := hd.good.tree_arc h1
      simp only [if_pos t1, if_pos t2, t4]
      omega
  · intro c hc
    rw [hcr, List.mem_append] at hc
    rcases hc with hc | hc
    · obtain ⟨e, he, h1, h2, h3, h4⟩ := h.cross_edge c hc
      exact ⟨e, hsub e he, h1, h2, h3, (hreach _).2 (Or.inl ((h.span _).2 h4))⟩
    · obtain ⟨a, ha, rfl⟩ := List.mem_map.1 hc
      obtain ⟨h1, -, h3⟩ := hgray a ha
      obtain ⟨e, he, -, rfl⟩ := mem_outArcs.1 h3
      exact ⟨e, hsub e he, rfl, rfl, rfl, (hreach _).2 (Or.inr h1)⟩
  · intro u v huv hu ht
    rw [hfilt]
    rcases hadj.1 huv with huv | ⟨rfl, rfl⟩ | ⟨rfl, rfl⟩
    · rcases (hreach u).1 hu with hu | hu
      · have hv := hclI u v huv hu
        rw [hteI u v hu hv] at ht
        rw [h.tree_not_cross u v huv ((h.span u).1 hu) ht, hgI u v (hdis' u hu)]; rfl
      · have hv := hclD u v huv hu
        rw [hteD u v hu hv] at ht
        obtain ⟨a, ha, rfl⟩ := adj_iff_arcs.1 huv
        rw [hcI _ _ (hdis u hu)]
        rcases hd.joins ho hu ha with ⟨-, h2⟩ | ⟨h1, -⟩
        · rw [h2]; rfl
        · exact absurd ht h1
    · rw [hcI' _ _ hn, hgI _ _ (hdis' _ hi)]; rfl
    · rw [hcI _ _ hn, hgI' _ _ (hdis' _ hi)]; rfl
  · intro u v huv hu ht
    rw [hfilt, List.length_append, List.length_map]
    rcases hadj.1 huv with huv | ⟨rfl, rfl⟩ | ⟨rfl, rfl⟩
    · rcases (hreach u).1 hu with hu | hu
      · have hv := hclI u v huv hu
        rw [hteI u v hu hv] at ht
        rw [h.cross_once u v huv ((h.span u).1 hu) ht, hgI u v (hdis' u hu)]; rfl
      · have hv := hclD u v huv hu
        rw [hteD u v hu hv] at ht
        obtain ⟨a, ha, rfl⟩ := adj_iff_arcs.1 huv
        rw [hcI _ _ (hdis u hu)]
        rcases hd.joins ho hu ha with ⟨h1, -⟩ | ⟨-, h2⟩
        · exact absurd h1 ht
        · rw [h2]; rfl
    · exact absurd (Or.inr hparN) ht
    · exact absurd (Or.inl hparN) ht
  · rw [b4]; rfl

/-- a new connection, in the order of the arguments of the visited edge -/
theorem outArcs_filtered {g g2 : G F E} {e e' : ERec E} (ha : AddedPair g g2 e e') :
    (fun u => (g2.outArcs u).filter (fun a => a.id ≠ e.id ∧ a.id ≠ e'.id)) = g.outArcs := by
  funext u
  simp only [G.outArcs, G.outEdges, ha.edges, List.filter_append, List.map_append]
  have h1 : ((g.edges.filter (fun x => x.src = u)).map ERec.arc).filter (fun a => decide (a.id ≠ e.id ∧ a.id ≠ e'.id)) =
      (g.edges.filter (fun x => x.src = u)).map ERec.arc := by
    rw [List.filter_eq_self]
    intro a hm
    obtain ⟨x, hx, rfl⟩ := List.mem_map.1 hm
    have := ha.ids x (List.mem_filter.1 hx).1
    exact decide_eq_true this
  have h2 : (([e, e'].filter (fun x => x.src = u)).map ERec.arc).filter (fun a => decide (a.id ≠ e.id ∧ a.id ≠ e'.id)) = [] := by
    rw [List.filter_eq_nil_iff]
    intro a hm
    obtain ⟨x, hx, rfl⟩ := List.mem_map.1 hm
    have := (List.mem_filter.1 hx).1
    simp only [List.mem_cons, List.not_mem_nil, or_false] at this
    rcases this with rfl | rfl
    · simp [ERec.arc]
    · simp [ERec.arc]
  rw [h1, h2, List.append_nil]

theorem outArcs_nil_of_degree {g g2 : G F E} {e e' : ERec E} (ha : AddedPair g g2 e e') {n : VId}
    (hn : n = e.src ∨ n = e.tgt) (hdeg : ¬ g2.degree n > 2) : g.outArcs n = [] := by
  have h1 : (g.edges.filter (fun x => x.src = n)).length = 0 := by
    unfold G.degree at hdeg
    rw [ha.edges] at hdeg
    simp only [List.filter_append, List.length_append] at hdeg
    have h3 : ([e, e'].filter (fun x => x.src = n)).length = 1 := by
      rcases hn with rfl | rfl
      · simp [List.filter_cons, ha.src, ha.ne.symm]
      · simp [List.filter_cons, ha.src, ha.ne]
    have h4 : ([e, e'].filter (fun x => x.tgt = n)).length = 1 := by
      rcases hn with rfl | rfl
      · simp [List.filter_cons, ha.tgt, ha.ne.symm]
      · simp [List.filter_cons, ha.tgt, ha.ne]
    omega
  rw [List.length_eq_zero_iff] at h1
  simp [G.outArcs, G.outEdges, h1]

/-- `addEdgeToTreeView` keeps a correct view correct. -/
theorem addEdgeToTreeView_correct {g g2 : G F E} {e e' : ERec E} (hw : WF g) (hp : Paired g) (ha : AddedPair g g2 e e')
    (he : g2.edge e.src e.tgt = some e) (he' : g2.edge e.tgt e.src = some e') {root : VId}
    {w : TreeView} (h : IsTreeView g root w) :
    ∃ w', addEdgeToTreeView g2 e w = .ok () w' ∧ IsTreeView g2 root w' ∧ w'.publisher = w.publisher := by
  have hsub : ∀ x ∈ g.edges, x ∈ g2.edges := by intro x hx; rw [ha.edges]; exact List.mem_append_left _ hx
  -- the search in the part that is not in the view
  have hsearch : ∀ n, n = e.src ∨ n = e.tgt → ∃ evs lvl, bfs g.outArcs (g2.verts.length + 1) n = some evs ∧
      BfsDone g.outArcs n evs lvl := by
    intro n hn
    have hl : Live g n := by rcases hn with rfl | rfl; exact ha.live.1; exact ha.live.2
    rw [ha.verts]
    exact searchEvents_done hw hl
  have hno : ∀ n evs lvl, BfsDone g.outArcs n evs lvl → g.outArcs n = [] → arcsOf evs = [] := by
    intro n evs lvl hd h0
    have hall : ∀ v ∈ discovered evs, v = n := by
      intro v hv
      rw [hd.mem_iff outArcs_src] at hv
      induction hv with
      | refl => rfl
      | tail _ hxy ih =>
        subst ih
        obtain ⟨a, ha, -⟩ := hxy
        rw [h0] at ha; cases ha
    rw [hd.arcs, List.flatMap_eq_nil_iff]
    intro x hx
    rw [hall x hx, h0]
  unfold addEdgeToTreeView
  simp only
  cases h1 : w.vertexExists e.src with
  | true =>
    cases h2 : w.vertexExists e.tgt with
    | true =>
      have hx : w.edgeExists e.src e.tgt = some false := by
        unfold TreeView.edgeExists
        obtain ⟨ra, hra⟩ := Option.isSome_iff_exists.1 h1
        obtain ⟨rb, hrb⟩ := Option.isSome_iff_exists.1 h2
        have hpa : ra.parent ≠ some e.tgt := by
          intro hh
          have : w.parentOf e.src = some e.tgt := by simp [TreeView.parentOf, hra, hh]
          exact ha.fresh.2 (h.parent_adj this).1
        have hpb : rb.parent ≠ some e.src := by
          intro hh
          have : w.parentOf e.tgt = some e.src := by simp [TreeView.parentOf, hrb, hh]
          exact ha.fresh.1 (h.parent_adj this).1
        simp [hra, hrb, hpa, hpb]
      simp only [Bool.and_self, if_true, hx]
      exact ⟨_, rfl, h.add_inside hp ha h1 h2, rfl⟩
    | false =>
      simp only [Bool.and_false, Bool.false_eq_true, if_false, if_true]
      obtain ⟨evs, lvl, hb, hd⟩ := hsearch e.tgt (Or.inr rfl)
      have hres := h.add_outside (g2 := g2) hw hp (i := e.src) (n := e.tgt) ha.adj hsub h1 h2 hd
      unfold addEdgeToTreeView.attach
      simp only [he, he']
      by_cases hdeg : g2.degree e.tgt > 2
      · rw [if_pos hdeg]
        unfold searchEventsFiltered
        rw [outArcs_filtered ha, hb]
        exact ⟨_, rfl, hres⟩
      · rw [if_neg hdeg]
        rw [build_no_arcs evs _ (hno _ _ _ hd (outArcs_nil_of_degree ha (Or.inr rfl) hdeg))] at hres
        exact ⟨_, rfl, hres⟩
  | false =>
    cases h2 : w.vertexExists e.tgt with
    | true =>
      simp only [Bool.false_and, Bool.false_eq_true, if_false, if_true]
      obtain ⟨evs, lvl, hb, hd⟩ := hsearch e.src (Or.inl rfl)
      have hres := h.add_outside (g2 := g2) hw hp (i := e.tgt) (n := e.src)
        (by intro x y; rw [ha.adj]; tauto) hsub h2 h1 hd
      unfold addEdgeToTreeView.attach
      simp only [he, he']
      by_cases hdeg : g2.degree e.src > 2
      · rw [if_pos hdeg]
        unfold searchEventsFiltered
        have hf := outArcs_filtered ha
        have hf' : (fun u => (g2.outArcs u).filter (fun a => a.id ≠ e'.id ∧ a.id ≠ e.id)) = g.outArcs := by
          rw [← hf]; funext u; congr 1; funext a; simp only [and_comm]
        rw [hf', hb]
        exact ⟨_, rfl, hres⟩
      · rw [if_neg hdeg]
        rw [build_no_arcs evs _ (hno _ _ _ hd (outArcs_nil_of_degree ha (Or.inl rfl) hdeg))] at hres
        exact ⟨_, rfl, hres⟩
    | false =>
      simp only [Bool.false_and, Bool.false_eq_true, if_false]
      refine ⟨w, rfl, ?_, rfl⟩
      -- the component of the root is unchanged
      have hni : ∀ v, g.Reach root v → v ≠ e.src ∧ v ≠ e.tgt := by
        intro v hv
        have := (h.span v).2 hv
        constructor
        · rintro rfl; rw [h1] at this; cases this
        · rintro rfl; rw [h2] at this; cases this
      have hr : ∀ v, g2.Reach root v ↔ g.Reach root v := by
        intro v
        constructor
        · intro hv
          induction hv with
          | refl => exact .refl
          | tail _ hxy ih =>
            rcases ha.adj.1 hxy with hxy | ⟨hh, -⟩ | ⟨hh, -⟩
            · exact ih.tail hxy
            · exact absurd hh (hni _ ih).1
            · exact absurd hh (hni _ ih).2
        · intro hv; exact hv.mono (fun x y hxy => ha.adj.2 (Or.inl hxy))
      have hadj : ∀ u v, g2.Adj u v → g.Reach root u → g.Adj u v := by
        intro u v huv hu
        rcases ha.adj.1 huv with hxy | ⟨hh, -⟩ | ⟨hh, -⟩
        · exact hxy
        · exact absurd hh (hni _ hu).1
        · exact absurd hh (hni _ hu).2
      refine ⟨h.root_eq, ?_, h.root_parent, ?_, h.children, h.rank, ?_, ?_, ?_⟩
      · intro v; rw [hr]; exact h.span v
      · intro v hv hne
        obtain ⟨p, h3, h4⟩ := h.parent v hv hne
        exact ⟨p, h3, ha.adj.2 (Or.inl h4)⟩
      · intro c hc
        obtain ⟨x, hx, h3, h4, h5, h6⟩ := h.cross_edge c hc
        exact ⟨x, hsub x hx, h3, h4, h5, (hr _).2 h6⟩
      · intro u v huv hu ht
        rw [hr] at hu
        exact h.tree_not_cross u v (hadj u v huv hu) hu ht
      · intro u v huv hu ht
        rw [hr] at hu
        exact h.cross_once u v (hadj u v huv hu) hu ht

end Verif
