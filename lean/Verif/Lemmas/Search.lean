import Verif.Lemmas.Bfs
import Mathlib.Data.List.Chain

set_option linter.unusedSectionVars false
set_option linter.unusedSimpArgs false
/-! Paths found by a breadth first search; the path-search visitor. -/

namespace Verif

theorem AMap.insertNew_new {K V : Type} [DecidableEq K] {m : AMap K V} {k : K} (h : k ∉ AMap.keys m) (v : V) :
    AMap.insertNew m k v = m ++ [(k, v)] := by
  simp [AMap.insertNew, AMap.get_eq_none_iff.2 h]

theorem AMap.foldl_insertNew {K V X : Type} [DecidableEq K] (k : X → K) (v : X → V) : ∀ (l : List X) (m : AMap K V),
    (l.map k).Nodup → (∀ x ∈ l, k x ∉ AMap.keys m) →
    l.foldl (fun m x => m.insertNew (k x) (v x)) m = m ++ l.map (fun x => (k x, v x)) := by
  intro l
  induction l with
  | nil => intro m _ _; simp
  | cons x l ih =>
    intro m hn hk
    simp only [List.map_cons, List.nodup_cons] at hn
    rw [List.foldl_cons, AMap.insertNew_new (hk x (by simp)), ih _ hn.2]
    · simp
    · intro y hy
      simp only [AMap.keys, List.map_append, List.map_cons, List.map_nil, List.mem_append, List.mem_singleton, not_or]
      refine ⟨hk y (by simp [hy]), fun h => hn.1 ?_⟩
      rw [← h]; exact List.mem_map.2 ⟨y, hy, rfl⟩

theorem Good.nodup {root : VId} {lvl : VId → Nat} {l : List BfsEv} (h : Good root lvl l) : (discovered l).Nodup := by
  induction h with
  | init => simp [discovered]
  | @tree l a h h1 h2 h3 ih =>
    rw [discovered_append]
    refine List.nodup_append.2 ⟨ih, by simp [discovered], ?_⟩
    intro x hx y hy
    simp [discovered] at hy
    subst hy
    rintro rfl
    exact h2 hx
  | gray _ _ ih => simpa [discovered] using ih
  | black _ _ ih => simpa [discovered] using ih

/-- the parents map of the search visitor after the callbacks `l` -/
def parentsFrom (m : AMap VId VId) (l : List BfsEv) : AMap VId VId :=
  (treeArcs l).foldl (fun m a => m.insertNew a.tgt a.src) m

theorem parentsFrom_append (m : AMap VId VId) (l k : List BfsEv) : parentsFrom m (l ++ k) = parentsFrom (parentsFrom m l) k := by
  simp [parentsFrom]

theorem searchVisitor_append (t : VId) : ∀ (l : List BfsEv) (m : AMap VId VId) (k : List BfsEv),
    searchVisitor t m (l ++ k) = match searchVisitor t m l with
      | some r => some r
      | none => searchVisitor t (parentsFrom m l) k := by
  intro l
  induction l with
  | nil => intro m k; rfl
  | cons e l ih =>
    intro m k
    cases e with
    | discover v =>
      simp only [List.cons_append, searchVisitor]
      by_cases h : t = v
      · simp only [h, if_true]
      · simp only [h, if_false]; rw [ih]; rfl
    | treeEdge a => simp only [List.cons_append, searchVisitor]; rw [ih]; rfl
    | grayTarget a => simp only [List.cons_append, searchVisitor]; rw [ih]; rfl
    | blackTarget a => simp only [List.cons_append, searchVisitor]; rw [ih]; rfl

theorem searchVisitor_none {t : VId} : ∀ {l : List BfsEv} {m : AMap VId VId}, t ∉ discovered l → searchVisitor t m l = none := by
  intro l
  induction l with
  | nil => intro m _; rfl
  | cons e l ih =>
    intro m h
    cases e with
    | discover v =>
      have e : discovered (.discover v :: l) = v :: discovered l := rfl
      rw [e, List.mem_cons, not_or] at h
      simp only [searchVisitor, h.1, if_false]
      exact ih h.2
    | treeEdge a => simp only [searchVisitor]; exact ih h
    | grayTarget a => simp only [searchVisitor]; exact ih h
    | blackTarget a => simp only [searchVisitor]; exact ih h

theorem Good.parents {root : VId} {lvl : VId → Nat} {l : List BfsEv} (h : Good root lvl l) :
    parentsFrom [] l = (treeArcs l).map (fun a => (a.tgt, a.src)) := by
  have hn := h.nodup
  rw [h.tgts, List.nodup_cons] at hn
  exact (AMap.foldl_insertNew Arc.tgt Arc.src (treeArcs l) [] hn.2 (by simp [AMap.keys])).trans (by simp)

theorem Good.parents_get {root : VId} {lvl : VId → Nat} {l : List BfsEv} (h : Good root lvl l) {x y : VId} :
    (parentsFrom [] l).get y = some x ↔ ∃ a ∈ treeArcs l, a.tgt = y ∧ a.src = x := by
  have hn := h.nodup
  rw [h.tgts, List.nodup_cons] at hn
  have hk : (AMap.keys (parentsFrom [] l)).Nodup := by
    rw [h.parents]; simpa [AMap.keys, Function.comp_def] using hn.2
  rw [AMap.get_eq_some_iff hk, h.parents]
  simp only [List.mem_map, Prod.mk.injEq]

theorem Good.parents_root {root : VId} {lvl : VId → Nat} {l : List BfsEv} (h : Good root lvl l) :
    (parentsFrom [] l).get root = none := by
  cases hg : (parentsFrom [] l).get root with
  | none => rfl
  | some x =>
    obtain ⟨a, ha, h1, -⟩ := h.parents_get.1 hg
    exact absurd h1 (h.tree_arc ha).2.2.1

/-- `path` leads from `root` to `v` along tree edges -/
structure TreePath (root v : VId) (T : List Arc) (path : List VId) : Prop where
  chain : path.IsChain (fun x y => ∃ a ∈ T, a.tgt = y ∧ a.src = x)
  head : path.head? = some root
  last : path.getLast? = some v

theorem TreePath.mono {root v : VId} {T T' : List Arc} {path : List VId} (h : TreePath root v T path) (ht : ∀ a ∈ T, a ∈ T') :
    TreePath root v T' path :=
  ⟨h.chain.imp (fun _ _ ⟨a, ha, h⟩ => ⟨a, ht a ha, h⟩), h.head, h.last⟩

theorem Good.path {root : VId} {lvl : VId → Nat} {l : List BfsEv} (h : Good root lvl l) :
    ∀ v ∈ discovered l, ∃ path, TreePath root v (treeArcs l) path ∧ path.length = lvl v + 1 ∧
      lvl v ≤ (treeArcs l).length := by
  induction h with
  | init h =>
    intro v hv
    simp [discovered] at hv
    subst hv
    exact ⟨[v], ⟨by simp, rfl, rfl⟩, by simp [h], by simp [h]⟩
  | @tree l a h h1 h2 h3 ih =>
    intro v hv
    rw [discovered_append, List.mem_append] at hv
    rcases hv with hv | hv
    · obtain ⟨p, hp, hl, hle⟩ := ih v hv
      refine ⟨p, hp.mono (by intro b hb; simp [hb]), hl, ?_⟩
      simp only [treeArcs_append, List.length_append]; omega
    · simp [discovered] at hv
      subst hv
      obtain ⟨p, hp, hl, hle⟩ := ih a.src h1
      refine ⟨p ++ [a.tgt], ⟨?_, ?_, by simp⟩, ?_, ?_⟩
      · refine List.isChain_append.2 ⟨(hp.mono (T' := treeArcs (l ++ [.treeEdge a, .discover a.tgt]))
          (by intro b hb; simp [hb])).chain, by simp, ?_⟩
        intro x hx y hy
        rw [hp.last] at hx
        simp at hx hy
        subst hx; subst hy
        exact ⟨a, by simp [treeArcs], rfl, rfl⟩
      · rw [List.head?_append, hp.head]; rfl
      · simp [hl, h3]
      · simp [treeArcs, h3]
        simpa [treeArcs] using hle
  | gray a h ih =>
    intro v hv
    rw [discovered_append, List.mem_append] at hv
    obtain ⟨p, hp, hl, hle⟩ := ih v (hv.resolve_right (by simp [discovered]))
    exact ⟨p, hp.mono (by intro b hb; simp [hb]), hl, by simp only [treeArcs_append, List.length_append]; omega⟩
  | black a h ih =>
    intro v hv
    rw [discovered_append, List.mem_append] at hv
    obtain ⟨p, hp, hl, hle⟩ := ih v (hv.resolve_right (by simp [discovered]))
    exact ⟨p, hp.mono (by intro b hb; simp [hb]), hl, by simp only [treeArcs_append, List.length_append]; omega⟩

theorem walkParents_eq {m : AMap VId VId} {root : VId} (hr : m.get root = none) : ∀ (path : List VId) (v : VId) (fuel : Nat)
    (acc : List VId), path.IsChain (fun x y => m.get y = some x) → path.head? = some root → path.getLast? = some v →
    path.length ≤ fuel → walkParents m fuel v acc = some (path ++ acc) := by
  intro path
  induction path using List.reverseRecOn with
  | nil => intro v fuel acc _ h; simp at h
  | append_singleton p w ih =>
    intro v fuel acc hc hh hl hf
    simp at hl
    subst hl
    cases fuel with
    | zero => simp at hf
    | succ n =>
      cases hp : p.getLast? with
      | none =>
        rw [List.getLast?_eq_none_iff] at hp
        subst hp
        simp at hh
        subst hh
        simp [walkParents, hr]
      | some x =>
        obtain ⟨c1, -, c3⟩ := List.isChain_append.1 hc
        have := c3 x (by simp [hp]) w (by simp)
        simp only [walkParents, this]
        have hpne : p ≠ [] := by rintro rfl; simp at hp
        have hh' : p.head? = some root := by
          rw [List.head?_append] at hh
          cases hph : p.head? with
          | none => exact absurd (List.head?_eq_none_iff.1 hph) hpne
          | some y => rw [hph] at hh; simpa using hh
        rw [ih x n (w :: acc) c1 hh' hp (by simp at hf; omega)]
        simp

/-- the visitor finds the target exactly if it is discovered, and returns the tree path to it -/
theorem Good.search {root : VId} {lvl : VId → Nat} {l : List BfsEv} (h : Good root lvl l) {t : VId} (ht : t ∈ discovered l) :
    ∃ path, searchVisitor t [] l = some (some path) ∧ TreePath root t (treeArcs l) path ∧ path.length = lvl t + 1 := by
  induction h with
  | init h =>
    simp [discovered] at ht
    subst ht
    exact ⟨[t], by simp [searchVisitor, walkParents], ⟨by simp, rfl, rfl⟩, by simp [h]⟩
  | @tree l a h h1 h2 h3 ih =>
    by_cases hold : t ∈ discovered l
    · obtain ⟨p, e1, e2, e3⟩ := ih hold
      exact ⟨p, by rw [searchVisitor_append, e1], e2.mono (by intro b hb; simp [hb]), e3⟩
    · have hta : t = a.tgt := by
        rw [discovered_append, List.mem_append] at ht
        simpa [discovered, hold] using ht.resolve_left hold
      have hg : Good root lvl (l ++ [.treeEdge a, .discover a.tgt]) := .tree h h1 h2 h3
      obtain ⟨p, hp, hl, hle⟩ := hg.path t ht
      refine ⟨p, ?_, hp, hl⟩
      rw [searchVisitor_append, searchVisitor_none hold]
      simp only [searchVisitor, hta, if_true, Option.some.injEq]
      have e : (parentsFrom [] l).insertNew a.tgt a.src = parentsFrom [] (l ++ [.treeEdge a, .discover a.tgt]) := by
        rw [parentsFrom_append]; rfl
      rw [e]
      have := walkParents_eq hg.parents_root p t ((parentsFrom [] (l ++ [.treeEdge a, .discover a.tgt])).length + 1) []
        (hp.chain.imp (fun x y hxy => hg.parents_get.2 hxy)) hp.head hp.last
        (by rw [hg.parents, List.length_map]; omega)
      have this' := this.trans (by rw [List.append_nil])
      rw [hta] at this'
      exact this'
  | gray a h ih =>
    rw [discovered_append, List.mem_append] at ht
    obtain ⟨p, e1, e2, e3⟩ := ih (ht.resolve_right (by simp [discovered]))
    exact ⟨p, by rw [searchVisitor_append, e1], e2.mono (by intro b hb; simp [hb]), e3⟩
  | black a h ih =>
    rw [discovered_append, List.mem_append] at ht
    obtain ⟨p, e1, e2, e3⟩ := ih (ht.resolve_right (by simp [discovered]))
    exact ⟨p, by rw [searchVisitor_append, e1], e2.mono (by intro b hb; simp [hb]), e3⟩

/-- successor relation -/
def Arcs (out : VId → List Arc) (x y : VId) : Prop := ∃ a ∈ out x, a.tgt = y

theorem BfsDone.tree_out {out : VId → List Arc} (hout : ∀ u, ∀ a ∈ out u, a.src = u) {root : VId} {evs : List BfsEv}
    {lvl : VId → Nat} (h : BfsDone out root evs lvl) {a : Arc} (ha : a ∈ arcsOf evs) :
    a.src ∈ discovered evs ∧ a ∈ out a.src := by
  rw [h.arcs, List.mem_flatMap] at ha
  obtain ⟨x, hx, hax⟩ := ha
  have := hout x a hax
  exact ⟨this ▸ hx, this ▸ hax⟩

theorem BfsDone.walk {out : VId → List Arc} {root : VId} {evs : List BfsEv}
    {lvl : VId → Nat} (h : BfsDone out root evs lvl) : ∀ (l : List VId) (v : VId), l.IsChain (Arcs out) → l.head? = some root →
    l.getLast? = some v → v ∈ discovered evs ∧ lvl v + 1 ≤ l.length := by
  intro l
  induction l using List.reverseRecOn with
  | nil => intro v _ h; simp at h
  | append_singleton p w ih =>
    intro v hc hh hl
    simp at hl
    subst hl
    cases hp : p.getLast? with
    | none =>
      rw [List.getLast?_eq_none_iff] at hp
      subst hp
      simp at hh
      subst hh
      exact ⟨h.good.root_mem, by simp [h.good.lvl_root]⟩
    | some x =>
      obtain ⟨c1, -, c3⟩ := List.isChain_append.1 hc
      obtain ⟨a, ha, hat⟩ := c3 x (by simp [hp]) w (by simp)
      have hpne : p ≠ [] := by rintro rfl; simp at hp
      have hh' : p.head? = some root := by
        rw [List.head?_append] at hh
        cases hph : p.head? with
        | none => exact absurd (List.head?_eq_none_iff.1 hph) hpne
        | some y => rw [hph] at hh; simpa using hh
      obtain ⟨i1, i2⟩ := ih x c1 hh' hp
      obtain ⟨j1, j2⟩ := h.closed x i1 a ha
      rw [hat] at j1 j2
      refine ⟨j1, ?_⟩
      simp only [List.length_append, List.length_singleton]
      omega

theorem BfsDone.tree_walk {out : VId → List Arc} (hout : ∀ u, ∀ a ∈ out u, a.src = u) {root : VId} {evs : List BfsEv}
    {lvl : VId → Nat} (h : BfsDone out root evs lvl) {v : VId} {path : List VId} (hp : TreePath root v (treeArcs evs) path) :
    path.IsChain (Arcs out) := by
  refine hp.chain.imp ?_
  rintro x y ⟨a, ha, rfl, rfl⟩
  exact ⟨a, (h.tree_out hout (mem_arcsOf.2 (Or.inl (mem_treeArcs.1 ha)))).2, rfl⟩

/-- the vertices of a tree path have levels 0, 1, 2, ... so none occurs twice -/
theorem TreePath.nodup {root : VId} {lvl : VId → Nat} {l : List BfsEv} (h : Good root lvl l) {v : VId} {path : List VId}
    (hp : TreePath root v (treeArcs l) path) : path.Nodup := by
  have : path.IsChain (fun x y => lvl x < lvl y) := by
    refine hp.chain.imp ?_
    rintro x y ⟨a, ha, rfl, rfl⟩
    have := (h.tree_arc ha).2.2.2
    omega
  have htr : Trans (fun x y => lvl x < lvl y) (fun x y => lvl x < lvl y) (fun x y => lvl x < lvl y) :=
    ⟨fun h1 h2 => Nat.lt_trans h1 h2⟩
  have := this.pairwise
  exact this.imp (fun h => by rintro rfl; exact Nat.lt_irrefl _ h)

end Verif
