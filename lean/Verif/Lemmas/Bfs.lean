import Verif.Model.Bfs
import Verif.Lemmas.AMap
import Mathlib.Data.List.Basic
import Mathlib.Data.List.Nodup
import Mathlib.Data.List.Induction
import Mathlib.Data.List.Perm.Subperm

set_option linter.unusedSectionVars false
set_option linter.unusedSimpArgs false
/-! Breadth first search: invariants of the callbacks. -/

namespace Verif

/-! ## projections of a list of callbacks -/

/-- discovered vertices in order -/
def discovered (l : List BfsEv) : List VId := l.filterMap (fun | .discover v => some v | _ => none)

/-- tree edges in order -/
def treeArcs (l : List BfsEv) : List Arc := l.filterMap (fun | .treeEdge a => some a | _ => none)

/-- arcs to gray vertices in order -/
def grayArcs (l : List BfsEv) : List Arc := l.filterMap (fun | .grayTarget a => some a | _ => none)

/-- all examined arcs in order -/
def arcsOf (l : List BfsEv) : List Arc :=
  l.filterMap (fun | .treeEdge a => some a | .grayTarget a => some a | .blackTarget a => some a | .discover _ => none)

@[simp] theorem discovered_append (l m) : discovered (l ++ m) = discovered l ++ discovered m := List.filterMap_append
@[simp] theorem treeArcs_append (l m) : treeArcs (l ++ m) = treeArcs l ++ treeArcs m := List.filterMap_append
@[simp] theorem grayArcs_append (l m) : grayArcs (l ++ m) = grayArcs l ++ grayArcs m := List.filterMap_append
@[simp] theorem arcsOf_append (l m) : arcsOf (l ++ m) = arcsOf l ++ arcsOf m := List.filterMap_append

theorem mem_treeArcs {l : List BfsEv} {a : Arc} : a ∈ treeArcs l ↔ BfsEv.treeEdge a ∈ l := by
  simp only [treeArcs, List.mem_filterMap]
  constructor
  · rintro ⟨e, he, h⟩; cases e <;> simp at h; subst h; exact he
  · intro h; exact ⟨_, h, rfl⟩

theorem mem_grayArcs {l : List BfsEv} {a : Arc} : a ∈ grayArcs l ↔ BfsEv.grayTarget a ∈ l := by
  simp only [grayArcs, List.mem_filterMap]
  constructor
  · rintro ⟨e, he, h⟩; cases e <;> simp at h; subst h; exact he
  · intro h; exact ⟨_, h, rfl⟩

theorem mem_arcsOf {l : List BfsEv} {a : Arc} :
    a ∈ arcsOf l ↔ BfsEv.treeEdge a ∈ l ∨ BfsEv.grayTarget a ∈ l ∨ BfsEv.blackTarget a ∈ l := by
  simp only [arcsOf, List.mem_filterMap]
  constructor
  · rintro ⟨e, he, h⟩; cases e <;> simp at h <;> subst h <;> simp [he]
  · rintro (h | h | h) <;> exact ⟨_, h, rfl⟩

/-- Callbacks of a search from `root`: every vertex but the root is discovered right after a tree edge from a vertex that was
discovered before, one level below it. -/
inductive Good (root : VId) (lvl : VId → Nat) : List BfsEv → Prop
  | init (h : lvl root = 0) : Good root lvl [.discover root]
  | tree {l : List BfsEv} {a : Arc} (h : Good root lvl l) (h1 : a.src ∈ discovered l) (h2 : a.tgt ∉ discovered l)
      (h3 : lvl a.tgt = lvl a.src + 1) : Good root lvl (l ++ [.treeEdge a, .discover a.tgt])
  | gray {l : List BfsEv} (a : Arc) (h : Good root lvl l) : Good root lvl (l ++ [.grayTarget a])
  | black {l : List BfsEv} (a : Arc) (h : Good root lvl l) : Good root lvl (l ++ [.blackTarget a])

theorem Good.congr {root : VId} {lvl lvl' : VId → Nat} {l : List BfsEv} (h : Good root lvl l)
    (he : ∀ x ∈ discovered l, lvl' x = lvl x) : Good root lvl' l := by
  induction h with
  | init h => exact .init (by rw [he root (by simp [discovered]), h])
  | tree h h1 h2 h3 ih =>
    refine .tree (ih (fun x hx => he x (by simp [hx]))) h1 h2 ?_
    rw [he _ (by simp [discovered]), he _ (by simp [h1]), h3]
  | gray a h ih => exact .gray a (ih (fun x hx => he x (by simp [hx])))
  | black a h ih => exact .black a (ih (fun x hx => he x (by simp [hx])))

theorem Good.root_mem {root : VId} {lvl : VId → Nat} {l : List BfsEv} (h : Good root lvl l) : root ∈ discovered l := by
  induction h with
  | init => simp [discovered]
  | tree _ _ _ _ ih => simp [ih]
  | gray _ _ ih => simp [ih]
  | black _ _ ih => simp [ih]

theorem Good.lvl_root {root : VId} {lvl : VId → Nat} {l : List BfsEv} (h : Good root lvl l) : lvl root = 0 := by
  induction h with
  | init h => exact h
  | tree _ _ _ _ ih => exact ih
  | gray _ _ ih => exact ih
  | black _ _ ih => exact ih

/-- the tree edges lead, in order, to the vertices discovered after the root -/
theorem Good.tgts {root : VId} {lvl : VId → Nat} {l : List BfsEv} (h : Good root lvl l) :
    discovered l = root :: (treeArcs l).map Arc.tgt := by
  induction h with
  | init => rfl
  | tree _ _ _ _ ih => rw [discovered_append, treeArcs_append, ih, List.map_append]; rfl
  | gray _ _ ih => rw [discovered_append, treeArcs_append, ih, List.map_append]; rfl
  | black _ _ ih => rw [discovered_append, treeArcs_append, ih, List.map_append]; rfl

theorem Good.tree_arc {root : VId} {lvl : VId → Nat} {l : List BfsEv} (h : Good root lvl l) {a : Arc} (ha : a ∈ treeArcs l) :
    a.src ∈ discovered l ∧ a.tgt ∈ discovered l ∧ a.tgt ≠ root ∧ lvl a.tgt = lvl a.src + 1 := by
  induction h with
  | init => simp [treeArcs] at ha
  | tree h h1 h2 h3 ih =>
    simp only [treeArcs_append, List.mem_append] at ha
    rcases ha with ha | ha
    · obtain ⟨i1, i2, i3⟩ := ih ha
      exact ⟨by simp [i1], by simp [i2], i3⟩
    · simp [treeArcs] at ha
      subst ha
      refine ⟨by simp [h1], by simp [discovered], ?_, h3⟩
      rintro hr
      exact h2 (hr ▸ h.root_mem)
  | gray _ _ ih =>
    simp only [treeArcs_append, List.mem_append] at ha
    have := ih (ha.resolve_right (by simp [treeArcs]))
    simpa [discovered] using this
  | black _ _ ih =>
    simp only [treeArcs_append, List.mem_append] at ha
    have := ih (ha.resolve_right (by simp [treeArcs]))
    simpa [discovered] using this

/-! ## the invariant of the scan -/

/-- State in the middle of the scan of `u`: `dn` finished vertices, `as` arcs of `u` treated so far. -/
structure Scan (out : VId → List Arc) (root : VId) (dn : List VId) (u : VId) (as : List Arc) (s : BfsSt) (lvl : VId → Nat) :
    Prop where
  cb : ∀ x, s.color x = .black ↔ x ∈ dn
  cg : ∀ x, s.color x = .gray ↔ x = u ∨ x ∈ s.queue
  nd : (dn ++ u :: s.queue).Nodup
  good : Good root lvl s.evs
  disc : discovered s.evs = dn ++ u :: s.queue
  arcs : arcsOf s.evs = dn.flatMap out ++ as
  closed : ∀ x ∈ dn, ∀ a ∈ out x, a.tgt ∈ dn ++ u :: s.queue ∧ lvl a.tgt ≤ lvl x + 1
  closedu : ∀ a ∈ as, a.tgt ∈ dn ++ u :: s.queue ∧ lvl a.tgt ≤ lvl u + 1
  sorted : (dn ++ u :: s.queue).Pairwise (fun x y => lvl x ≤ lvl y)
  near : ∀ x ∈ s.queue, lvl x ≤ lvl u + 1
  black : ∀ a, BfsEv.blackTarget a ∈ s.evs → a.src ∈ dn ++ u :: s.queue ∧ a.tgt ∈ dn ++ u :: s.queue ∧
    (dn ++ u :: s.queue).idxOf a.tgt < (dn ++ u :: s.queue).idxOf a.src
  other : ∀ a, BfsEv.treeEdge a ∈ s.evs ∨ BfsEv.grayTarget a ∈ s.evs → a.src ∈ dn ++ u :: s.queue ∧
    a.tgt ∈ dn ++ u :: s.queue ∧ (dn ++ u :: s.queue).idxOf a.src ≤ (dn ++ u :: s.queue).idxOf a.tgt

theorem Scan.arc {out : VId → List Arc} {root : VId} {dn : List VId} {u : VId} {as : List Arc} {s : BfsSt} {lvl : VId → Nat}
    (h : Scan out root dn u as s lvl) {a : Arc} (ha : a.src = u) :
    ∃ lvl', Scan out root dn u (as ++ [a]) (bfsArc s a) lvl' := by
  have hu : u ∈ dn ++ u :: s.queue := by simp
  have hidxu : (dn ++ u :: s.queue).idxOf u = dn.length := by
    have : u ∉ dn := by
      intro hh
      exact (List.nodup_append.1 h.nd).2.2 u hh u (by simp) rfl
    rw [List.idxOf_append_of_notMem this]
    simp
  cases hc : s.color a.tgt with
  | white =>
    have hnb : a.tgt ∉ dn := by rw [← h.cb, hc]; simp
    have hng : ¬ (a.tgt = u ∨ a.tgt ∈ s.queue) := by rw [← h.cg, hc]; simp
    have hnu : a.tgt ≠ u := fun e => hng (Or.inl e)
    have hnq : a.tgt ∉ s.queue := fun e => hng (Or.inr e)
    have hnD : a.tgt ∉ dn ++ u :: s.queue := by simp [hnb, hnu, hnq]
    have hD : dn ++ u :: (s.queue ++ [a.tgt]) = (dn ++ u :: s.queue) ++ [a.tgt] := by simp
    let lvl' : VId → Nat := fun x => if x = a.tgt then lvl u + 1 else lvl x
    have hl : ∀ x ∈ dn ++ u :: s.queue, lvl' x = lvl x := by
      intro x hx
      have : x ≠ a.tgt := fun e => hnD (e ▸ hx)
      simp [lvl', this]
    have hlu : lvl' u = lvl u := hl u hu
    have hlt : lvl' a.tgt = lvl u + 1 := by simp [lvl']
    have hb : bfsArc s a = { color := fun x => if x = a.tgt then .gray else s.color x
                             queue := s.queue ++ [a.tgt]
                             evs := s.evs ++ [.treeEdge a, .discover a.tgt] } := by
      simp [bfsArc, hc]
    have hlast : ∀ x ∈ dn ++ u :: s.queue, lvl x ≤ lvl u + 1 := by
      intro x hx
      rcases List.mem_append.1 hx with hx | hx
      · have := (List.pairwise_append.1 h.sorted).2.2 x hx u (by simp)
        omega
      · rcases List.mem_cons.1 hx with rfl | hx
        · omega
        · exact h.near x hx
    refine ⟨lvl', ?_⟩
    rw [hb]
    constructor
    · intro x
      by_cases hx : x = a.tgt
      · simp [hx, hnb]
      · simp [hx, h.cb]
    · intro x
      by_cases hx : x = a.tgt
      · simp [hx]
      · simp [hx, h.cg]
    · show (dn ++ u :: (s.queue ++ [a.tgt])).Nodup
      rw [hD]
      exact List.nodup_append.2 ⟨h.nd, by simp, by
        intro x hx y hy; simp at hy; subst hy; rintro rfl; exact hnD hx⟩
    · refine .tree (h.good.congr (by rw [h.disc]; exact hl)) ?_ ?_ ?_
      · rw [h.disc, ha]; exact hu
      · rw [h.disc]; exact hnD
      · rw [hlt, ha, hlu]
    · show discovered (s.evs ++ [.treeEdge a, .discover a.tgt]) = _
      rw [discovered_append, h.disc, hD]; rfl
    · show arcsOf (s.evs ++ [.treeEdge a, .discover a.tgt]) = _
      rw [arcsOf_append, h.arcs, List.append_assoc]; rfl
    · intro x hx b hb'
      obtain ⟨c1, c2⟩ := h.closed x hx b hb'
      show _ ∈ dn ++ u :: (s.queue ++ [a.tgt]) ∧ _
      rw [hD, hl _ c1, hl x (by simp [hx])]
      exact ⟨List.mem_append_left _ c1, c2⟩
    · intro b hb'
      show _ ∈ dn ++ u :: (s.queue ++ [a.tgt]) ∧ _
      rw [hD, hlu]
      rcases List.mem_append.1 hb' with hb' | hb'
      · obtain ⟨c1, c2⟩ := h.closedu b hb'
        rw [hl _ c1]
        exact ⟨List.mem_append_left _ c1, c2⟩
      · simp at hb'; subst hb'
        exact ⟨by simp, Nat.le_of_eq hlt⟩
    · show (dn ++ u :: (s.queue ++ [a.tgt])).Pairwise _
      rw [hD]
      refine List.pairwise_append.2 ⟨?_, by simp, ?_⟩
      · refine h.sorted.imp_of_mem ?_
        intro x y hx hy hxy
        rw [hl x hx, hl y hy]; exact hxy
      · intro x hx y hy
        simp at hy; subst hy
        rw [hlt, hl x hx]; exact hlast x hx
    · intro x hx
      rcases List.mem_append.1 hx with hx | hx
      · rw [hl x (by simp [hx]), hlu]; exact h.near x hx
      · simp at hx; subst hx; rw [hlu]; exact Nat.le_of_eq hlt
    · intro b hb'
      have hb' : BfsEv.blackTarget b ∈ s.evs := by simpa using hb'
      obtain ⟨c1, c2, c3⟩ := h.black b hb'
      show _ ∈ dn ++ u :: (s.queue ++ [a.tgt]) ∧ _ ∈ dn ++ u :: (s.queue ++ [a.tgt]) ∧
        (dn ++ u :: (s.queue ++ [a.tgt])).idxOf _ < (dn ++ u :: (s.queue ++ [a.tgt])).idxOf _
      rw [hD, List.idxOf_append_of_mem c1, List.idxOf_append_of_mem c2]
      exact ⟨List.mem_append_left _ c1, List.mem_append_left _ c2, c3⟩
    · intro b hb'
      show _ ∈ dn ++ u :: (s.queue ++ [a.tgt]) ∧ _ ∈ dn ++ u :: (s.queue ++ [a.tgt]) ∧
        (dn ++ u :: (s.queue ++ [a.tgt])).idxOf _ ≤ (dn ++ u :: (s.queue ++ [a.tgt])).idxOf _
      rw [hD]
      by_cases hba : BfsEv.treeEdge b ∈ s.evs ∨ BfsEv.grayTarget b ∈ s.evs
      · obtain ⟨c1, c2, c3⟩ := h.other b hba
        rw [List.idxOf_append_of_mem c1, List.idxOf_append_of_mem c2]
        exact ⟨List.mem_append_left _ c1, List.mem_append_left _ c2, c3⟩
      · have : b = a := by
          simp only [List.mem_append, List.mem_cons, List.not_mem_nil, or_false, BfsEv.treeEdge.injEq, reduceCtorEq] at hb'
          rcases hb' with (hb' | hb') | hb'
          · exact absurd (Or.inl hb') hba
          · exact hb'
          · exact absurd (Or.inr hb') hba
        subst this
        refine ⟨List.mem_append_left _ (ha ▸ hu), by simp, ?_⟩
        rw [List.idxOf_append_of_mem (ha ▸ hu), List.idxOf_append_of_notMem hnD]
        have : (dn ++ u :: s.queue).idxOf b.src < (dn ++ u :: s.queue).length := List.idxOf_lt_length_iff.2 (ha ▸ hu)
        omega
  | gray =>
    have hg := (h.cg a.tgt).1 hc
    have hmem : a.tgt ∈ dn ++ u :: s.queue := by
      rcases hg with hg | hg <;> simp [hg]
    have hnb : a.tgt ∉ dn := by rw [← h.cb, hc]; simp
    have hb : bfsArc s a = { s with evs := s.evs ++ [.grayTarget a] } := by simp [bfsArc, hc]
    refine ⟨lvl, ?_⟩
    rw [hb]
    refine ⟨h.cb, h.cg, h.nd, .gray a h.good, ?_, ?_, h.closed, ?_, h.sorted, h.near, ?_, ?_⟩
    · show discovered (s.evs ++ [.grayTarget a]) = _
      rw [discovered_append, h.disc]; simp [discovered]
    · show arcsOf (s.evs ++ [.grayTarget a]) = _
      rw [arcsOf_append, h.arcs, List.append_assoc]; rfl
    · intro b hb'
      rcases List.mem_append.1 hb' with hb' | hb'
      · exact h.closedu b hb'
      · simp at hb'; subst hb'
        refine ⟨hmem, ?_⟩
        rcases hg with hg | hg
        · rw [hg]; omega
        · exact h.near _ hg
    · intro b hb'
      exact h.black b (by simpa using hb')
    · intro b hb'
      by_cases hba : BfsEv.treeEdge b ∈ s.evs ∨ BfsEv.grayTarget b ∈ s.evs
      · exact h.other b hba
      · have : b = a := by
          simp only [List.mem_append, List.mem_cons, List.not_mem_nil, or_false, BfsEv.grayTarget.injEq, reduceCtorEq] at hb'
          rcases hb' with hb' | (hb' | hb')
          · exact absurd (Or.inl hb') hba
          · exact absurd (Or.inr hb') hba
          · exact hb'
        subst this
        refine ⟨ha ▸ hu, hmem, ?_⟩
        show (dn ++ u :: s.queue).idxOf _ ≤ (dn ++ u :: s.queue).idxOf _
        rw [ha, hidxu, List.idxOf_append_of_notMem hnb]
        omega
  | black =>
    have hbl := (h.cb a.tgt).1 hc
    have hmem : a.tgt ∈ dn ++ u :: s.queue := by simp [hbl]
    have hb : bfsArc s a = { s with evs := s.evs ++ [.blackTarget a] } := by simp [bfsArc, hc]
    refine ⟨lvl, ?_⟩
    rw [hb]
    refine ⟨h.cb, h.cg, h.nd, .black a h.good, ?_, ?_, h.closed, ?_, h.sorted, h.near, ?_, ?_⟩
    · show discovered (s.evs ++ [.blackTarget a]) = _
      rw [discovered_append, h.disc]; simp [discovered]
    · show arcsOf (s.evs ++ [.blackTarget a]) = _
      rw [arcsOf_append, h.arcs, List.append_assoc]; rfl
    · intro b hb'
      rcases List.mem_append.1 hb' with hb' | hb'
      · exact h.closedu b hb'
      · simp at hb'; subst hb'
        have := (List.pairwise_append.1 h.sorted).2.2 _ hbl u (by simp)
        exact ⟨hmem, by omega⟩
    · intro b hb'
      by_cases hba : BfsEv.blackTarget b ∈ s.evs
      · exact h.black b hba
      · have : b = a := by simpa [hba] using hb'
        subst this
        refine ⟨ha ▸ hu, hmem, ?_⟩
        show (dn ++ u :: s.queue).idxOf _ < (dn ++ u :: s.queue).idxOf _
        rw [ha, hidxu, List.idxOf_append_of_mem hbl]
        exact List.idxOf_lt_length_iff.2 hbl
    · intro b hb'
      exact h.other b (by simpa using hb')

theorem Scan.scan {out : VId → List Arc} {root : VId} {dn : List VId} {u : VId} : ∀ (bs : List Arc) {as : List Arc} {s : BfsSt}
    {lvl : VId → Nat}, Scan out root dn u as s lvl → (∀ a ∈ bs, a.src = u) →
    ∃ lvl', Scan out root dn u (as ++ bs) (bfsScan s bs) lvl' := by
  intro bs
  induction bs with
  | nil => intro as s lvl h _; exact ⟨lvl, by simpa [bfsScan] using h⟩
  | cons a bs ih =>
    intro as s lvl h hs
    obtain ⟨l1, h1⟩ := h.arc (hs a (by simp))
    obtain ⟨l2, h2⟩ := ih h1 (fun b hb => hs b (by simp [hb]))
    refine ⟨l2, ?_⟩
    simpa [bfsScan, List.append_assoc] using h2

/-- State between two scans: `dn` finished vertices. -/
structure Rest (out : VId → List Arc) (root : VId) (dn : List VId) (s : BfsSt) (lvl : VId → Nat) : Prop where
  cb : ∀ x, s.color x = .black ↔ x ∈ dn
  cg : ∀ x, s.color x = .gray ↔ x ∈ s.queue
  nd : (dn ++ s.queue).Nodup
  good : Good root lvl s.evs
  disc : discovered s.evs = dn ++ s.queue
  arcs : arcsOf s.evs = dn.flatMap out
  closed : ∀ x ∈ dn, ∀ a ∈ out x, a.tgt ∈ dn ++ s.queue ∧ lvl a.tgt ≤ lvl x + 1
  sorted : (dn ++ s.queue).Pairwise (fun x y => lvl x ≤ lvl y)
  near : ∀ u q, s.queue = u :: q → ∀ x ∈ q, lvl x ≤ lvl u + 1
  black : ∀ a, BfsEv.blackTarget a ∈ s.evs → a.src ∈ dn ++ s.queue ∧ a.tgt ∈ dn ++ s.queue ∧
    (dn ++ s.queue).idxOf a.tgt < (dn ++ s.queue).idxOf a.src
  other : ∀ a, BfsEv.treeEdge a ∈ s.evs ∨ BfsEv.grayTarget a ∈ s.evs → a.src ∈ dn ++ s.queue ∧
    a.tgt ∈ dn ++ s.queue ∧ (dn ++ s.queue).idxOf a.src ≤ (dn ++ s.queue).idxOf a.tgt

theorem Rest.init (out : VId → List Arc) (root : VId) : Rest out root [] (bfsInit root) (fun _ => 0) := by
  refine ⟨?_, ?_, ?_, .init rfl, rfl, rfl, ?_, ?_, ?_, ?_, ?_⟩
  · intro x; simp only [bfsInit]; split <;> simp
  · intro x; simp only [bfsInit]; split <;> simp [*]
  · simp [bfsInit]
  · simp
  · simp [bfsInit]
  · intro u q hq x hx; simp [bfsInit] at hq; simp [hq.2] at hx
  · intro a ha; simp [bfsInit] at ha
  · intro a ha; simp [bfsInit] at ha

/-- one iteration of the main loop -/
theorem Rest.step {out : VId → List Arc} (hout : ∀ u, ∀ a ∈ out u, a.src = u) {root : VId} {dn : List VId} {s : BfsSt}
    {lvl : VId → Nat} (h : Rest out root dn s lvl) {u : VId} {q : List VId} (hq : s.queue = u :: q) :
    ∃ lvl', Rest out root (dn ++ [u])
      { bfsScan { s with queue := q } (out u) with
        color := fun x => if x = u then .black else (bfsScan { s with queue := q } (out u)).color x } lvl' := by
  have h0 : Scan out root dn u [] { s with queue := q } lvl := by
    have nd := h.nd
    have disc := h.disc
    have closed := h.closed
    have sorted := h.sorted
    have black := h.black
    have other := h.other
    rw [hq] at nd disc closed sorted black other
    refine ⟨h.cb, ?_, nd, h.good, disc, ?_, closed, by simp, sorted, h.near u q hq, black, other⟩
    · intro x
      rw [h.cg, hq]; simp
    · rw [h.arcs]; simp
  obtain ⟨l', h1⟩ := h0.scan (out u) (hout u)
  generalize bfsScan { s with queue := q } (out u) = s1 at h1
  refine ⟨l', ?_⟩
  have hD : dn ++ u :: s1.queue = dn ++ [u] ++ s1.queue := by simp
  have nd := h1.nd
  have disc := h1.disc
  have closed := h1.closed
  have closedu := h1.closedu
  have sorted := h1.sorted
  have black := h1.black
  have other := h1.other
  have hnu : u ∉ s1.queue := by
    have := (List.nodup_append.1 nd).2.1
    exact (List.nodup_cons.1 this).1
  rw [hD] at nd disc closed closedu sorted black other
  refine ⟨?_, ?_, nd, h1.good, disc, ?_, ?_, sorted, ?_, black, other⟩
  · intro x
    by_cases hx : x = u
    · simp [hx]
    · simp [hx, h1.cb]
  · intro x
    by_cases hx : x = u
    · simp [hx, hnu]
    · simp [hx, h1.cg]
  · show arcsOf s1.evs = _
    rw [h1.arcs]; simp
  · intro x hx a ha
    rcases List.mem_append.1 hx with hx | hx
    · exact closed x hx a ha
    · simp at hx; subst hx
      exact closedu a (by simpa using ha)
  · intro v q' hq' x hx
    have hqq : s1.queue = v :: q' := hq'
    have h3 := (List.pairwise_append.1 sorted).2.2 u (by simp) v (by simp [hqq])
    have h4 := h1.near x (by simp [hqq, hx])
    omega

/-- result of a finished search -/
structure BfsDone (out : VId → List Arc) (root : VId) (evs : List BfsEv) (lvl : VId → Nat) : Prop where
  good : Good root lvl evs
  nodup : (discovered evs).Nodup
  arcs : arcsOf evs = (discovered evs).flatMap out
  closed : ∀ x ∈ discovered evs, ∀ a ∈ out x, a.tgt ∈ discovered evs ∧ lvl a.tgt ≤ lvl x + 1
  sorted : (discovered evs).Pairwise (fun x y => lvl x ≤ lvl y)
  black : ∀ a, BfsEv.blackTarget a ∈ evs → (discovered evs).idxOf a.tgt < (discovered evs).idxOf a.src
  other : ∀ a, BfsEv.treeEdge a ∈ evs ∨ BfsEv.grayTarget a ∈ evs →
    (discovered evs).idxOf a.src ≤ (discovered evs).idxOf a.tgt

theorem bfsLoop_done {out : VId → List Arc} (hout : ∀ u, ∀ a ∈ out u, a.src = u) {root : VId} {V : List VId}
    (hVc : ∀ u ∈ V, ∀ a ∈ out u, a.tgt ∈ V) :
    ∀ (fuel : Nat) (dn : List VId) (s : BfsSt) (lvl : VId → Nat), Rest out root dn s lvl → (∀ x ∈ dn ++ s.queue, x ∈ V) →
    V.length < dn.length + fuel →
    ∃ s' lvl', bfsLoop out fuel s = some s' ∧ BfsDone out root s'.evs lvl' := by
  intro fuel
  induction fuel with
  | zero =>
    intro dn s lvl h hx hf
    exfalso
    have h1 : (dn ++ s.queue).length ≤ V.length := (List.subperm_of_subset h.nd hx).length_le
    simp only [List.length_append] at h1
    omega
  | succ n ih =>
    intro dn s lvl h hx hf
    cases hq : s.queue with
    | nil =>
      refine ⟨s, lvl, by rw [bfsLoop.eq_def]; simp [hq], ?_⟩
      have hd := h.disc
      rw [hq, List.append_nil] at hd
      have nd := h.nd
      have closed := h.closed
      have sorted := h.sorted
      have black := h.black
      have other := h.other
      rw [hq, List.append_nil, ← hd] at nd closed sorted black other
      exact ⟨h.good, nd, by rw [hd]; exact h.arcs, closed, sorted, fun a ha => (black a ha).2.2, fun a ha => (other a ha).2.2⟩
    | cons u q =>
      obtain ⟨l', h'⟩ := h.step hout hq
      have key := ih (dn ++ [u]) _ l' h' (by
        intro x hx'
        -- every discovered vertex is in V
        have hsub : ∀ x ∈ discovered (bfsScan { s with queue := q } (out u)).evs, x ∈ V := by
          have hd' := h'.disc
          have : ∀ (as : List Arc) (t : BfsSt), (∀ x ∈ discovered t.evs, x ∈ V) → (∀ a ∈ as, a.tgt ∈ V) →
              ∀ x ∈ discovered (bfsScan t as).evs, x ∈ V := by
            intro as
            induction as with
            | nil => intro t ht _; exact ht
            | cons a as ih2 =>
              intro t ht has
              refine ih2 (bfsArc t a) ?_ (fun b hb => has b (by simp [hb]))
              unfold bfsArc
              split
              · intro x hx
                simp only [discovered_append, List.mem_append] at hx
                rcases hx with hx | hx
                · exact ht x hx
                · simp [discovered] at hx; subst hx; exact has a (by simp)
              · intro x hx
                simp only [discovered_append, List.mem_append] at hx
                exact ht x (hx.resolve_right (by simp [discovered]))
              · intro x hx
                simp only [discovered_append, List.mem_append] at hx
                exact ht x (hx.resolve_right (by simp [discovered]))
          refine this (out u) _ ?_ ?_
          · intro x hx1
            have : x ∈ discovered s.evs := hx1
            rw [h.disc] at this
            exact hx x this
          · exact hVc u (hx u (by simp [hq]))
        have hd' := h'.disc
        exact hsub x (by rw [← hd'] at hx'; exact hx')) (by simp only [List.length_append, List.length_singleton]; omega)
      obtain ⟨s', l'', e1, e2⟩ := key
      refine ⟨s', l'', ?_, e2⟩
      rw [bfsLoop.eq_def]
      simp only [hq]
      exact e1

/-- The search terminates within the fuel and its callbacks satisfy `BfsDone`. -/
theorem bfs_done {out : VId → List Arc} (hout : ∀ u, ∀ a ∈ out u, a.src = u) {root : VId} {V : List VId}
    (hV : root ∈ V) (hVc : ∀ u ∈ V, ∀ a ∈ out u, a.tgt ∈ V) {fuel : Nat} (hf : V.length < fuel) :
    ∃ evs lvl, bfs out fuel root = some evs ∧ BfsDone out root evs lvl := by
  obtain ⟨s', l', h1, h2⟩ := bfsLoop_done hout hVc fuel [] (bfsInit root) _ (Rest.init out root)
    (by simp [bfsInit, hV]) (by simpa using hf)
  exact ⟨s'.evs, l', by simp [bfs, h1], h2⟩

end Verif
