import Verif.Lemmas.ViewVisit
import Verif.Spec.Demo
/-! # C25: visitDfs and visitBfs visit each vertex of the subtree once, parents first

The children of a vertex are kept in a list here; since the theorems are about every correct view, they hold for every order of
the children.  `[p, x].Sublist l` says that `p` occurs in `l` somewhere before `x`. -/

namespace Verif
open GS TreeView
variable {F E : Type}

/-- On a correct view `visitDfs(n, f)` terminates and calls `f` exactly once for each vertex of the subtree of `n`, with its
parent; `n` comes first and no vertex comes before its parent.  The number of nested calls is at most the size of the view. -/
theorem C25_visitDfs (g : G F E) (root : VId) (w : TreeView) (hw : IsTreeView g root w) (n : VId)
    (hn : w.vertexExists n = true) (fuel : Nat) (hf : w.tree.length ≤ fuel) :
    ∃ calls, w.visitDfs fuel n = .ok calls w ∧
      (calls.map Prod.fst).Nodup ∧
      (∀ x, x ∈ calls.map Prod.fst ↔ w.Under x n) ∧
      (∀ x p, (x, p) ∈ calls → w.getParent (some x) = .ok p w) ∧
      (∀ x p, x ∈ calls.map Prod.fst → x ≠ n → w.getParent (some x) = .ok (some p) w →
        [p, x].Sublist (calls.map Prod.fst)) := by
  obtain ⟨d, hd⟩ := hw.rank
  obtain ⟨calls, h1, h2⟩ := dfs_visits (hw.forest hd) fuel n hn ((below_le w [n]).trans hf)
  have hin : ∀ x ∈ calls.map Prod.fst, (w.tree.get x).isSome := by
    intro x hx
    obtain ⟨v, hv, hu⟩ := (h2.mem x).1 hx
    obtain rfl := List.mem_singleton.1 hv
    exact IsForest.in_view hu hn
  refine ⟨calls, h1, h2.nodup, fun x => by rw [h2.mem]; simp, ?_, ?_⟩
  · intro x p hx
    have h3 := h2.par _ hx
    obtain ⟨r, hr⟩ := Option.isSome_iff_exists.1 (hin x (List.mem_map.2 ⟨_, hx, rfl⟩))
    simp only [TreeView.parentOf, hr, Option.bind_some] at h3
    simp [getParent, hr, h3]
  · intro x p hx hne hp
    refine h2.first x p hx (by simpa using hne) ?_
    obtain ⟨r, hr⟩ := Option.isSome_iff_exists.1 (hin x hx)
    simp only [getParent, hr, Res.ok.injEq, and_true] at hp
    simp [TreeView.parentOf, hr, hp]

/-- a chain with a branch, visited from the middle: the root is not visited -/
example : (⟨[(0, ⟨none, [1]⟩), (1, ⟨some 0, [2, 3]⟩), (2, ⟨some 1, []⟩), (3, ⟨some 1, []⟩)], [], some 0, false, []⟩ : TreeView).visitDfs 4 1 =
    .ok [(1, some 0), (2, some 1), (3, some 1)] ⟨[(0, ⟨none, [1]⟩), (1, ⟨some 0, [2, 3]⟩), (2, ⟨some 1, []⟩), (3, ⟨some 1, []⟩)], [], some 0, false, []⟩ := by
  simp [visitDfs, visitDfs.go, AMap.get]

/-- The same for `visitBfs(n, f)`; in addition the depths (for every way `d` of counting them along the parents) of the visited
vertices never decrease. -/
theorem C25_visitBfs (g : G F E) (root : VId) (w : TreeView) (hw : IsTreeView g root w) (n : VId)
    (hn : w.vertexExists n = true) (fuel : Nat) (hf : w.tree.length ≤ fuel) :
    ∃ calls, w.visitBfs fuel [n] = .ok calls w ∧
      (calls.map Prod.fst).Nodup ∧
      (∀ x, x ∈ calls.map Prod.fst ↔ w.Under x n) ∧
      (∀ x p, (x, p) ∈ calls → w.getParent (some x) = .ok p w) ∧
      (∀ x p, x ∈ calls.map Prod.fst → x ≠ n → w.getParent (some x) = .ok (some p) w →
        [p, x].Sublist (calls.map Prod.fst)) ∧
      (∀ d : VId → Nat, (∀ v p, w.getParent (some v) = .ok (some p) w → d v = d p + 1) →
        (calls.map Prod.fst).Pairwise (fun x y => d x ≤ d y)) := by
  have hgp : ∀ v p, w.getParent (some v) = .ok (some p) w ↔ w.parentOf v = some p := by
    intro v p
    unfold getParent TreeView.parentOf
    cases hg : w.tree.get v <;> simp [hg]
  have hq : ∀ d, GoodQueue w d [n] := fun d => ⟨by simpa [vertexExists] using hn, by simp, by simp, by simp⟩
  obtain ⟨d, hd⟩ := hw.rank
  obtain ⟨calls, h1, h2, -⟩ := bfs_visits (hw.forest hd) fuel [n] (hq d) ((below_le w [n]).trans hf)
  have hin : ∀ x ∈ calls.map Prod.fst, (w.tree.get x).isSome := by
    intro x hx
    obtain ⟨v, hv, hu⟩ := (h2.mem x).1 hx
    obtain rfl := List.mem_singleton.1 hv
    exact IsForest.in_view hu hn
  refine ⟨calls, h1, h2.nodup, fun x => by rw [h2.mem]; simp, ?_, ?_, ?_⟩
  · intro x p hx
    have h3 := h2.par _ hx
    obtain ⟨r, hr⟩ := Option.isSome_iff_exists.1 (hin x (List.mem_map.2 ⟨_, hx, rfl⟩))
    simp only [TreeView.parentOf, hr, Option.bind_some] at h3
    simp [getParent, hr, h3]
  · intro x p hx hne hp
    exact h2.first x p hx (by simpa using hne) ((hgp x p).1 hp)
  · intro d' hd'
    obtain ⟨calls', h1', -, h3⟩ := bfs_visits (hw.forest (d := d') (fun v p h => hd' v p ((hgp v p).2 h))) fuel [n] (hq d')
      ((below_le w [n]).trans hf)
    rw [h1] at h1'
    cases h1'
    exact h3

/-- the vertices of the same depth come one behind the other, whatever the branch -/
example : ((⟨[(0, ⟨none, [1, 2]⟩), (1, ⟨some 0, [3]⟩), (2, ⟨some 0, [4]⟩), (3, ⟨some 1, [5]⟩), (4, ⟨some 2, []⟩), (5, ⟨some 3, []⟩)], [], some 0, false,
      []⟩ : TreeView).visitBfs 6 [0]).val? =
    some [(0, none), (1, some 0), (2, some 0), (3, some 1), (4, some 2), (5, some 3)] := by decide +kernel

/-- Both throw when the start vertex is not in the view. -/
theorem C25_visit_unknown (w : TreeView) (n : VId) (hn : w.vertexExists n = false) (fuel : Nat) (hf : 0 < fuel) :
    w.visitDfs fuel n = .throw .outOfRange w ∧ w.visitBfs fuel [n] = .throw (.runtimeError "visitBfs") w := by
  have h : w.tree.get n = none := by simpa [vertexExists] using hn
  obtain ⟨k, rfl⟩ : ∃ k, fuel = k + 1 := ⟨fuel - 1, by omega⟩
  simp [visitDfs, visitBfs, h]

example : (⟨[(0, ⟨none, []⟩)], [], some 0, false, []⟩ : TreeView).visitDfs 1 7 = .throw .outOfRange ⟨[(0, ⟨none, []⟩)], [], some 0, false, []⟩ :=
  (C25_visit_unknown _ 7 rfl 1 (by decide)).1

/-- a tree with two branches -/
def C25.demo : TreeView :=
  ⟨[(0, ⟨none, [1, 2]⟩), (1, ⟨some 0, [3]⟩), (2, ⟨some 0, [4]⟩), (3, ⟨some 1, []⟩), (4, ⟨some 2, []⟩)], [], some 0, false,
    [.edgeAdded 0 1, .edgeAdded 0 2, .edgeAdded 1 3, .edgeAdded 2 4]⟩

example :
    (∃ s : GS DemoFrame Int,
      run [.addEdge "a" "b" 1, .addEdge "a" "c" 2, .addEdge "b" "d" 3, .addEdge "c" "e" 4] init = some s ∧
      getTreeFresh "a" s = .ok C25.demo s) ∧
    C25.demo.visitDfs 5 0 = .ok [(0, none), (1, some 0), (3, some 1), (2, some 0), (4, some 2)] C25.demo ∧
    C25.demo.visitBfs 5 [0] = .ok [(0, none), (1, some 0), (2, some 0), (3, some 1), (4, some 2)] C25.demo ∧
    C25.demo.visitDfs 5 2 = .ok [(2, some 0), (4, some 2)] C25.demo :=
  ⟨⟨_, rfl, rfl⟩, by simp [visitDfs, visitDfs.go, C25.demo, AMap.get], rfl, by simp [visitDfs, visitDfs.go, C25.demo, AMap.get]⟩

end Verif
