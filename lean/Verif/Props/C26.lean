import Verif.Lemmas.ViewFollow
import Verif.Spec.Demo
/-! # C26: edgeExists, vertexExists, getParent and isParent agree -/

namespace Verif
open GS TreeView
variable {F E : Type}

/-- On a correct view, for all vertices `a`, `b`:
* `edgeExists(a, b)` never fails an assertion and equals `edgeExists(b, a)`,
* it is true iff both are in the view and `isParent(a, b)` or `isParent(b, a)`,
* then both are in the view,
* `isParent(a, b)` is true iff `getParent(b)` is `a`. -/
theorem C26_queries_agree (g : G F E) (root : VId) (w : TreeView) (hw : IsTreeView g root w) (a b : VId) :
    ∃ r, w.edgeExists a b = some r ∧ w.edgeExists b a = some r ∧
      (r = true ↔ (w.vertexExists a = true ∧ w.vertexExists b = true) ∧
        (w.isParent a b = .ok true w ∨ w.isParent b a = .ok true w)) ∧
      (w.isParent a b = .ok true w ↔ w.getParent (some b) = .ok (some a) w) := by
  have hip : w.isParent a b = .ok true w ↔ w.getParent (some b) = .ok (some a) w := by
    unfold isParent getParent
    cases hb : w.tree.get b <;> simp [hb]
  cases ha : w.tree.get a with
  | none => exact ⟨false, by simp [edgeExists, ha], by cases hb : w.tree.get b <;> simp [edgeExists, ha, hb],
      by simp [vertexExists, ha], hip⟩
  | some ra =>
    cases hb : w.tree.get b with
    | none => exact ⟨false, by simp [edgeExists, ha, hb], by simp [edgeExists, ha, hb], by simp [vertexExists, hb], hip⟩
    | some rb =>
      have pa : w.parentOf a = ra.parent := by simp [TreeView.parentOf, ha]
      have pb : w.parentOf b = rb.parent := by simp [TreeView.parentOf, hb]
      have h1 : b ∈ ra.children ↔ rb.parent = some a := by rw [(hw.children a ra ha).2 b, pb]
      have h2 : a ∈ rb.children ↔ ra.parent = some b := by rw [(hw.children b rb hb).2 a, pa]
      refine ⟨decide (ra.parent = some b ∨ rb.parent = some a), ?_, ?_, ?_, hip⟩
      · unfold edgeExists
        simp only [ha, hb, h1, h2]
        by_cases c1 : ra.parent = some b <;> by_cases c2 : rb.parent = some a <;> simp [c1, c2]
      · unfold edgeExists
        simp only [ha, hb, h1, h2]
        by_cases c1 : ra.parent = some b <;> by_cases c2 : rb.parent = some a <;> simp [c1, c2]
      · simp [vertexExists, isParent, ha, hb, or_comm]

/-- the star with the middle b and the root a -/
example : ∃ s : GS DemoFrame Int, run [.addEdge "a" "b" 1, .addEdge "b" "c" 2, .addEdge "d" "b" 2] init = some s ∧
    ∃ w, getTreeFresh "a" s = .ok w s ∧ w.edgeExists 1 3 = some true ∧ w.edgeExists 3 1 = some true ∧ w.edgeExists 2 3 = some false ∧
      w.isParent 1 3 = .ok true w ∧ w.getParent (some 3) = .ok (some 1) w :=
  ⟨_, rfl, _, rfl, rfl, rfl, rfl, rfl, rfl⟩

/-- `edgeExists` is true exactly for the neighbours in the view; unless a vertex is its own parent this excludes `a = b`. -/
theorem C26_no_loop (g : G F E) (root : VId) (w : TreeView) (hw : IsTreeView g root w) (a : VId) :
    w.edgeExists a a = some false := by
  obtain ⟨d, hd⟩ := hw.rank
  unfold edgeExists
  cases ha : w.tree.get a with
  | none => rfl
  | some ra =>
    have : ra.parent ≠ some a := by
      intro h
      have := hd a a (by simp [TreeView.parentOf, ha, h])
      omega
    simp [this]

/-- also for the root and for a vertex that is not in the view -/
example : ∃ s : GS DemoFrame Int, run [.addEdge "a" "b" 1] init = some s ∧
    ∃ w, getTreeFresh "a" s = .ok w s ∧ w.edgeExists 0 0 = some false ∧ w.edgeExists 1 1 = some false ∧ w.edgeExists 9 9 = some false :=
  ⟨_, rfl, _, rfl, rfl, rfl, rfl⟩

/-- On every view `getParent` throws iff the vertex is null or not in the view, and never changes the view. -/
theorem C26_getParent_throws (w : TreeView) (v : Option VId) :
    (∃ e, w.getParent v = .throw e w) ↔ ¬ ∃ u, v = some u ∧ w.vertexExists u = true := by
  unfold getParent vertexExists
  cases v with
  | none => simp
  | some u => cases h : w.tree.get u <;> simp [h]

/-- null, a vertex outside, and the root, whose parent is null -/
example : ∃ s : GS DemoFrame Int, run [.addEdge "a" "b" 1] init = some s ∧
    ∃ w, getTreeFresh "a" s = .ok w s ∧ (∃ e, w.getParent none = .throw e w) ∧ (∃ e, w.getParent (some 9) = .throw e w) ∧
      w.getParent (some 0) = .ok none w :=
  ⟨_, rfl, _, rfl, ⟨_, rfl⟩, ⟨_, rfl⟩, rfl⟩

/-- On every view `isParent` throws iff the child is not in the view; the parent need not be in it. -/
theorem C26_isParent_throws (w : TreeView) (p c : VId) :
    (∃ e, w.isParent p c = .throw e w) ↔ w.vertexExists c = false := by
  unfold isParent vertexExists
  cases h : w.tree.get c <;> simp

/-- the chain a-b-c -/
example : ∃ s : GS DemoFrame Int, run [.addEdge "a" "b" 1, .addEdge "b" "c" 2] init = some s ∧
    ∃ w, getTreeFresh "a" s = .ok w s ∧ w.edgeExists 1 2 = some true ∧ w.edgeExists 2 1 = some true ∧
      w.edgeExists 0 2 = some false ∧ w.isParent 1 2 = .ok true w ∧ w.isParent 2 1 = .ok false w ∧
      w.isParent 7 0 = .ok false w ∧ w.isParent 0 7 = .throw .outOfRange w :=
  ⟨_, rfl, _, rfl, rfl, rfl, rfl, rfl, rfl, rfl, rfl⟩

end Verif
