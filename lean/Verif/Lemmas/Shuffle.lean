import Verif.Spec.Shuffle
import Verif.Lemmas.ViewFollow
import Verif.Lemmas.ViewVisit
import Mathlib.Data.List.Perm.Basic
import Mathlib.Data.Option.Basic
set_option linter.unusedSectionVars false
/-! Views that differ only in the order of the children. -/

namespace Verif

theorem VRel.Shuffle.refl (r : VRel) : r.Shuffle r := ⟨rfl, .refl _⟩
theorem VRel.Shuffle.symm {r r' : VRel} (h : r.Shuffle r') : r'.Shuffle r := ⟨h.parent.symm, h.children.symm⟩
theorem VRel.Shuffle.trans {a b c : VRel} (h : a.Shuffle b) (k : b.Shuffle c) : a.Shuffle c :=
  ⟨k.parent.trans h.parent, k.children.trans h.children⟩

namespace TreeView

theorem Shuffle.refl (w : TreeView) : w.Shuffle w :=
  ⟨fun v => by cases w.tree.get v <;> constructor; exact .refl _, rfl, rfl, rfl, .refl _⟩

theorem Shuffle.symm {w w' : TreeView} (h : w.Shuffle w') : w'.Shuffle w := by
  refine ⟨fun v => ?_, h.cross.symm, h.root.symm, h.publisher.symm, h.signals.symm⟩
  have := h.get v
  cases hx : w.tree.get v <;> cases hy : w'.tree.get v <;> rw [hx, hy] at this <;> cases this
  · exact .none
  · rename_i k; exact .some k.symm

theorem Shuffle.trans {a b c : TreeView} (h : a.Shuffle b) (k : b.Shuffle c) : a.Shuffle c := by
  refine ⟨fun v => ?_, k.cross.trans h.cross, k.root.trans h.root, k.publisher.trans h.publisher,
    k.signals.trans h.signals⟩
  have h1 := h.get v
  have h2 := k.get v
  cases hx : a.tree.get v <;> cases hy : b.tree.get v <;> cases hz : c.tree.get v <;> rw [hx, hy] at h1 <;> rw [hy, hz] at h2 <;>
    cases h1 <;> cases h2
  · exact .none
  · rename_i k1 k2; exact .some (k1.trans k2)

variable {w w' : TreeView}

theorem Shuffle.entry (h : w.Shuffle w') (v : VId) : (w.tree.get v = none ∧ w'.tree.get v = none) ∨
    ∃ r r', w.tree.get v = some r ∧ w'.tree.get v = some r' ∧ r.Shuffle r' := by
  have := h.get v
  generalize w.tree.get v = x at this
  generalize w'.tree.get v = y at this
  cases this with
  | none => exact Or.inl ⟨rfl, rfl⟩
  | some k => exact Or.inr ⟨_, _, rfl, rfl, k⟩

theorem Shuffle.relOf (h : w.Shuffle w') (v : VId) : (w.relOf v).Shuffle (w'.relOf v) := by
  unfold TreeView.relOf
  have := h.get v
  cases hx : w.tree.get v <;> cases hy : w'.tree.get v <;> rw [hx, hy] at this <;> cases this
  · exact .refl _
  · rename_i k; exact k

theorem Shuffle.isSome (h : w.Shuffle w') (v : VId) : (w'.tree.get v).isSome = (w.tree.get v).isSome := by
  have := h.get v
  cases hx : w.tree.get v <;> cases hy : w'.tree.get v <;> rw [hx, hy] at this <;> cases this <;> rfl

theorem Shuffle.vertexExists (h : w.Shuffle w') (v : VId) : w'.vertexExists v = w.vertexExists v := h.isSome v

theorem Shuffle.parentOf (h : w.Shuffle w') (v : VId) : w'.parentOf v = w.parentOf v := by
  unfold TreeView.parentOf
  rcases h.entry v with ⟨h1, h2⟩ | ⟨r, r', h1, h2, k⟩
  · rw [h1, h2]
  · rw [h1, h2]; exact k.parent

theorem Shuffle.parentOf' (h : w.Shuffle w') : w'.parentOf = w.parentOf := funext h.parentOf

theorem Shuffle.edgeExists (h : w.Shuffle w') (a b : VId) : w'.edgeExists a b = w.edgeExists a b := by
  unfold TreeView.edgeExists
  rcases h.entry a with ⟨h1, h2⟩ | ⟨r, r', h1, h2, k1⟩
  · rw [h1, h2]
  · rw [h1, h2]
    rcases h.entry b with ⟨h3, h4⟩ | ⟨q, q', h3, h4, k2⟩
    · rw [h3, h4]
    · rw [h3, h4]
      simp only [k1.parent, k2.parent, k1.children.mem_iff, k2.children.mem_iff]

theorem Shuffle.set (h : w.Shuffle w') (k : VId) {r r' : VRel} (hr : r.Shuffle r') (v : VId) :
    Option.Rel VRel.Shuffle ((w.tree.set k r).get v) ((w'.tree.set k r').get v) := by
  rw [AMap.get_set, AMap.get_set]
  split
  · exact .some hr
  · exact h.get v

theorem perm_setInsert {l l' : List VId} (h : l'.Perm l) (t : VId) : (setInsert l' t).Perm (setInsert l t) := by
  unfold setInsert
  by_cases ht : t ∈ l
  · rw [if_pos ht, if_pos (h.mem_iff.2 ht)]; exact h
  · rw [if_neg ht, if_neg (mt h.mem_iff.1 ht)]; exact h.append_right _

theorem Shuffle.addCrossEdge (h : w.Shuffle w') (o t : VId) (e : EId) : (w.addCrossEdge o t e).Shuffle (w'.addCrossEdge o t e) :=
  ⟨h.get, by simp [TreeView.addCrossEdge, h.cross], h.root, h.publisher, h.signals.append_right _⟩

theorem Shuffle.setRel (h : w.Shuffle w') (k : VId) {r r' : VRel} (hr : r.Shuffle r') :
    Shuffle { w with tree := w.tree.set k r } { w' with tree := w'.tree.set k r' } :=
  ⟨h.set k hr, h.cross, h.root, h.publisher, h.signals⟩

theorem Shuffle.addEdge (h : w.Shuffle w') (o t : VId) : (w.addEdge o t).Shuffle (w'.addEdge o t) := by
  have key : ∀ u u' : TreeView, u.Shuffle u' →
      Shuffle { u with tree := u.tree.set t { u.relOf t with parent := some o }, signals := u.signals ++ [.edgeAdded o t] }
        { u' with tree := u'.tree.set t { u'.relOf t with parent := some o }, signals := u'.signals ++ [.edgeAdded o t] } := by
    intro u u' h1
    have h2 := h1.setRel t (r := { u.relOf t with parent := some o }) (r' := { u'.relOf t with parent := some o })
      ⟨rfl, (h1.relOf t).children⟩
    exact ⟨h2.get, h2.cross, h2.root, h2.publisher, h2.signals.append_right _⟩
  exact key _ _ (h.setRel o (r := { w.relOf o with children := setInsert (w.relOf o).children t })
    (r' := { w'.relOf o with children := setInsert (w'.relOf o).children t })
    ⟨(h.relOf o).parent, perm_setInsert (h.relOf o).children t⟩)

theorem Shuffle.addRoot (h : w.Shuffle w') (r : VId) : (w.addRoot r).Shuffle (w'.addRoot r) := by
  have h1 := h.setRel r (r := { w.relOf r with parent := none }) (r' := { w'.relOf r with parent := none }) ⟨rfl, (h.relOf r).children⟩
  exact ⟨h1.get, h1.cross, rfl, h1.publisher, h1.signals⟩

theorem Shuffle.build (evs : List BfsEv) : ∀ {w w' : TreeView}, w.Shuffle w' → (w.build evs).Shuffle (w'.build evs) := by
  induction evs with
  | nil => intro w w' h; exact h
  | cons ev evs ih =>
    intro w w' h
    refine ih (w := buildStep w ev) (w' := buildStep w' ev) ?_
    cases ev with
    | discover v => exact h
    | treeEdge a => exact h.addEdge _ _
    | grayTarget a => exact h.addCrossEdge _ _ _
    | blackTarget a => exact h

theorem Shuffle.empty (h : TreeView.empty.Shuffle w') : w' = TreeView.empty := by
  obtain ⟨t, c, r, p, g⟩ := w'
  have h1 : t = [] := by
    cases t with
    | nil => rfl
    | cons x t =>
      have := h.get x.1
      simp only [TreeView.empty, AMap.get_nil, AMap.get_cons, if_true] at this
      cases this
  have h2 := h.cross
  have h3 := h.root
  have h4 := h.publisher
  have h5 := h.signals
  simp only [TreeView.empty, List.perm_nil] at h2 h3 h4 h5
  subst h1 h2 h3 h4 h5
  rfl

theorem Shuffle.treeEdge (h : w.Shuffle w') (a b : VId) : w'.TreeEdge a b ↔ w.TreeEdge a b := by
  unfold TreeEdge; rw [h.parentOf, h.parentOf]

theorem Shuffle.under (h : w.Shuffle w') (x v : VId) : w'.Under x v ↔ w.Under x v := by
  unfold Under; rw [h.parentOf']

theorem Shuffle.cut (h : w.Shuffle w') (a b x : VId) : w'.Cut a b x ↔ w.Cut a b x := by
  unfold Cut; rw [h.parentOf, h.parentOf, h.under, h.under]

theorem Shuffle.sealed (h : w.Shuffle w') (a b : VId) : w'.Sealed a b ↔ w.Sealed a b := by
  unfold Sealed; simp only [h.treeEdge, h.cut, h.cross]

theorem Shuffle.deepestFirst (h : w.Shuffle w') (a b : VId) : w'.DeepestFirst a b ↔ w.DeepestFirst a b := by
  unfold DeepestFirst; simp only [h.treeEdge, h.cut, h.cross, h.parentOf]

theorem Shuffle.childrenOk (h : w.Shuffle w')
    (k : ∀ p rel, w.tree.get p = some rel → rel.children.Nodup ∧ ∀ c, c ∈ rel.children ↔ w.parentOf c = some p) :
    ∀ p rel, w'.tree.get p = some rel → rel.children.Nodup ∧ ∀ c, c ∈ rel.children ↔ w'.parentOf c = some p := by
  intro p rel hp
  have h1 := h.get p
  cases hx : w.tree.get p with
  | none => rw [hx, hp] at h1; cases h1
  | some r =>
    rw [hx, hp] at h1
    cases h1 with
    | some h2 =>
      obtain ⟨k1, k2⟩ := k p r hx
      exact ⟨(h2.children.nodup_iff).2 k1, fun c => by rw [h2.children.mem_iff, h.parentOf]; exact k2 c⟩

theorem Shuffle.tidy (h : w.Shuffle w') (k : w.Tidy) : w'.Tidy := by
  refine ⟨h.childrenOk k.children, fun v p => ?_, ?_⟩
  · rw [h.parentOf, h.vertexExists]; exact k.parent v p
  · obtain ⟨d, hd⟩ := k.rank
    exact ⟨d, fun v p => by rw [h.parentOf]; exact hd v p⟩

end TreeView

theorem TreeView.Shuffle.isTreeView {F E : Type} {g : G F E} {root : VId} {w w' : TreeView} (h : w.Shuffle w') (k : IsTreeView g root w) :
    IsTreeView g root w' := by
  refine ⟨h.root.trans k.root_eq, fun v => by rw [h.vertexExists]; exact k.span v, by rw [h.parentOf]; exact k.root_parent,
    fun v => ?_, h.childrenOk k.children, ?_, by rw [h.cross]; exact k.cross_edge, fun u v => ?_, fun u v => ?_⟩
  · rw [h.vertexExists, h.parentOf]; exact k.parent v
  · obtain ⟨d, hd⟩ := k.rank
    exact ⟨d, fun v p => by rw [h.parentOf]; exact hd v p⟩
  · rw [h.treeEdge, h.cross]; exact k.tree_not_cross u v
  · rw [h.treeEdge, h.cross]; exact k.cross_once u v

theorem TreeView.Tidy.forest {w : TreeView} (h : w.Tidy) : ∃ d, IsForest w d := by
  obtain ⟨d, hd⟩ := h.rank
  exact ⟨d, h.children, hd⟩

end Verif
