import Verif.Lemmas.Reenter
import Verif.Spec.TreeView
set_option linter.unusedSectionVars false
/-! Lemmas about `removeEdgeFromTreeViews` on arbitrary view objects. -/

namespace Verif
open GS
variable {F E : Type} [FrameProp F] [EdgeProp E]

theorem rmVerts_last {v : VId} : ∀ (vs : List VId) (w w' : TreeView), w.rmVerts (vs ++ [v]) = .ok () w' → w'.tree.get v = none := by
  intro vs
  induction vs with
  | nil =>
    intro w w' h
    simp only [List.nil_append, TreeView.rmVerts] at h
    split at h
    · cases h
    · split at h
      · cases h; simp [AMap.get_erase]
      · cases h
  | cons x vs ih =>
    intro w w' h
    simp only [List.cons_append, TreeView.rmVerts] at h
    split at h
    · cases h
    · split at h
      · exact ih _ _ h
      · cases h

theorem visitBfs_head {w w' : TreeView} {n : Nat} {v : VId} {l : List (VId × Option VId)} (h : w.visitBfs n [v] = .ok l w') :
    ∃ l', l.map (·.1) = v :: l' := by
  cases n with
  | zero => cases h
  | succ n =>
    rw [TreeView.visitBfs.eq_def] at h
    simp only at h
    split at h
    · cases h
    · split at h
      · cases h; exact ⟨_, rfl⟩
      · cases h
      · cases h

/-- the lower end of the removed connection is not in the view any more, whatever the view was -/
theorem removeEdge_absent {w w' : TreeView} {o t : VId} (h : w.removeEdge o t = .ok () w') :
    w'.tree.get o = none ∨ w'.tree.get t = none := by
  unfold TreeView.removeEdge at h
  simp only at h
  split at h
  · cases h
  · rename_i rt hrt
    have hc : rt = t ∨ rt = o := by
      split at hrt
      · cases hrt; exact Or.inl rfl
      · split at hrt
        · cases hrt; exact Or.inr rfl
        · cases hrt
    split at h
    · cases h
    · split at h <;> cases h
    · rename_i calls w0 hb
      obtain ⟨l', hl⟩ := visitBfs_head hb
      rw [hl] at h
      split at h
      · cases h
      · rw [List.reverse_cons] at h
        split at h
        · cases h
        · cases h
        · rename_i hv
          split at h
          · cases h
            have := rmVerts_last _ _ _ hv
            rcases hc with rfl | rfl
            · exact Or.inr this
            · exact Or.inl this
          · cases h

theorem edgeExists_false_iff {w : TreeView} {o t : VId} (h : w.edgeExists o t = some false) :
    ¬ (w.vertexExists o ∧ w.vertexExists t ∧ w.TreeEdge o t) := by
  rintro ⟨ho, ht, he⟩
  unfold TreeView.vertexExists at ho ht
  unfold TreeView.TreeEdge TreeView.parentOf at he
  unfold TreeView.edgeExists at h
  cases ha : w.tree.get o with
  | none => simp [ha] at ho
  | some ra =>
    cases hb : w.tree.get t with
    | none => simp [hb] at ht
    | some rb =>
      simp only [ha, hb, Option.bind_some] at h he
      rcases he with he | he
      · rw [if_pos he] at h
        split at h <;> cases h
      · split at h
        · split at h <;> cases h
        · split at h <;> cases h

theorem edgeExists_absent {w : TreeView} {o t : VId} (h : w.tree.get o = none ∨ w.tree.get t = none) :
    w.edgeExists o t = some false := by
  unfold TreeView.edgeExists
  rcases h with h | h
  · rw [h]
  · rw [h]; cases w.tree.get o <;> rfl

theorem removeEdgeFromTreeViews_gone {o t : VId} : ∀ (ps : List Nat) (vs vs' : Nat → TreeView),
    removeEdgeFromTreeViews o t ps vs = .ok () vs' →
    (∀ p ∈ ps, (vs' p).edgeExists o t = some false) ∧ (∀ p, (vs p).edgeExists o t = some false → (vs' p).edgeExists o t = some false) := by
  intro ps
  induction ps with
  | nil => intro vs vs' h; cases h; simp
  | cons p ps ih =>
    intro vs vs' h
    simp only [removeEdgeFromTreeViews] at h
    cases he : (vs p).edgeExists o t with
    | none => simp [he] at h
    | some b =>
      cases b with
      | false =>
        simp only [he] at h
        obtain ⟨h1, h2⟩ := ih vs vs' h
        refine ⟨?_, h2⟩
        intro q hq
        rcases List.mem_cons.mp hq with rfl | hq
        · exact h2 _ he
        · exact h1 q hq
      | true =>
        simp only [he] at h
        cases hr : (vs p).removeEdge o t with
        | throw x w => simp [hr] at h
        | ub r => simp [hr] at h
        | ok u w =>
          simp only [hr] at h
          obtain ⟨h1, h2⟩ := ih _ vs' h
          have hp : (setView vs p w p).edgeExists o t = some false := by
            simp only [setView, if_pos]
            exact edgeExists_absent (removeEdge_absent hr)
          refine ⟨?_, ?_⟩
          · intro q hq
            rcases List.mem_cons.mp hq with rfl | hq
            · exact h2 _ hp
            · exact h1 q hq
          · intro q hq
            apply h2
            by_cases hqp : q = p
            · subst hqp; exact hp
            · simpa [setView, hqp] using hq

end Verif
