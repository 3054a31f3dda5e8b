import Verif.Lemmas.Calls

set_option linter.unusedSectionVars false
set_option linter.unusedSimpArgs false
/-! Which exceptions the calls throw, and in which state. -/

namespace Verif
variable {F E : Type} [FrameProp F] [EdgeProp E]

theorem TreeView.visitBfs_throw {w : TreeView} {x : Exn} {w' : TreeView} (n : Nat) : ∀ {q : List VId},
    w.visitBfs n q = .throw x w' → ∃ m, x = .runtimeError m := by
  induction n with
  | zero => intro q h; cases q <;> simp [TreeView.visitBfs] at h
  | succ n ih =>
    intro q h
    cases q with
    | nil => simp [TreeView.visitBfs] at h
    | cons v q =>
      unfold TreeView.visitBfs at h
      split at h
      · simp only [Res.throw.injEq] at h; exact ⟨_, h.1.symm⟩
      · split at h
        · cases h
        · rename_i e s heq
          simp only [Res.throw.injEq] at h
          rw [h.1, h.2] at heq
          exact ih heq
        · cases h

theorem TreeView.rmVerts_not_throw {x : Exn} {w' : TreeView} {l : List VId} : ∀ {w : TreeView},
    w.rmVerts l ≠ .throw x w' := by
  induction l with
  | nil => intro w h; simp [TreeView.rmVerts] at h
  | cons v l ih =>
    intro w h
    unfold TreeView.rmVerts at h
    split at h
    · cases h
    · simp only at h
      split at h
      · exact ih h
      · cases h

theorem TreeView.removeEdge_throw {w w' : TreeView} {o t : VId} {x : Exn} (h : w.removeEdge o t = .throw x w') :
    ∃ m, x = .runtimeError m := by
  unfold TreeView.removeEdge at h
  simp only at h
  split at h
  · cases h
  · split at h
    · cases h
    · rename_i heq
      split at h
      · cases h
      · simp only [Res.throw.injEq] at h
        rw [h.1] at heq
        exact TreeView.visitBfs_throw _ heq
    · split at h
      · cases h
      · split at h
        · cases h
        · rename_i heq
          exact (TreeView.rmVerts_not_throw heq).elim
        · split at h
          · cases h
          · simp only [Res.throw.injEq] at h; exact ⟨_, h.1.symm⟩

namespace GS

theorem removeEdgeFromTreeViews_throw {o t : VId} {x : Exn} {vs' : Nat → TreeView} {ps : List Nat} :
    ∀ {vs : Nat → TreeView}, removeEdgeFromTreeViews o t ps vs = .throw x vs' → ∃ m, x = .runtimeError m := by
  induction ps with
  | nil => intro vs h; simp [removeEdgeFromTreeViews] at h
  | cons p ps ih =>
    intro vs h
    unfold removeEdgeFromTreeViews at h
    split at h
    · cases h
    · exact ih h
    · split at h
      · exact ih h
      · rename_i heq
        simp only [Res.throw.injEq] at h
        rw [h.1] at heq
        exact TreeView.removeEdge_throw heq
      · cases h

/-- `remove_edge` throws `UnknownEdgeException` before any change, or lets an exception of a tree view pass. -/
theorem removeEdgeBoth_throw {a b : FrameId} {u v : VId} {s s' : GS F E} {x : Exn}
    (h : removeEdgeBoth a b u v s = .throw x s') : (x = .unknownEdge a b ∧ s' = s) ∨ ∃ m, x = .runtimeError m := by
  unfold removeEdgeBoth at h
  split at h
  · split at h
    · cases h
    · simp only at h
      split at h
      · cases h
      · split at h
        · cases h
        · rename_i heq
          simp only [Res.throw.injEq] at h
          rw [h.1] at heq
          exact Or.inr (removeEdgeFromTreeViews_throw heq)
        · cases h
  · simp only [Res.throw.injEq] at h
    exact Or.inl ⟨h.1.symm, h.2.symm⟩

theorem removeEdge_throw {a b : FrameId} {s s' : GS F E} {x : Exn} (h : removeEdge a b s = .throw x s') :
    s' = s ∨ ∃ m, x = .runtimeError m := by
  unfold removeEdge at h
  split at h
  · simp only [Res.throw.injEq] at h; exact Or.inl h.2.symm
  · split at h
    · simp only [Res.throw.injEq] at h; exact Or.inl h.2.symm
    · rcases removeEdgeBoth_throw h with h | h
      · exact Or.inl h.2
      · exact Or.inr h

theorem disconnectLoop_throw {v : VId} {x : Exn} (n : Nat) : ∀ {s s' : GS F E}, disconnectLoop v n s = .throw x s' →
    (∃ a b, x = .unknownEdge a b) ∨ ∃ m, x = .runtimeError m := by
  induction n with
  | zero =>
    intro s s' h
    unfold disconnectLoop at h
    split at h <;> cases h
  | succ n ih =>
    intro s s' h
    unfold disconnectLoop at h
    split at h
    · cases h
    · simp only at h
      split at h
      · exact ih h
      · rename_i heq
        simp only [Res.throw.injEq] at h
        rw [h.1] at heq
        unfold removeEdgeD at heq
        split at heq
        · rcases removeEdgeBoth_throw heq with h | h
          · exact Or.inl ⟨_, _, h.1⟩
          · exact Or.inr h
        · cases heq
      · cases h

/-- `disconnectFrame` throws `UnknownFrameException` before any change. -/
theorem disconnectFrame_throw {f : FrameId} {s s' : GS F E} {x : Exn} (h : disconnectFrame f s = .throw x s')
    (hx : x = .unknownFrame f) : s' = s := by
  unfold disconnectFrame at h
  split at h
  · simp only [Res.throw.injEq] at h; exact h.2.symm
  · rcases disconnectLoop_throw _ h with ⟨a, b, h'⟩ | ⟨m, h'⟩ <;> rw [hx] at h' <;> cases h'

theorem removeFrame_throw {f : FrameId} {s s' : GS F E} {x : Exn} (h : removeFrame f s = .throw x s') : s' = s := by
  unfold removeFrame at h
  split at h
  · simp only [Res.throw.injEq] at h; exact h.2.symm
  · split at h
    · simp only [Res.throw.injEq] at h; exact h.2.symm
    · cases h

theorem setEdgeProperty_throw {a b : FrameId} {p : E} {s s' : GS F E} {x : Exn}
    (h : setEdgeProperty a b p s = .throw x s') : s' = s := by
  unfold setEdgeProperty at h
  split at h
  · simp only [Res.throw.injEq] at h; exact h.2.symm
  · split at h
    · simp only [Res.throw.injEq] at h; exact h.2.symm
    · split at h
      · simp only [Res.throw.injEq] at h; exact h.2.symm
      · simp only at h
        split at h <;> cases h

theorem addFrame_throw {f : FrameId} {s s' : GS F E} {x : Exn} (h : addFrame f s = .throw x s') : s' = s := by
  unfold addFrame at h
  split at h
  · cases h
  · simp only [Res.throw.injEq] at h; exact h.2.symm

theorem emplaceFrame_throw {f : FrameId} {p : F} {s s' : GS F E} {x : Exn} (h : emplaceFrame f p s = .throw x s') :
    s' = s := by
  unfold emplaceFrame at h
  split at h
  · cases h
  · simp only [Res.throw.injEq] at h; exact h.2.symm

theorem addEdgeD_throw {u v : VId} {p : E} {s s' : GS F E} {x : Exn} (h : addEdgeD u v p s = .throw x s') :
    (s.g.edge u v).isSome ∧ s' = s := by
  unfold addEdgeD at h
  split at h
  · split at h
    · rename_i hed
      simp only [Res.throw.injEq] at h
      exact ⟨by simp [hed], h.2.symm⟩
    · simp only at h
      split at h
      · cases h
      · rename_i heq
        exact (addEdgeToTreeViews_not_throw (e := ⟨s.g.nextE, u, v, p⟩) edge_addPair_fst edge_addPair_snd heq).elim
      · cases h
  · cases h

theorem orCreate_edges {f : FrameId} {v : Option VId} {s : GS F E} (x y : VId) :
    (orCreate f v s).1.g.edge x y = s.g.edge x y := by
  unfold orCreate
  cases v with
  | none => exact G.edge_addVertex _ _ _
  | some v => rfl

/-- `add_edge` throws only if the edge exists already, and then both frames existed: nothing was created. -/
theorem addEdge_throw {a b : FrameId} {p : E} {s s' : GS F E} {x : Exn} (hw : WF s.g)
    (h : addEdge a b p s = .throw x s') : s' = s := by
  unfold addEdge at h
  simp only at h
  obtain ⟨h1, h2⟩ := addEdgeD_throw h
  rw [orCreate_edges, orCreate_edges] at h1
  obtain ⟨e, he⟩ := Option.isSome_iff_exists.1 h1
  obtain ⟨hm, hs, ht⟩ := G.edge_some he
  obtain ⟨ra, hra, hra'⟩ := hw.esrc e hm
  obtain ⟨rb, hrb, hrb'⟩ := hw.etgt e hm
  have l1 := hw.vlt ra hra
  have l2 := hw.vlt rb hrb
  cases ha : s.g.vertexOf a with
  | none =>
    simp only [ha, orCreate, addVertexN, G.addVertex_new _ ha] at hs
    rw [hra', hs] at l1
    exact (Nat.lt_irrefl _ l1).elim
  | some u =>
    cases hb : s.g.vertexOf b with
    | none =>
      simp only [ha, hb, orCreate, addVertexN, G.addVertex_new _ hb] at ht
      rw [hrb', ht] at l2
      exact (Nat.lt_irrefl _ l2).elim
    | some v =>
      simpa [ha, hb, orCreate] using h2

end GS
end Verif
