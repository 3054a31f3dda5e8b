import Verif.Lemmas.Abs
import Verif.Lemmas.Steps
set_option linter.unusedSectionVars false
/-! Self edges: they stay for ever. -/

namespace Verif
open GS
variable {F E : Type} [FrameProp F] [EdgeProp E]

/-- the frame `a` with the vertex `u` has an edge to itself -/
def SelfAt (g : G F E) (a : FrameId) (u : VId) : Prop := g.vertexOf a = some u ∧ ∃ e ∈ g.edges, e.src = u ∧ e.tgt = u

theorem SelfAt.step {g g' : G F E} {x : Event × G F E} {a : FrameId} {u : VId} (hs : GStep g x g') (hw : WF g)
    (h : SelfAt g a u) : SelfAt g' a u := by
  obtain ⟨hu, e, he, h1, h2⟩ := h
  cases hs with
  | @addV f p hn hp =>
    refine ⟨?_, e, ?_, h1, h2⟩
    · rw [G.vertexOf_addVertex _ hn]
      rw [if_neg, hu]
      rintro rfl
      rw [hn] at hu
      cases hu
    · simp only [G.addVertex, G.vertexOf] at hn ⊢
      rw [hn]
      exact he
  | dupV => exact ⟨hu, e, he, h1, h2⟩
  | addE ha hb hn => exact ⟨hu, e, by simp [G.addEdge, he], h1, h2⟩
  | @rmE g1 _ a' b' u' v' e1 e2 ha hb k1 k2 hg1 hg2 =>
    obtain ⟨-, rfl⟩ := G.removeEdge_some hg1
    obtain ⟨⟨r, hr, hr2⟩, rfl⟩ := G.removeEdge_some hg2
    obtain ⟨m1, s1, t1⟩ := G.edge_some k1
    obtain ⟨m2, s2, t2⟩ := G.edge_some k2
    have hne : u' ≠ v' := by
      rintro rfl
      rw [k1] at k2
      obtain rfl := Option.some.inj k2
      simp only [List.mem_filter, decide_eq_true_eq] at hr
      exact hr.2 hr2
    refine ⟨hu, e, ?_, h1, h2⟩
    simp only [List.mem_filter, decide_eq_true_eq]
    refine ⟨⟨he, ?_⟩, ?_⟩
    · intro hid
      obtain rfl := map_inj_of_nodup hw.enodup he m1 hid
      exact hne (s1.symm.trans (h1.trans (h2.symm.trans t1)))
    · intro hid
      obtain rfl := map_inj_of_nodup hw.enodup he m2 hid
      exact hne (t2.symm.trans (h2.trans (h1.symm.trans s2)))
  | @setP a' b' u' v' e1 e2 p ha hb k1 k2 =>
    refine ⟨hu, ?_⟩
    have : ∀ (g : G F E) (i : EId) (q : E), (∃ e ∈ g.edges, e.src = u ∧ e.tgt = u) →
        ∃ e ∈ (g.setProp i q).edges, e.src = u ∧ e.tgt = u := by
      rintro g i q ⟨e, he, h1, h2⟩
      refine ⟨_, List.mem_map.2 ⟨e, he, rfl⟩, ?_, ?_⟩ <;> split <;> assumption
    exact this _ _ _ (this _ _ _ ⟨e, he, h1, h2⟩)
  | @rmV f v hv hd =>
    refine ⟨?_, e, he, h1, h2⟩
    rw [G.vertexOf_removeVertex]
    split
    · rename_i hf
      subst hf
      rw [hu] at hv
      obtain rfl := Option.some.inj hv
      exfalso
      simp only [G.degree, Nat.add_eq_zero_iff, List.length_eq_zero_iff] at hd
      have := hd.1
      rw [List.filter_eq_nil_iff] at this
      exact this e he (by simp [h1])
    · exact hu

theorem SelfAt.steps {P : G F E → Event → Prop} {g g' : G F E} {l : List (Event × G F E)} {a : FrameId} {u : VId}
    (hs : GSteps P g l g') (hw : WF g) (h : SelfAt g a u) : SelfAt g' a u := by
  induction hs with
  | nil => exact h
  | cons hs _ _ ih => exact ih (hs.wf hw) (h.step hs hw)

theorem selfAt_iff {s : GS F E} {a : FrameId} : (∃ u, SelfAt s.g a u) ↔ containsEdge a a s = .ok true s := by
  unfold SelfAt containsEdge
  cases hv : s.g.vertexOf a with
  | none => simp
  | some u =>
    simp only [Option.some.injEq, exists_eq_left', Res.ok.injEq, and_true]
    rw [← G.edge_isSome]

theorem SelfAt.edge {s : GS F E} {a : FrameId} {u : VId} (h : SelfAt s.g a u) :
    ∃ e, s.g.edge u u = some e ∧ e ∈ s.g.edges ∧ e.src = u ∧ e.tgt = u := by
  obtain ⟨hu, e, he, h1, h2⟩ := h
  obtain ⟨e', he'⟩ := Option.isSome_iff_exists.1 (G.edge_isSome.2 ⟨e, he, h1, h2⟩)
  obtain ⟨m, k1, k2⟩ := G.edge_some he'
  exact ⟨e', he', m, k1, k2⟩

theorem SelfAt.removeEdge {s : GS F E} {a : FrameId} {u : VId} (h : SelfAt s.g a u) :
    GS.removeEdge a a s = .ub "remove_edge: edge removed twice" := by
  obtain ⟨e, he, hm, -, -⟩ := h.edge
  have h1 : s.g.removeEdge e.id = some { s.g with edges := s.g.edges.filter (fun r => r.id ≠ e.id) } := by
    unfold G.removeEdge
    rw [if_pos]
    simp only [List.any_eq_true, decide_eq_true_eq]
    exact ⟨e, hm, rfl⟩
  have h2 : G.removeEdge { s.g with edges := s.g.edges.filter (fun r => r.id ≠ e.id) } e.id = none := by
    unfold G.removeEdge
    rw [if_neg]
    simp
  simp only [GS.removeEdge, h.1, removeEdgeBoth, he, h1, h2]

theorem addEdgeD_self {u : VId} {p : E} {s s' : GS F E} (h : addEdgeD u u p s = .ok () s') :
    (∃ e ∈ s'.g.edges, e.src = u ∧ e.tgt = u) ∧ ∀ f, s'.g.vertexOf f = s.g.vertexOf f := by
  unfold addEdgeD at h
  split at h
  · split at h
    · cases h
    · simp only at h
      split at h
      · cases h
        exact ⟨⟨⟨s.g.nextE, u, u, p⟩, by simp [notify, G.addEdge], rfl, rfl⟩, fun _ => rfl⟩
      · cases h
      · cases h
  · cases h

theorem addEdge_self {a : FrameId} {p : E} {s s' : GS F E} (h : GS.addEdge a a p s = .ok () s') : ∃ u, SelfAt s'.g a u := by
  obtain ⟨-, b1, c1⟩ := orCreate_spec (s := s) (s0 := s) (f := a) (fun f v h => h)
  obtain ⟨-, b2, c2⟩ := orCreate_spec (s := (orCreate a (s.g.vertexOf a) s).1) (s0 := s) (f := a) c1
  unfold GS.addEdge at h
  simp only at h
  have he : (orCreate a (s.g.vertexOf a) s).2 = (orCreate a (s.g.vertexOf a) (orCreate a (s.g.vertexOf a) s).1).2 :=
    Option.some.inj ((c2 _ _ b1).symm.trans b2)
  rw [← he] at h b2
  obtain ⟨k1, k2⟩ := addEdgeD_self h
  exact ⟨_, by rw [k2]; exact b2, k1⟩

theorem disconnectLoop_ok_empty {v : VId} (n : Nat) : ∀ {s s' : GS F E}, disconnectLoop v n s = .ok () s' → s'.g.outEdges v = [] := by
  induction n with
  | zero =>
    intro s s' h
    unfold disconnectLoop at h
    split at h
    · rename_i h0
      cases h
      exact h0
    · cases h
  | succ n ih =>
    intro s s' h
    unfold disconnectLoop at h
    split at h
    · rename_i h0
      cases h
      exact h0
    · simp only at h
      split at h
      · exact ih h
      · cases h
      · cases h

end Verif
