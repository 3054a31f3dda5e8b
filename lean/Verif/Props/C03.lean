import Verif.Lemmas.Sim
import Verif.Spec.Demo
/-! # C03: every edge that can be added can be removed again -/

namespace Verif
open GS
variable {F E : Type} [FrameProp F] [EdgeProp E]

/-- For `a ≠ b`: if `add_edge(a,b,p)` succeeds, `remove_edge(a,b)` and `remove_edge(b,a)` succeed afterwards; then the frames
are the old ones plus `a` and `b`, and every query for an edge between old frames answers as before, edges of new frames do not
exist.  Missing for the full claim: `a = b` (false, see `C03_self_edge_fails`) and graphs with subscribed tree views
(C24). -/
theorem C03_add_then_remove_partial (cs : List (Cmd F E)) (hcs : ∀ c ∈ cs, c.plain) (s : GS F E) (h : run cs init = some s)
    (a b : FrameId) (hab : a ≠ b) (p : E) (s1 : GS F E) (h1 : addEdge a b p s = .ok () s1) :
    ∀ x y, (x = a ∧ y = b) ∨ (x = b ∧ y = a) → ∃ s2, removeEdge x y s1 = .ok () s2 ∧
      (∀ f, containsFrame f s2 = true ↔ containsFrame f s = true ∨ f = a ∨ f = b) ∧
      (∀ f f' q, getEdgeProperty f f' s2 = .ok q s2 ↔ getEdgeProperty f f' s = .ok q s) ∧
      numEdges s2 = numEdges s := by
  obtain ⟨s', -, hsim, hrun⟩ := Sim.outcomes hcs (Sim.init (F := F) (E := E))
  obtain rfl : s' = s := Option.some.inj (hrun.symm.trans h)
  generalize hA : (AGraph.empty.run cs).2 = A at hsim
  have hadd := hsim.addEdge hab p
  have hne : ¬ (A.edges a b).isSome := by
    intro hh
    rw [if_pos hh, h1] at hadd
    cases hadd
  rw [if_neg hne] at hadd
  obtain ⟨s1', e1, sim1⟩ := hadd
  obtain rfl : s1' = s1 := by rw [h1] at e1; simpa using e1.symm
  have hne2 : A.edges b a = none := by
    by_contra hh
    have : (absEdge s'.g b a).isSome := by rw [hsim.edges]; exact Option.isSome_iff_ne_none.2 hh
    obtain ⟨u, v, e, hu, hv, he⟩ := absEdge_isSome this
    obtain ⟨e', he', -⟩ := hsim.paired.inverse he
    apply hne
    rw [← hsim.edges, absEdge_of hv hu, he']
    rfl
  have hne1 : A.edges a b = none := by simpa using hne
  have hget : ∀ {t : GS F E} {B : AGraph E}, Sim t B → ∀ f f' q, getEdgeProperty f f' t = .ok q t ↔ B.edges f f' = some q := by
    intro t B ht f f' q
    rw [← ht.edges]
    unfold getEdgeProperty getEdge
    cases hf : t.g.vertexOf f with
    | none => simp [absEdge_none_left hf]
    | some u =>
      cases hf' : t.g.vertexOf f' with
      | none => simp [absEdge_none_right hf']
      | some v =>
        rw [absEdge_of hf hf']
        cases he : t.g.edge u v <;> simp [he]
  intro x y hxy
  have hxyA : ((A.connect a b p).edges x y).isSome := by
    rcases hxy with ⟨rfl, rfl⟩ | ⟨rfl, rfl⟩
    · simp [AGraph.connect]
    · simp only [AGraph.connect]
      split
      · rfl
      · simp
  have hx : x ∈ (A.connect a b p).frames := by rcases hxy with ⟨rfl, rfl⟩ | ⟨rfl, rfl⟩ <;> simp [AGraph.connect]
  have hy : y ∈ (A.connect a b p).frames := by rcases hxy with ⟨rfl, rfl⟩ | ⟨rfl, rfl⟩ <;> simp [AGraph.connect]
  have hrm := sim1.removeEdge hx hy
  rw [if_pos hxyA] at hrm
  obtain ⟨s2, e2, sim2⟩ := hrm
  have hB : ∀ f f', ((A.connect a b p).disconnect x y).edges f f' = A.edges f f' := by
    intro f f'
    simp only [AGraph.disconnect, AGraph.connect]
    by_cases c1 : f = a ∧ f' = b
    · obtain ⟨rfl, rfl⟩ := c1
      rw [hne1]
      rcases hxy with ⟨rfl, rfl⟩ | ⟨rfl, rfl⟩ <;> simp
    · by_cases c2 : f = b ∧ f' = a
      · obtain ⟨rfl, rfl⟩ := c2
        rw [hne2]
        rcases hxy with ⟨rfl, rfl⟩ | ⟨rfl, rfl⟩ <;> simp
      · rw [if_neg, if_neg c1, if_neg c2]
        rcases hxy with ⟨rfl, rfl⟩ | ⟨rfl, rfl⟩
        · exact not_or.2 ⟨c1, c2⟩
        · exact not_or.2 ⟨c2, c1⟩
  refine ⟨s2, e2, ?_, ?_, ?_⟩
  · intro f
    simp only [containsFrame, sim2.frames, hsim.frames]
    simp only [AGraph.disconnect, AGraph.connect, Finset.mem_insert]
    tauto
  · intro f f' q
    rw [hget sim2, hget hsim, hB]
  · rw [sim2.numEdges, hsim.numEdges]
    congr 1
    ext ⟨f, f'⟩
    simp only [AGraph.pairs, Finset.mem_filter, Finset.mem_product, hB]
    simp only [AGraph.disconnect, AGraph.connect, Finset.mem_insert]
    constructor
    · rintro ⟨-, h2⟩
      refine ⟨?_, h2⟩
      rw [← hsim.edges] at h2
      obtain ⟨u, v, e, hu, hv, -⟩ := absEdge_isSome h2
      exact ⟨(hsim.frames f).1 (by simp [hu]), (hsim.frames f').1 (by simp [hv])⟩
    · rintro ⟨⟨h1, h1'⟩, h2⟩
      exact ⟨⟨Or.inr (Or.inr h1), Or.inr (Or.inr h1')⟩, h2⟩

/-- the hypotheses hold for a graph that already has edges, one of the frames being new -/
example : ∃ s s1 : GS DemoFrame Int,
    run [.addEdge "a" "c" 1, .addFrame "x"] init = some s ∧ addEdge "a" "b" 3 s = .ok () s1 ∧
    ∀ c ∈ ([.addEdge "a" "c" 1, .addFrame "x"] : List (Cmd DemoFrame Int)), c.plain :=
  ⟨_, _, rfl, rfl, by simp [Cmd.plain]⟩

/-- The full claim is false: an edge from a frame to itself can be added but removing it erases the same edge twice. -/
theorem C03_self_edge_fails : ∃ s s1 : GS DemoFrame Int,
    run [.addFrame "a"] init = some s ∧ addEdge "a" "a" 1 s = .ok () s1 ∧
    removeEdge "a" "a" s1 = .ub "remove_edge: edge removed twice" :=
  ⟨_, _, rfl, rfl, rfl⟩

end Verif
