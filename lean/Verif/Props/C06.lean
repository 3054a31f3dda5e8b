import Verif.Lemmas.Sim
import Verif.Spec.Demo
/-! # C06: removeFrame refuses exactly the connected frames -/

namespace Verif
open GS
variable {F E : Type} [FrameProp F] [EdgeProp E]

/-- After any history (self edges and views included) `removeFrame(f)` throws `UnknownFrameException` iff `f` is not contained,
throws `FrameStillConnectedException` iff it is contained and some edge starts or ends at it, and never throws anything else;
otherwise exactly `f` is removed: the other frames keep their vertices and properties, the edges are the same, and one
`FrameRemovedEvent` is published. -/
theorem C06_removeFrame_decision (cs : List (Cmd F E)) (s : GS F E) (h : run cs init = some s) (f : FrameId) :
    (containsFrame f s = false ↔ removeFrame f s = .throw (.unknownFrame f) s) ∧
    ((containsFrame f s = true ∧ ∃ x, containsEdge f x s = .ok true s ∨ containsEdge x f s = .ok true s) ↔
      removeFrame f s = .throw (.frameStillConnected f) s) ∧
    (containsFrame f s = true → (¬ ∃ x, containsEdge f x s = .ok true s ∨ containsEdge x f s = .ok true s) →
      ∃ s', removeFrame f s = .ok () s' ∧
        containsFrame f s' = false ∧
        (∀ x, x ≠ f → s'.g.vertexOf x = s.g.vertexOf x ∧
          ∀ p, getFrameProperty x s' = .ok p s' ↔ getFrameProperty x s = .ok p s) ∧
        getEdges s' = getEdges s ∧ s'.views = s.views ∧ s'.subs = s.subs ∧
        s'.trace.map Prod.fst = s.trace.map Prod.fst ++ [.frameRemoved f]) := by
  have hw : WF s.g := run_wf WF.empty h
  have key : ∀ v, s.g.vertexOf f = some v →
      ((∃ x, containsEdge f x s = .ok true s ∨ containsEdge x f s = .ok true s) ↔ s.g.degree v ≠ 0) := by
    intro v hv
    rw [ne_eq, G.degree_eq_zero]
    constructor
    · rintro ⟨x, hx | hx⟩ hall
      · unfold containsEdge at hx
        cases hx' : s.g.vertexOf x with
        | none => simp [hv, hx'] at hx
        | some w =>
          simp only [hv, hx', Res.ok.injEq, and_true] at hx
          obtain ⟨e, he, h1, h2⟩ := G.edge_isSome.1 hx
          exact (hall e he).1 h1
      · unfold containsEdge at hx
        cases hx' : s.g.vertexOf x with
        | none => simp [hx'] at hx
        | some w =>
          simp only [hv, hx', Res.ok.injEq, and_true] at hx
          obtain ⟨e, he, h1, h2⟩ := G.edge_isSome.1 hx
          exact (hall e he).2 h2
    · intro hall
      by_contra hno
      apply hall
      intro e he
      constructor
      · intro hs
        have ht := vertexOf_nameOf hw (hw.etgt e he)
        refine hno ⟨nameOf s.g e.tgt, Or.inl ?_⟩
        simp only [containsEdge, hv, ht, Res.ok.injEq, and_true]
        exact G.edge_isSome.2 ⟨e, he, hs, rfl⟩
      · intro ht
        have hs := vertexOf_nameOf hw (hw.esrc e he)
        refine hno ⟨nameOf s.g e.src, Or.inr ?_⟩
        simp only [containsEdge, hv, hs, Res.ok.injEq, and_true]
        exact G.edge_isSome.2 ⟨e, he, rfl, ht⟩
  cases hv : s.g.vertexOf f with
  | none =>
    have hc : containsFrame f s = false := by simp [containsFrame, hv]
    have hr : removeFrame f s = .throw (.unknownFrame f) s := by simp [removeFrame, hv]
    refine ⟨by simp [hc, hr], ?_, ?_⟩
    · rw [hc, hr]; simp
    · rw [hc]; simp
  | some v =>
    have hc : containsFrame f s = true := by simp [containsFrame, hv]
    have hk := key v hv
    have hr : removeFrame f s = if s.g.degree v > 0 then .throw (.frameStillConnected f) s
        else .ok () (notify (.frameRemoved f) { s with g := s.g.removeVertex v f }) := by simp [removeFrame, hv]
    refine ⟨?_, ?_, ?_⟩
    · rw [hc, hr]; split <;> simp
    · rw [hc, hr, hk]
      by_cases hd : s.g.degree v = 0
      · simp [hd]
      · simp [hd, Nat.pos_of_ne_zero hd]
    · intro _ hno
      have hd : s.g.degree v = 0 := by
        by_contra hd; exact hno (hk.2 hd)
      rw [hr, if_neg (by omega)]
      refine ⟨_, rfl, ?_, ?_, rfl, rfl, rfl, by simp [notify]⟩
      · simp [containsFrame, notify, G.vertexOf_removeVertex]
      · intro x hx
        have hvx : (s.g.removeVertex v f).vertexOf x = s.g.vertexOf x := by
          rw [G.vertexOf_removeVertex, if_neg (Ne.symm hx)]
        refine ⟨hvx, ?_⟩
        intro p
        simp only [getFrameProperty, notify, hvx]
        cases hxx : s.g.vertexOf x with
        | none => simp
        | some w =>
          have hwv : w ≠ v := by
            rintro rfl; exact hx (hw.vertexOf_inj hxx hv)
          have hfind : (s.g.removeVertex v f).findV w = s.g.findV w := by
            simp only [G.findV, G.removeVertex, List.find?_filter]
            congr 1
            funext r
            by_cases hrw : r.id = w
            · simp [hrw, hwv]
            · simp [hrw]
          simp only [hfind]
          cases s.g.findV w <;> simp

/-- one graph in which all three cases occur -/
example : ∃ s s' : GS DemoFrame Int, run [.addEdge "a" "b" 1, .addFrame "c"] init = some s ∧
    removeFrame "z" s = .throw (.unknownFrame "z") s ∧ removeFrame "b" s = .throw (.frameStillConnected "b") s ∧
    removeFrame "c" s = .ok () s' :=
  ⟨_, _, rfl, rfl, rfl, rfl⟩

/-- a frame with a self edge only, and the subtree that is added to a view with one further connection -/
example : (run [.addEdge "a" "a" 1] (init : GS DemoFrame Int)).map (fun s => (GS.removeFrame "a" s).exn?) =
    some (some (.frameStillConnected "a")) := by decide +kernel

end Verif
