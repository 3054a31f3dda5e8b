import Verif.Lemmas.Slots
import Verif.Spec.Demo
/-! # C10: copying a graph gives an equal and independent graph -/

namespace Verif
open GS
variable {F E : Type} [FrameProp F] [EdgeProp E]

/-- Missing compared to C10: graphs with a frame that was created after a frame that was removed since (see `C10_copy_exact`).  After any
other history (self edges and tree views allowed), the copy constructor succeeds; the copy contains the same
frames with the same properties, answers all edge queries alike, has no subscribed views and has published nothing. -/
theorem C10_copy_equal_partial (cs : List (Cmd F E)) (s : GS F E) (h : run cs init = some s)
    (hg : ¬ Gap (slots (s.trace.map Prod.fst))) :
    ∃ c, s.copy = some c ∧ c.trace = [] ∧ c.subs = [] ∧
      (∀ f, containsFrame f c = containsFrame f s) ∧
      (∀ f p, getFrameProperty f c = .ok p c ↔ getFrameProperty f s = .ok p s) ∧
      (∀ a b r, containsEdge a b c = .ok r c ↔ containsEdge a b s = .ok r s) ∧
      (∀ a b p, getEdgeProperty a b c = .ok p c ↔ getEdgeProperty a b s = .ok p s) ∧
      numVertices c = numVertices s ∧ numEdges c = numEdges s :=
  copy_answers (run_wf WF.empty h) (((Slotted.run h).dense_iff (run_wf WF.empty h)).2 hg)

/-- Missing as in `C10_copy_equal_partial`.  The copy also behaves like the original in the future: any further history of calls
(without self edges and tree views) has the same outcomes on the copy as on the original, and the resulting graphs
answer alike.  (That the two do not influence each other is built into the model: a state is a value.  The point here is that the
label map, the indices and the descriptors of the copy are good for every later call.) -/
theorem C10_copy_behaves_alike_partial (cs ds : List (Cmd F E)) (hcs : ∀ c ∈ cs, c.plain) (hds : ∀ c ∈ ds, c.plain) (s : GS F E)
    (h : run cs init = some s) (hg : ¬ Gap (slots (s.trace.map Prod.fst))) :
    ∃ c os s' c', s.copy = some c ∧ outcomes ds s = some (os, s') ∧ outcomes ds c = some (os, c') ∧
      (∀ f, containsFrame f c' = containsFrame f s') ∧
      (∀ a b p, getEdgeProperty a b c' = .ok p c' ↔ getEdgeProperty a b s' = .ok p s') := by
  obtain ⟨s0, -, hsim, hrun⟩ := Sim.outcomes hcs (Sim.init (F := F) (E := E))
  obtain rfl : s0 = s := Option.some.inj (hrun.symm.trans h)
  obtain ⟨s', h1, h2, -⟩ := Sim.outcomes hds hsim
  obtain ⟨c', h3, h4, -⟩ := Sim.outcomes hds (hsim.copied (fun _ => TreeView.empty))
  refine ⟨_, _, s', c', copy_eq hsim.wf (((Slotted.run h).dense_iff (run_wf WF.empty h)).2 hg), h1, h3, ?_, ?_⟩
  · intro f
    have a1 := h2.frames f
    have a2 := h4.frames f
    simp only [containsFrame]
    rw [Bool.eq_iff_iff, a1, a2]
  · have key : ∀ {t : GS F E} {A : AGraph E}, Sim t A → ∀ a b p, getEdgeProperty a b t = .ok p t ↔ A.edges a b = some p := by
      intro t A ht a b p
      rw [← ht.edges]
      simp only [getEdgeProperty, getEdge]
      cases ha : t.g.vertexOf a with
      | none => simp [absEdge_none_left ha]
      | some u =>
        cases hb : t.g.vertexOf b with
        | none => simp [absEdge_none_right hb]
        | some v =>
          rw [absEdge_of ha hb]
          cases he : t.g.edge u v <;> simp [he]
    intro a b p
    rw [key h2, key h4]

/-- Exactly when copying is undefined behaviour: if a frame of the graph was created after a frame that was removed since. -/
theorem C10_copy_exact (cs : List (Cmd F E)) (s : GS F E) (h : run cs init = some s) :
    s.copy = none ↔ Gap (slots (s.trace.map Prod.fst)) := by
  have hw : WF s.g := run_wf WF.empty h
  have hd := (Slotted.run h).dense_iff hw
  constructor
  · intro hc
    by_contra hg
    obtain ⟨c, h1, -⟩ := copy_answers hw (hd.2 hg)
    rw [hc] at h1
    cases h1
  · intro hg
    have := (G.copyGraph_none hw).2 (fun hh => hd.1 hh hg)
    simp only [GS.copy, this]

/-- frames created and removed: copying is possible after the removal of the youngest ones, undefined after the removal of an older one
or if a new frame follows -/
example : ∃ s s1 s2 : GS DemoFrame Int,
    run [.addFrame "a", .addEdge "b" "a" 1, .addFrame "c", .addFrame "d", .removeFrame "d", .removeFrame "c"] init = some s ∧
    slots (s.trace.map Prod.fst) = [some "a", some "b", none, none] ∧ ¬ Gap (slots (s.trace.map Prod.fst)) ∧
    s.copy.isSome = true ∧
    run [.addFrame "c"] s = some s1 ∧ slots (s1.trace.map Prod.fst) = [some "a", some "b", none, none, some "c"] ∧
    Gap (slots (s1.trace.map Prod.fst)) ∧ s1.copy.isNone = true ∧
    run [.disconnectFrame "a", .removeFrame "a"] s = some s2 ∧ s2.copy.isNone = true :=
  ⟨_, _, _, rfl, rfl, by rw [gap_iff]; decide +kernel, rfl, rfl, rfl, by rw [gap_iff]; decide +kernel, rfl, rfl, rfl⟩

/-- The property fails: once any frame was removed from a graph, adding one more frame makes copying undefined
behaviour (write beyond the end of `orig2copy` in `boost::copy_graph`). -/
theorem C10_removed_frame_fails (cs : List (Cmd F E)) (s : GS F E) (h : run cs init = some s) (f0 : FrameId) (g0 : G F E)
    (hr : (Event.frameRemoved f0, g0) ∈ s.trace) (f : FrameId) (hf : containsFrame f s = false) :
    ∃ v s', addFrame f s = .ok v s' ∧ s'.copy = none := by
  obtain ⟨l, h1, h2⟩ := run_advances WF.empty h
  have hw : WF s.g := run_wf WF.empty h
  have h3 : s.trace = l := by rw [h2]; simp [init]
  have hlt := (h1.sparse WF.empty (by simp [init, G.empty])).2 (Or.inr ⟨_, h3 ▸ hr, rfl⟩)
  have hn : s.g.vertexOf f = none := by simpa [containsFrame] using hf
  refine ⟨_, (addVertexN f (FrameProp.setId f FrameProp.dflt) s).1, by simp only [addFrame, hn]; rfl, ?_⟩
  have hid : FrameProp.getId (FrameProp.setId f (FrameProp.dflt : F)) = f := FrameProp.getId_setId _ _
  have hnone := (G.copyGraph_none (hw.addVertex hid)).2 (by
    intro hd
    rw [G.addVertex_new _ hn] at hd
    have := hd ⟨s.g.nextV, s.g.nextIdx, FrameProp.setId f FrameProp.dflt⟩ (by simp)
    simp only [List.length_append, List.length_singleton] at this
    omega)
  simp only [GS.copy, addVertexN, notify, hnone]

/-- the copy of a small graph -/
example : ∃ s c : GS DemoFrame Int,
    run [.addEdge "a" "b" 1, .addFrame "c", .addEdge "c" "a" 5, .removeEdge "a" "b"] init = some s ∧
    ¬ Gap (slots (s.trace.map Prod.fst)) ∧ s.copy = some c ∧
    getEdgeProperty "c" "a" c = .ok 5 c ∧ containsEdge "a" "b" c = .ok false c :=
  ⟨_, _, rfl, by rw [gap_iff]; decide +kernel, rfl, rfl, rfl⟩

/-- a graph after removal of its first frame: copying is undefined already then -/
example : ∃ s : GS DemoFrame Int, run [.addFrame "a", .addFrame "b", .removeFrame "a"] init = some s ∧ s.copy.isNone :=
  ⟨_, rfl, rfl⟩

example : ∃ s : GS DemoFrame Int, run [.addFrame "a", .addFrame "b", .removeFrame "b"] init = some s ∧
    (∃ f g, (Event.frameRemoved f, g) ∈ s.trace) ∧ containsFrame "b" s = false :=
  ⟨_, rfl, ⟨"b", _, List.mem_of_getElem? (i := 2) rfl⟩, rfl⟩

end Verif
