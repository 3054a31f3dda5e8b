import Verif.Props.C82Self
/-! # C82: new data for the structure visualization, graphs with self edges -/

namespace Verif
open GS Viz
variable {F T : Type} [FrameProp F] [Group T]

private theorem mem_names {s : GS F (Tf T)} (hw : WF s.g) (f : FrameId) : f ∈ names s ↔ containsFrame f s = true := by
  unfold Viz.names containsFrame
  rw [List.mem_map]
  constructor
  · rintro ⟨x, hx, rfl⟩
    have := vertexOf_nameOf hw ⟨x, hx, rfl⟩
    rw [nameOf, hw.findV_iff.2 ⟨hx, rfl⟩] at this
    simp only [Option.map_some, Option.getD_some] at this
    simp [this]
  · intro hf
    obtain ⟨u, hu⟩ := Option.isSome_iff_exists.1 hf
    obtain ⟨x, hx, hxf⟩ := hw.live_of_vertexOf hu
    exact ⟨x, (hw.findV_iff.1 hx).1, hxf⟩

private theorem nodup_names {s : GS F (Tf T)} (hw : WF s.g) : (names s).Nodup := by
  refine List.Nodup.map_on ?_ (List.Nodup.of_map VRec.id hw.vnodup)
  intro x hx y hy hxy
  have h1 := vertexOf_nameOf hw ⟨x, hx, rfl⟩
  have h2 := vertexOf_nameOf hw ⟨y, hy, rfl⟩
  simp only [nameOf, hw.findV_iff.2 ⟨hx, rfl⟩, hw.findV_iff.2 ⟨hy, rfl⟩, Option.map_some, Option.getD_some] at h1 h2
  rw [hxy, h2] at h1
  have f1 := hw.findV_iff.2 ⟨hx, rfl⟩
  rw [← Option.some.inj h1, hw.findV_iff.2 ⟨hy, rfl⟩] at f1
  exact (Option.some.inj f1).symm

/-- New data for every graph with at least one frame, self edges included.  The root that is drawn is always a frame of the graph.  The drawing fails
exactly if the oldest edge of that root is a self edge; otherwise the scene is complete.  Missing compared to `C82_statement`: that case, and the
frame of a root without any connection. -/
theorem C82_update_with_self_edges_partial (cs : List (Cmd F (Tf T))) (s : GS F (Tf T)) (h : run cs init = some s) (v : Sel)
    (h0 : 0 < numVertices s) :
    ∃ v' u, getVertex v'.currentRoot s = .ok u s ∧ v'.getNodes.head? = some v'.currentRoot ∧
      (∀ f, f ∈ v'.getNodes ↔ containsFrame f s = true) ∧
      ((∃ m, updateDataIntern v s = .ub m) ↔ ∃ e, (s.g.outEdges u).head? = some e ∧ e.tgt = u) ∧
      ((∀ m, updateDataIntern v s ≠ .ub m) → ∃ sc, updateDataIntern v s = .ok (v', sc) s ∧ sc.top = some v'.currentRoot ∧
        ((∃ b, s.Conn v'.currentRoot b) → FaithfulLoops s v'.currentRoot sc)) := by
  have hw : WF s.g := run_wf WF.empty h
  obtain ⟨o1, o2, -, -⟩ := C81_offer v (names s) (nodup_names hw)
  have hne : names s ≠ [] := by
    intro hh
    have : s.g.verts.length = 0 := by simpa [Viz.names] using hh
    simp [numVertices, this] at h0
  have hcr := (mem_names hw _).1 (o1.mem_iff.1 (List.mem_of_head? (o2 hne)))
  obtain ⟨u, hu⟩ := Option.isSome_iff_exists.1 hcr
  have hgv : getVertex (v.initNodeList (names s)).currentRoot s = .ok u s := by simp [getVertex, hu]
  obtain ⟨c1, c2, c3⟩ := C82_scene_with_self_edges_partial cs s h _ u hgv
  have hub : (∃ m, updateDataIntern v s = .ub m) ↔ ∃ m, drawGraphStructure (v.initNodeList (names s)).currentRoot s = .ub m := by
    unfold updateDataIntern
    cases drawGraphStructure (v.initNodeList (names s)).currentRoot s <;> simp
  refine ⟨_, u, hgv, o2 hne, fun f => (o1.mem_iff).trans (mem_names hw f), hub.trans c1, fun hn => ?_⟩
  have hn' : ∀ m, drawGraphStructure (v.initNodeList (names s)).currentRoot s ≠ .ub m := fun m e => by
    obtain ⟨m', e'⟩ := hub.2 ⟨m, e⟩
    exact hn m' e'
  by_cases hcon : ∃ b, s.Conn (v.initNodeList (names s)).currentRoot b
  · obtain ⟨sc, d1, d2⟩ := c2 hcon hn'
    exact ⟨sc, by simp [updateDataIntern, d1], d2.top, fun _ => d2⟩
  · have d1 := c3 fun b hb => hcon ⟨b, hb⟩
    exact ⟨{ top := some (v.initNodeList (names s)).currentRoot }, by simp only [updateDataIntern, d1], rfl, fun hh => absurd hh hcon⟩

/-- the chosen root decides: from `b` the graph is drawn, from `a` it fails, and the choice `a` is also what a vanished root falls back to -/
example : ∃ s : GS DemoFrame (Tf DemoPose), run [.addEdge "a" "a" ⟨0, sh 1⟩, .addEdge "a" "b" ⟨0, sh 2⟩] init = some s ∧
    updateDataIntern { currentRoot := "b" } s = .ok ({ nextNodes := ["b", "a"], currentRoot := "b" },
      { frames := ["b", "a"], tfs := [("b", "a", sh (-2))], links := [("a", "a"), ("a", "a")], top := some "b" }) s ∧
    updateDataIntern { currentRoot := "gone" } s = .ub "drawGraphStructure: assert(srcNode), assert(tarNode)" := ⟨_, rfl, rfl, rfl⟩

end Verif
