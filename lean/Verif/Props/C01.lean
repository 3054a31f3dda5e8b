import Verif.Lemmas.Sim
import Verif.Spec.Demo
/-! # C01: frame names identify vertices one-to-one -/

namespace Verif
open GS
variable {F E : Type} [FrameProp F] [EdgeProp E]

/-- After any history (self edges, views and throwing calls included) names and vertices correspond one-to-one, and
`num_vertices` counts the contained names. -/
theorem C01_names_identify_vertices (cs : List (Cmd F E)) (s : GS F E) (h : run cs init = some s) :
    (∀ f, containsFrame f s = true → ∃ v, getVertex f s = .ok v s ∧ getFrameId (some v) s = .ok f s ∧ v ∈ getVertices s) ∧
    (∀ f, containsFrame f s = false → getVertex f s = .throw (.unknownFrame f) s) ∧
    (∀ v ∈ getVertices s, ∃ f, getFrameId (some v) s = .ok f s ∧ getVertex f s = .ok v s ∧ containsFrame f s = true) ∧
    (∀ f f' v, getVertex f s = .ok v s → getVertex f' s = .ok v s → f = f') ∧
    (getVertices s).Nodup ∧
    (∃ names : List FrameId, names.Nodup ∧ (∀ f, f ∈ names ↔ containsFrame f s = true) ∧ numVertices s = names.length) := by
  have hw : WF s.g := run_wf WF.empty h
  refine ⟨?_, ?_, ?_, ?_, hw.vnodup, ?_⟩
  · intro f hf
    obtain ⟨v, hv⟩ := Option.isSome_iff_exists.1 hf
    obtain ⟨r, hr, hrf⟩ := hw.live_of_vertexOf hv
    refine ⟨v, by simp [getVertex, hv], by simp [getFrameId, hr, hrf], ?_⟩
    obtain ⟨hm, hid⟩ := G.findV_some hr
    exact List.mem_map.2 ⟨r, hm, hid⟩
  · intro f hf
    have : s.g.vertexOf f = none := by simpa [containsFrame] using hf
    simp [getVertex, this]
  · intro v hv
    obtain ⟨r, hr, rfl⟩ := List.mem_map.1 hv
    have h1 : s.g.findV r.id = some r := hw.findV_iff.2 ⟨hr, rfl⟩
    have h2 : s.g.vertexOf (FrameProp.getId r.prop) = some r.id := hw.vertexOf_iff.2 ⟨r, hr, rfl, rfl⟩
    exact ⟨FrameProp.getId r.prop, by simp [getFrameId, h1], by simp [getVertex, h2], by simp [containsFrame, h2]⟩
  · intro f f' v h1 h2
    have aux : ∀ f, getVertex f s = .ok v s → s.g.vertexOf f = some v := by
      intro f hf
      unfold getVertex at hf
      split at hf
      · cases hf
      · rename_i v' hv'
        simp only [Res.ok.injEq] at hf
        rw [hv', hf.1]
    exact hw.vertexOf_inj (aux f h1) (aux f' h2)
  · refine ⟨s.g.verts.map (fun r => FrameProp.getId r.prop), ?_, ?_, ?_⟩
    · exact (List.nodup_map_iff_inj_on (List.Nodup.of_map _ hw.vnodup)).2 (fun r hr r' hr' he => hw.name_inj hr hr' he)
    · intro f
      simp only [containsFrame, Option.isSome_iff_exists, hw.vertexOf_iff, List.mem_map]
      constructor
      · rintro ⟨r, hr, h2⟩; exact ⟨r.id, r, hr, rfl, h2⟩
      · rintro ⟨v, r, hr, h1, h2⟩; exact ⟨r, hr, h2⟩
    · simp [numVertices]

/-- a history with a removed frame, a duplicate and a re-added name -/
example : ∃ s : GS DemoFrame Int,
    run [.addFrame "a", .addEdge "b" "c" 1, .addFrame "b", .removeEdge "b" "c", .removeFrame "b", .emplaceFrame "b" ⟨"x", 7⟩]
      init = some s ∧
    getVertices s = [0, 2, 3] ∧ getFrameId (some 3) s = .ok "b" s ∧ getVertex "b" s = .ok 3 s ∧ numVertices s = 3 :=
  ⟨_, rfl, rfl, rfl, rfl, rfl⟩

end Verif
