import Verif.Lemmas.Publish
import Verif.Spec.Demo
/-! # C09: publishing the current state replays the graph, unpublishing undoes it (graph part; items: `C09Items`) -/

namespace Verif
open GS
variable {F E : Type} [FrameProp F] [EdgeProp E]

/-- After any history without self edges `publishCurrentState` succeeds.  It sends one `FrameAddedEvent` per frame, then exactly
one `EdgeAddedEvent` per connection (in one of the two directions, with the descriptor of that edge); a strict observer that
replays them knows exactly the frames and connections. -/
theorem C09_publish_current_state (cs : List (Cmd F E)) (hns : ∀ a p, Cmd.addEdge a a p ∉ cs) (s : GS F E)
    (h : run cs init = some s) :
    ∃ (fs : List FrameId) (es : List (FrameId × FrameId × EId)),
      publishCurrentState s = some (fs.map .frameAdded ++ es.map (fun e => .edgeAdded e.1 e.2.1 e.2.2)) ∧
      fs.Nodup ∧ (∀ f, f ∈ fs ↔ containsFrame f s = true) ∧
      (es.map (fun e => (e.1, e.2.1))).Nodup ∧
      (∀ e ∈ es, ∃ r, getEdge e.1 e.2.1 s = .ok r s ∧ r.id = e.2.2) ∧
      (∀ a b, containsEdge a b s = .ok true s ↔ ((∃ i, (a, b, i) ∈ es) ∨ ∃ i, (b, a, i) ∈ es)) ∧
      (∀ a b i j, (a, b, i) ∈ es → (b, a, j) ∉ es) ∧
      ∃ m, Mirror.empty.replay (fs.map .frameAdded ++ es.map (fun e => .edgeAdded e.1 e.2.1 e.2.2)) = some m ∧
        (∀ f, f ∈ m.frames ↔ containsFrame f s = true) ∧ (∀ a b, (a, b) ∈ m.conns ↔ containsEdge a b s = .ok true s) := by
  have hw : WF s.g := run_wf WF.empty h
  have hp : Paired s.g := run_paired WF.empty Paired.empty h (noSelf_of hns)
  obtain ⟨pub, h1, h2, h3⟩ := publishCurrentState_eq hw hp
  have key : pub.map (fun e => Event.edgeAdded (pairOf s.g e).1 (pairOf s.g e).2 e.id) =
      (pub.map (fun e => ((pairOf s.g e).1, (pairOf s.g e).2, e.id))).map (fun e => .edgeAdded e.1 e.2.1 e.2.2) := by
    rw [List.map_map]; rfl
  have hpairs : (pub.map (fun e => ((pairOf s.g e).1, (pairOf s.g e).2, e.id))).map (fun e => (e.1, e.2.1)) =
      pub.map (pairOf s.g) := by
    rw [List.map_map]; rfl
  have hmem : ∀ a b, (∃ i, (a, b, i) ∈ pub.map (fun e => ((pairOf s.g e).1, (pairOf s.g e).2, e.id))) ↔
      (a, b) ∈ pub.map (pairOf s.g) := by
    intro a b
    rw [← hpairs, List.mem_map]
    constructor
    · rintro ⟨i, hi⟩; exact ⟨_, hi, rfl⟩
    · rintro ⟨⟨a', b', i⟩, hi, he⟩
      simp only [Prod.mk.injEq] at he
      obtain ⟨rfl, rfl⟩ := he
      exact ⟨i, hi⟩
  refine ⟨names s.g, _, by rw [h1, key], names_nodup hw, fun f => mem_names hw, by rw [hpairs]; exact h3.nodup, ?_, ?_, ?_, ?_⟩
  · intro e he
    obtain ⟨x, hx, rfl⟩ := List.mem_map.1 he
    have hxm := h2.subset hx
    have v1 := vertexOf_nameOf hw (hw.esrc x hxm)
    have v2 := vertexOf_nameOf hw (hw.etgt x hxm)
    have e1 : s.g.edge x.src x.tgt = some x := hp.edge_iff.2 ⟨hxm, rfl, rfl⟩
    refine ⟨x, ?_, rfl⟩
    simp [getEdge, pairOf, v1, v2, e1]
  · intro a b
    rw [containsEdge_iff, h3.iff, hmem, hmem]
  · intro a b i j h1 h2
    exact h3.noswap (a, b) ((hmem a b).1 ⟨i, h1⟩) ((hmem b a).1 ⟨j, h2⟩)
  · rw [← key]
    obtain ⟨m, r1, r2⟩ := publish_replay hw hp h1
    exact ⟨m, r1, fun f => r2.frames f, fun a b => by rw [r2.conns, containsEdge_iff]⟩

/-- a connection that was added, removed and added in the other direction is published once -/
example : ∃ s : GS DemoFrame Int, run [.addEdge "a" "b" 1, .removeEdge "b" "a", .addEdge "b" "a" 2] init = some s ∧
    publishCurrentState s = some [.frameAdded "a", .frameAdded "b", .edgeAdded "b" "a" 2] :=
  ⟨_, rfl, rfl⟩

/-- `unpublishCurrentState` succeeds too, and an observer that knew exactly the graph knows nothing after replaying its events:
each connection is removed once, before its frames. -/
theorem C09_unpublish_current_state (cs : List (Cmd F E)) (hns : ∀ a p, Cmd.addEdge a a p ∉ cs) (s : GS F E)
    (h : run cs init = some s) (m : Mirror) (hf : ∀ f, f ∈ m.frames ↔ containsFrame f s = true)
    (hc : ∀ a b, (a, b) ∈ m.conns ↔ containsEdge a b s = .ok true s) :
    ∃ evs, unpublishCurrentState s = some evs ∧ m.replay evs = some Mirror.empty ∧
      (∀ e ∈ evs, (∃ f, e = .frameRemoved f) ∨ ∃ a b, e = .edgeRemoved a b) := by
  have hw : WF s.g := run_wf WF.empty h
  have hp : Paired s.g := run_paired WF.empty Paired.empty h (noSelf_of hns)
  obtain ⟨pub, h1, -, -⟩ := unpublishCurrentState_eq hw hp
  refine ⟨_, h1, unpublish_replay hw hp ⟨fun f => hf f, fun a b => by rw [hc, containsEdge_iff]⟩ h1, ?_⟩
  intro e he
  rcases List.mem_append.1 he with he | he
  · obtain ⟨x, -, rfl⟩ := List.mem_map.1 he; exact Or.inr ⟨_, _, rfl⟩
  · obtain ⟨x, -, rfl⟩ := List.mem_map.1 he; exact Or.inl ⟨_, rfl⟩

/-- a graph with a removed frame, a lonely frame and two connections -/
example : ∃ s : GS DemoFrame Int,
    run [.addFrame "x", .addEdge "a" "b" 1, .addEdge "c" "b" 2, .removeFrame "x", .addFrame "d"] init = some s ∧
    publishCurrentState s = some [.frameAdded "a", .frameAdded "b", .frameAdded "c", .frameAdded "d",
      .edgeAdded "a" "b" 0, .edgeAdded "c" "b" 2] ∧
    unpublishCurrentState s = some [.edgeRemoved "a" "b", .edgeRemoved "c" "b",
      .frameRemoved "a", .frameRemoved "b", .frameRemoved "c", .frameRemoved "d"] :=
  ⟨_, rfl, rfl, rfl⟩

end Verif
