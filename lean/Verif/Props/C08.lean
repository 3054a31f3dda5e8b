import Verif.Lemmas.Loose
import Verif.Spec.Demo
/-! # C08: the event stream describes the graph completely -/

namespace Verif
open GS
variable {F E : Type} [FrameProp F] [EdgeProp E]

/-- For every history without self edges (subscribed tree views and throwing calls included) a strict observer accepts every
published event and afterwards knows exactly the frames and the connections of the graph. -/
theorem C08_events_describe_graph (cs : List (Cmd F E)) (hns : ∀ a p, Cmd.addEdge a a p ∉ cs) (s : GS F E)
    (h : run cs init = some s) :
    ∃ m, Mirror.empty.replay (s.trace.map Prod.fst) = some m ∧
      (∀ f, f ∈ m.frames ↔ containsFrame f s = true) ∧
      (∀ a b, (a, b) ∈ m.conns ↔ containsEdge a b s = .ok true s) := by
  obtain ⟨l, h1, h2⟩ := run_advances WF.empty h
  obtain ⟨m, h3, h4⟩ := MirrorOf.steps (fun g e he => he (noSelf_of hns)) h1 WF.empty Paired.empty MirrorOf.empty
  refine ⟨m, ?_, fun f => h4.frames f, ?_⟩
  · rw [h2]; simpa [init] using h3
  · intro a b; rw [h4.conns, containsEdge_iff]

/-- a history with all kinds of events -/
example : (run ([.addEdge "a" "b" 1, .addEdge "b" "c" 1, .setEdge "a" "b" 2, .removeEdge "b" "a", .removeFrame "a",
      .addFrame "d"] : List (Cmd DemoFrame Int)) init).map (fun s => s.trace.map Prod.fst) =
    some [.frameAdded "a", .frameAdded "b", .edgeAdded "a" "b" 0, .frameAdded "c", .edgeAdded "b" "c" 2,
      .edgeModified "a" "b" 0 1, .edgeRemoved "b" "a", .frameRemoved "a", .frameAdded "d"] := rfl

example : (Mirror.empty.replay [.frameAdded "a", .frameAdded "b", .edgeAdded "a" "b" 0, .frameAdded "c", .edgeAdded "b" "c" 2,
      .edgeModified "a" "b" 0 1, .edgeRemoved "b" "a", .frameRemoved "a", .frameAdded "d"]).map
      (fun m => (m.frames, m.conns)) = some ({"b", "c", "d"}, {("b", "c"), ("c", "b")}) := by decide

/-- Self edges have to be excluded: `add_edge(a,a)` on an unknown frame announces the frame twice, so a strict observer
stops. -/
theorem C08_self_edge_announces_twice : ∃ s : GS DemoFrame Int, run [.addEdge "a" "a" 1] init = some s ∧
    s.trace.map Prod.fst = [.frameAdded "a", .frameAdded "a", .edgeAdded "a" "a" 0] :=
  ⟨_, rfl, rfl⟩

/-- After every history, self edges included: an observer that keeps sets of names and accepts a frame that is announced again knows exactly
the frames and the connections of the graph. -/
theorem C08_loose_observer (cs : List (Cmd F E)) (s : GS F E) (h : run cs init = some s) :
    (∀ f, f ∈ ((s.trace.map Prod.fst).foldl Mirror.take Mirror.empty).frames ↔ containsFrame f s = true) ∧
    (∀ a b, (a, b) ∈ ((s.trace.map Prod.fst).foldl Mirror.take Mirror.empty).conns ↔ containsEdge a b s = .ok true s) := by
  obtain ⟨l, h1, h2⟩ := run_advances WF.empty h
  have h3 := MirrorOf.takes h1 WF.empty Paired.empty MirrorOf.empty
  have h2 : s.trace = l := by simpa [init] using h2
  rw [h2]
  exact ⟨fun f => h3.frames f, fun a b => by rw [h3.conns, containsEdge_iff]⟩

/-- a frame connected to itself and to another one that is removed again -/
example : ∃ s : GS DemoFrame Int, run [.addEdge "a" "a" 1, .addEdge "b" "a" 1, .addEdge "c" "b" 2, .setEdge "a" "a" 3, .removeEdge "a" "b",
      .disconnectFrame "b", .removeFrame "b"] init = some s ∧
    ((s.trace.map Prod.fst).foldl Mirror.take Mirror.empty).frames = {"a", "c"} ∧
    ((s.trace.map Prod.fst).foldl Mirror.take Mirror.empty).conns = {("a", "a")} ∧ containsEdge "a" "a" s = .ok true s :=
  ⟨_, rfl, by decide, by decide, rfl⟩

end Verif
