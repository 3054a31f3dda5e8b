import Verif.Lemmas.QueueSelf
import Verif.Spec.Demo
set_option linter.unusedSectionVars false
/-! # C33, self edges: what the queue delivers about the frames of graphs with self edges -/

namespace Verif
open Queue

/-- After any history, self edges included (adding an edge from an unknown frame to itself announces the frame twice): a queue that is subscribed to
the graph from the beginning and flushed at any times tells by the delivered events which frames the graph contains. -/
theorem C33_graph_with_self_edges {F E : Type} [FrameProp F] [EdgeProp E] (env : QEnv) (hp : env.Passive) (cs : List (GS.Cmd F E))
    (s : GS F E) (h : GS.run cs GS.init = some s) (bs : List (List Event))
    (hb : bs.flatten = s.trace.map Prod.fst) (n : Nat) (hn : ∀ b ∈ bs, b.length ≤ n) :
    ∃ q, Queue.run env n (batchProgram bs) Queue.init = some q ∧ q.events = [] ∧
      ∀ f, frameAfter f false q.processed = GS.containsFrame f s := by
  refine ⟨_, run_batches hp hn rfl, rfl, fun f => ?_⟩
  obtain ⟨tr, ⟨b1, k1⟩, h1, h2, h3⟩ := GS.run_fits (f := f) (st := (false, false)) WF.empty ⟨rfl, by simp⟩ h
  have htr : bs.flatten = tr := by rw [hb, h1]; simp [GS.init]
  rw [← htr] at h2
  have h4 := frames_batches_loose (by simp) h2
  simp only [Queue.init, List.nil_append, h4]
  exact h3.1

/-- The frame "a" comes, goes, and comes back with a self edge, which announces it twice; flushed after the second event and inside the last call.
"b" comes and goes within one batch. -/
example : ∃ s : GS DemoFrame Int,
    GS.run [.addFrame "a", .addFrame "b", .removeFrame "b", .removeFrame "a", .addEdge "a" "a" 1] GS.init = some s ∧
    s.trace.map Prod.fst = [.frameAdded "a", .frameAdded "b", .frameRemoved "b", .frameRemoved "a", .frameAdded "a", .frameAdded "a", .edgeAdded "a" "a" 0] ∧
    (Queue.run (fun _ => ([], false)) 5 (batchProgram [[.frameAdded "a"], [.frameAdded "b", .frameRemoved "b", .frameRemoved "a", .frameAdded "a"],
      [.frameAdded "a", .edgeAdded "a" "a" 0]]) Queue.init).map (fun q => (q.processed, frameAfter "a" false q.processed, frameAfter "b" false q.processed)) =
    some ([.frameAdded "a", .frameRemoved "a", .frameAdded "a", .frameAdded "a", .edgeAdded "a" "a" 0], true, false) :=
  ⟨_, rfl, rfl, by decide +kernel⟩

end Verif
