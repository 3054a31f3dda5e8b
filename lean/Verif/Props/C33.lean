import Verif.Lemmas.QueueRun
import Verif.Spec.Demo
/-! # C33: the event queue preserves the net effect on frames -/

namespace Verif
open Queue

/-- Whatever a strict observer accepts (`m` before, `m'` after), cut into batches by flushes in any way: after the last flush
the queue is empty and the delivered events have the same effect on every frame. -/
theorem C33_frames_preserved (env : QEnv) (hp : env.Passive) (n : Nat) (bs : List (List Event)) (hn : ∀ b ∈ bs, b.length ≤ n)
    (m m' : Mirror) (hv : m.replay bs.flatten = some m') :
    ∃ q, Queue.run env n (batchProgram bs) Queue.init = some q ∧ q.events = [] ∧
      ∀ f, frameAfter f (decide (f ∈ m.frames)) q.processed = decide (f ∈ m'.frames) := by
  refine ⟨_, run_batches hp hn rfl, rfl, fun f => ?_⟩
  simpa [Queue.init] using frames_batches hv f

/-- "a" exists before; it goes in the first batch and comes back in the second one: nothing is lost -/
example : (Queue.run (fun _ => ([], false)) 3 (batchProgram [[.frameAdded "b", .frameRemoved "b", .frameRemoved "a"], [.frameAdded "a"]])
      Queue.init).map (fun q => (q.processed, frameAfter "a" true q.processed, frameAfter "b" false q.processed)) =
    some ([.frameRemoved "a", .frameAdded "a"], true, false) := by decide +kernel

/-- Every program that ends with `flush()` is covered by `batchProgram`. -/
theorem C33_every_program (cs : List Queue.Cmd) : ∃ (bs : List (List Event)) (last : List Event), cs = batchProgram bs ++ last.map Queue.Cmd.notify := by
  induction cs with
  | nil => exact ⟨[], [], rfl⟩
  | cons c cs ih =>
    obtain ⟨bs, last, rfl⟩ := ih
    cases c with
    | flush => exact ⟨[] :: bs, last, by simp [batchProgram]⟩
    | notify e =>
      cases bs with
      | nil => exact ⟨[], e :: last, by simp [batchProgram]⟩
      | cons b bs => exact ⟨(e :: b) :: bs, last, by simp [batchProgram]⟩

example : [Queue.Cmd.flush, .notify (.frameAdded "a"), .notify (.frameAdded "b"), .flush, .notify (.frameRemoved "a")] =
    batchProgram [[], [.frameAdded "a", .frameAdded "b"]] ++ [Event.frameRemoved "a"].map Queue.Cmd.notify := by decide +kernel

/-- A queue that is subscribed to a graph from the beginning and flushed at any times: the delivered events tell which frames
the graph contains. -/
theorem C33_graph {F E : Type} [FrameProp F] [EdgeProp E] (env : QEnv) (hp : env.Passive) (cs : List (GS.Cmd F E))
    (hns : ∀ a p, GS.Cmd.addEdge a a p ∉ cs) (s : GS F E) (h : GS.run cs GS.init = some s) (bs : List (List Event))
    (hb : bs.flatten = s.trace.map Prod.fst) (n : Nat) (hn : ∀ b ∈ bs, b.length ≤ n) :
    ∃ q, Queue.run env n (batchProgram bs) Queue.init = some q ∧ ∀ f, frameAfter f false q.processed = GS.containsFrame f s := by
  obtain ⟨l, h1, h2⟩ := GS.run_advances WF.empty h
  obtain ⟨m, h3, h4⟩ := MirrorOf.steps (fun g e he => he (noSelf_of hns)) h1 WF.empty Paired.empty MirrorOf.empty
  have h5 : Mirror.empty.replay bs.flatten = some m := by rw [hb, h2]; simpa [GS.init] using h3
  obtain ⟨q, h6, _, h8⟩ := C33_frames_preserved env hp n bs hn _ _ h5
  refine ⟨q, h6, fun f => ?_⟩
  have h9 := h8 f
  simp only [Mirror.empty, Finset.notMem_empty, decide_false] at h9
  rw [h9]
  have h10 : f ∈ m.frames ↔ GS.containsFrame f s = true := h4.frames f
  by_cases hf : f ∈ m.frames
  · simp [hf, h10.1 hf]
  · have : GS.containsFrame f s = false := by
      cases hc : GS.containsFrame f s
      · rfl
      · exact absurd (h10.2 hc) hf
    simp [hf, this]

/-- a graph with a frame that comes and goes, the events cut into two batches -/
example : ∃ s : GS DemoFrame Int, GS.run [.addFrame "a", .addFrame "b", .removeFrame "a"] GS.init = some s ∧
    [[Event.frameAdded "a", .frameAdded "b"], [.frameRemoved "a"]].flatten = s.trace.map Prod.fst ∧
    (Queue.run (fun _ => ([], false)) 2 (batchProgram [[.frameAdded "a", .frameAdded "b"], [.frameRemoved "a"]]) Queue.init).map
      (fun q => (frameAfter "a" false q.processed, frameAfter "b" false q.processed)) = some (false, true) :=
  ⟨_, rfl, rfl, by decide +kernel⟩

/-- process that does nothing -/
def demoQuiet : QEnv := fun _ => ([], false)

/-- frame "a" is removed and announced again, "b" comes and goes, "c" comes in the second batch -/
example : (Queue.run demoQuiet 9 (batchProgram [[.frameRemoved "a", .frameAdded "b", .frameAdded "a", .frameRemoved "b"], [.frameRemoved "a",
      .frameAdded "a", .frameRemoved "a", .frameAdded "c"]]) Queue.init).map Queue.processed =
    some [.frameRemoved "a", .frameAdded "a", .frameRemoved "a", .frameAdded "c"] := by decide +kernel

example : ((⟨{"a"}, ∅⟩ : Mirror).replay [.frameRemoved "a", .frameAdded "b", .frameAdded "a", .frameRemoved "b", .frameRemoved "a",
      .frameAdded "a", .frameRemoved "a", .frameAdded "c"]).map Mirror.frames = some {"c"} := by decide

end Verif
