import Verif.Props.C33
/-!
# C34: the event queue preserves the net effect on edges

Full statement: for every sequence of events as a graph publishes them, replaying the delivered events gives the same
connections as replaying the original ones.

It fails for a connection that exists at the last flush and is removed, added and removed again: the two removals and the
addition cancel each other to nothing.
-/

namespace Verif
open Queue

/-- the full statement for one batch -/
def C34_statement : Prop :=
  ∀ (m m' : Mirror) (es : List Event), m.Proper → m.replay es = some m' → ∀ env : QEnv, env.Passive → ∀ n, es.length ≤ n →
    ∃ q, Queue.run env n (batchProgram [es]) Queue.init = some q ∧
      ∀ a b, connAfter a b (decide ((a, b) ∈ m.conns)) q.processed = decide ((a, b) ∈ m'.conns)

/-- Exactly the connections that existed before, were removed at least twice and do not exist at the end are wrong. -/
theorem C34_exactly_wrong (env : QEnv) (hp : env.Passive) (m m' : Mirror) (hm : m.Proper) (es : List Event)
    (hv : m.replay es = some m') (n : Nat) (hn : es.length ≤ n) :
    ∃ q, Queue.run env n (batchProgram [es]) Queue.init = some q ∧ ∀ a b,
      (connAfter a b (decide ((a, b) ∈ m.conns)) q.processed ≠ decide ((a, b) ∈ m'.conns) ↔
        (a, b) ∈ m.conns ∧ 2 ≤ removals a b es ∧ (a, b) ∉ m'.conns) := by
  refine ⟨_, run_batches hp (by simpa using hn) rfl, fun a b => ?_⟩
  obtain ⟨hs, _⟩ := conn_shape hm hv a b
  simp only [Queue.init, List.nil_append, List.flatMap_cons, List.flatMap_nil, List.append_nil, connAfter_eq]
  by_cases h0 : (a, b) ∈ m.conns <;> by_cases h1 : (a, b) ∈ m'.conns <;> simp only [h0, h1, decide_true, decide_false, CShape] at hs ⊢
  · rcases hs with ⟨hr, h | h⟩ | ⟨hr, h | h⟩ | ⟨hr, h | h⟩ <;> rw [h] <;> simp [tagsAfter]
  · rcases hs with ⟨hr, h⟩ | ⟨hr, h⟩ <;> rw [h] <;> simp [tagsAfter, hr]
  · rcases hs with h | h <;> rw [h] <;> simp [tagsAfter]
  · rw [hs]; simp [tagsAfter]

/-- removed, added and removed: nothing is delivered, so the connection seems to exist.  Removed once: right. -/
example : (Queue.run demoQuiet 3 (batchProgram [[.edgeRemoved "a" "b", .edgeAdded "a" "b" 7, .edgeRemoved "b" "a"]]) Queue.init).map
      (fun q => connAfter "a" "b" true q.processed) = some true ∧
    (Queue.run demoQuiet 3 (batchProgram [[.edgeRemoved "a" "b"]]) Queue.init).map (fun q => connAfter "a" "b" true q.processed) = some false := by
  decide +kernel

/-- demo: two or three frames, one connection -/
theorem demoProper (fs : Finset FrameId) (h : {"a", "b"} ⊆ fs) : (⟨fs, {("a", "b"), ("b", "a")}⟩ : Mirror).Proper := by
  have ha : "a" ∈ fs := h (by decide)
  have hb : "b" ∈ fs := h (by decide)
  have hc : ∀ a b : FrameId, (a, b) ∈ ({("a", "b"), ("b", "a")} : Finset (FrameId × FrameId)) → (a = "a" ∧ b = "b") ∨ (a = "b" ∧ b = "a") := by
    intro a b h; simpa using h
  refine ⟨fun a b h => ?_, fun a b h => ?_, fun a b h => ?_⟩ <;> rcases hc a b h with ⟨rfl, rfl⟩ | ⟨rfl, rfl⟩
  · show ("b", "a") ∈ ({("a", "b"), ("b", "a")} : Finset (FrameId × FrameId)); decide
  · show ("a", "b") ∈ ({("a", "b"), ("b", "a")} : Finset (FrameId × FrameId)); decide
  · decide
  · decide
  · exact ⟨ha, hb⟩
  · exact ⟨hb, ha⟩

/-- remove, add, remove: nothing is delivered, and the observer believes that the connection exists -/
theorem C34_statement_fails : ¬ C34_statement := by
  intro hs
  have hrep : ∃ m', (⟨{"a", "b"}, {("a", "b"), ("b", "a")}⟩ : Mirror).replay
      [.edgeRemoved "a" "b", .edgeAdded "a" "b" 7, .edgeRemoved "b" "a"] = some m' ∧ ("a", "b") ∉ m'.conns :=
    ⟨_, rfl, by decide⟩
  obtain ⟨m', h1, h2⟩ := hrep
  obtain ⟨q, h3, h4⟩ := hs _ m' _ (demoProper _ (by decide)) h1 demoQuiet (fun _ => rfl) 3 (by decide)
  have h5 : Queue.run demoQuiet 3 (batchProgram [[.edgeRemoved "a" "b", .edgeAdded "a" "b" 7, .edgeRemoved "b" "a"]]) Queue.init =
    some ⟨[], []⟩ := by decide +kernel
  rw [h5] at h3
  obtain rfl := Option.some.inj h3
  have := h4 "a" "b"
  simp [connAfter, h2] at this

/-- Everything together, strictly: the delivered events make sense one after the other (no frame is announced twice, no
connection to unknown frames, ...) and lead to the same frames and connections, if and only if no connection that existed
before is removed twice. -/
theorem C34_strict_partial (env : QEnv) (hp : env.Passive) (m m' : Mirror) (hm : m.Proper) (es : List Event)
    (hv : m.replay es = some m') (n : Nat) (hn : es.length ≤ n) :
    ∃ q, Queue.run env n (batchProgram [es]) Queue.init = some q ∧
      (m.replay q.processed = some m' ↔ ∀ a b, (a, b) ∈ m.conns → removals a b es ≤ 1) := by
  refine ⟨_, run_batches hp (by simpa using hn) rfl, ?_⟩
  simpa [Queue.init] using strict_iff hm hv

/-- a new frame with a connection that comes, goes and comes again -/
example : (Queue.run demoQuiet 9 (batchProgram [[.frameAdded "c", .edgeAdded "a" "c" 2, .edgeRemoved "a" "c", .edgeAdded "c" "a" 4]])
      Queue.init).map Queue.processed = some [.frameAdded "c", .edgeAdded "c" "a" 4] := by decide +kernel

/-- Any number of flushes: if in no batch a connection that exists at its beginning is removed twice, the delivered events can
be replayed strictly and give the right result. -/
theorem C34_programs_partial (env : QEnv) (hp : env.Passive) (m m' : Mirror) (hm : m.Proper) (bs : List (List Event))
    (hv : m.replay bs.flatten = some m') (n : Nat) (hn : ∀ b ∈ bs, b.length ≤ n)
    (hr : ∀ bs1 es bs2 m1, bs = bs1 ++ es :: bs2 → m.replay bs1.flatten = some m1 → ∀ a b, (a, b) ∈ m1.conns → removals a b es ≤ 1) :
    ∃ q, Queue.run env n (batchProgram bs) Queue.init = some q ∧ m.replay q.processed = some m' := by
  refine ⟨_, run_batches hp hn rfl, ?_⟩
  simp only [Queue.init, List.nil_append]
  clear hn
  induction bs generalizing m with
  | nil => exact hv
  | cons es bs ih =>
    rw [List.flatten_cons, Mirror.replay_append] at hv
    cases h1 : m.replay es with
    | none => simp [h1] at hv
    | some m1 =>
      rw [h1] at hv
      rw [List.flatMap_cons, Mirror.replay_append, strict hm h1 (hr [] es bs m rfl rfl)]
      refine ih m1 (hm.replay h1) hv ?_
      intro bs1 es' bs2 m2 h2 h3
      exact hr (es :: bs1) es' bs2 m2 (by rw [h2]; rfl) (by
        rw [List.flatten_cons, Mirror.replay_append, h1]; exact h3)

/-- a connection is removed in each of two batches, once in each -/
example : (Queue.run demoQuiet 9 (batchProgram [[.edgeRemoved "a" "b", .edgeAdded "a" "b" 2], [.edgeRemoved "b" "a"]]) Queue.init).map
      Queue.processed = some [.edgeRemoved "a" "b", .edgeAdded "a" "b" 2, .edgeRemoved "b" "a"] := by decide +kernel

/-- In particular a queue that is subscribed to an empty graph and flushed for the first time. -/
theorem C34_first_flush {F E : Type} [FrameProp F] [EdgeProp E] (env : QEnv) (hp : env.Passive) (cs : List (GS.Cmd F E))
    (hns : ∀ a p, GS.Cmd.addEdge a a p ∉ cs) (s : GS F E) (h : GS.run cs GS.init = some s) (n : Nat) (hn : s.trace.length ≤ n) :
    ∃ q m, Queue.run env n (batchProgram [s.trace.map Prod.fst]) Queue.init = some q ∧ Mirror.empty.replay q.processed = some m ∧
      (∀ f, f ∈ m.frames ↔ GS.containsFrame f s = true) ∧ (∀ a b, (a, b) ∈ m.conns ↔ GS.containsEdge a b s = .ok true s) := by
  obtain ⟨l, h1, h2⟩ := GS.run_advances WF.empty h
  obtain ⟨m, h3, h4⟩ := MirrorOf.steps (fun g e he => he (noSelf_of hns)) h1 WF.empty Paired.empty MirrorOf.empty
  have h5 : Mirror.empty.replay (s.trace.map Prod.fst) = some m := by rw [h2]; simpa [GS.init] using h3
  obtain ⟨q, h6, h7⟩ := C34_strict_partial env hp _ _ Mirror.Proper.empty _ h5 n (by simpa using hn)
  refine ⟨q, m, h6, h7.2 (fun a b hab => by simp [Mirror.empty] at hab), fun f => h4.frames f, fun a b => ?_⟩
  rw [h4.conns, containsEdge_iff]

example : ∃ s : GS DemoFrame Int, GS.run [.addEdge "a" "b" 1, .removeEdge "b" "a", .addEdge "b" "a" 2, .addFrame "c", .removeFrame "c"] GS.init =
      some s ∧ (Queue.run demoQuiet 9 (batchProgram [s.trace.map Prod.fst]) Queue.init).map Queue.processed =
    some [.frameAdded "a", .frameAdded "b", .edgeAdded "b" "a" 2] :=
  ⟨_, rfl, by decide +kernel⟩

/-- a connection that existed is removed once and added again, another one comes and goes -/
example : (Queue.run demoQuiet 9 (batchProgram [[.edgeModified "a" "b" 0 1, .edgeRemoved "b" "a", .edgeAdded "b" "c" 2, .edgeAdded "a" "b" 4,
      .edgeRemoved "c" "b", .edgeModified "b" "a" 5 4]]) Queue.init).map Queue.processed =
    some [.edgeRemoved "b" "a", .edgeAdded "a" "b" 4, .edgeModified "b" "a" 5 4] := by decide +kernel

example : (⟨{"a", "b", "c"}, {("a", "b"), ("b", "a")}⟩ : Mirror).Proper := demoProper _ (by decide)

end Verif
