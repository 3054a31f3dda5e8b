import Verif.Lemmas.Loose
import Verif.Lemmas.PairKept
import Verif.Props.C34
import Verif.Spec.PathSpec
set_option linter.unusedSectionVars false
/-! # C34: what the queue tells about the connections of a graph, self edges included -/

namespace Verif
open Queue
variable {F E : Type} [FrameProp F] [EdgeProp E]

/-- each event about a connection fits the graph before it -/
private theorem step_caccept {g g' : G F E} {x : Event × G F E} {m : Mirror} (hs : GStep g x g') (hw : WF g) (hp : Paired g.ns) (hm : MirrorOf g m)
    (a b : FrameId) : caccept a b (decide ((a, b) ∈ m.conns)) x.1 := by
  have both : ∀ {c d : FrameId}, (absEdge g c d).isSome → ∀ a b, isConn a b c d → (absEdge g a b).isSome := by
    rintro c d h a b (⟨rfl, rfl⟩ | ⟨rfl, rfl⟩)
    · exact h
    · by_cases he : c = d
      · subst he; exact h
      · exact absEdge_symm_ns hw hp he h
  intro t ht
  cases hs with
  | addV hn hid => simp [ctag] at ht
  | dupV hv => simp [ctag] at ht
  | @addE c d u v p hc hd hn =>
    simp only [ctag] at ht
    split at ht
    · rename_i hcon
      obtain rfl := Option.some.inj ht
      simp only [decide_eq_true_eq, ne_eq, not_true_eq_false, iff_false, hm.conns]
      intro h
      have h2 : (absEdge g c d).isSome := both h c d (by
        rcases hcon with ⟨rfl, rfl⟩ | ⟨rfl, rfl⟩
        · exact Or.inl ⟨rfl, rfl⟩
        · exact Or.inr ⟨rfl, rfl⟩)
      rw [absEdge_of hc hd, hn] at h2
      simp at h2
    · cases ht
  | @rmE g1 _ c d u v e1 e2 hc hd h1 h2 hg1 hg2 =>
    simp only [ctag] at ht
    split at ht
    · rename_i hcon
      obtain rfl := Option.some.inj ht
      simp only [decide_eq_true_eq, hm.conns]
      simp [both (by rw [absEdge_of hc hd, h1]; rfl) a b hcon]
    · cases ht
  | @setP c d u v e1 e2 p hc hd h1 h2 =>
    simp only [ctag] at ht
    split at ht
    · rename_i hcon
      obtain rfl := Option.some.inj ht
      simp only [decide_eq_true_eq, hm.conns]
      simp [both (by rw [absEdge_of hc hd, h1]; rfl) a b hcon]
    · cases ht
  | rmV hv hd => simp [ctag] at ht

private theorem take_conn (m : Mirror) (e : Event) (a b : FrameId) :
    connAfter a b (decide ((a, b) ∈ m.conns)) [e] = decide ((a, b) ∈ (m.take e).conns) := by
  cases e with
  | edgeAdded o t i =>
    simp only [connAfter, Mirror.take, Finset.mem_insert, Prod.mk.injEq]
    by_cases h : isConn a b o t
    · rw [if_pos h]
      rcases h with ⟨rfl, rfl⟩ | ⟨rfl, rfl⟩ <;> simp
    · rw [if_neg h]
      simp only [isConn, not_or, not_and] at h
      have h1 : ¬ (a = o ∧ b = t) := fun k => h.1 k.1.symm k.2.symm
      have h2 : ¬ (a = t ∧ b = o) := fun k => h.2 k.2.symm k.1.symm
      simp [h1, h2]
  | edgeRemoved o t =>
    simp only [connAfter, Mirror.take, Finset.mem_erase, ne_eq, Prod.mk.injEq]
    by_cases h : isConn a b o t
    · rw [if_pos h]
      rcases h with ⟨rfl, rfl⟩ | ⟨rfl, rfl⟩ <;> simp
    · rw [if_neg h]
      simp only [isConn, not_or, not_and] at h
      have h1 : ¬ (a = o ∧ b = t) := fun k => h.1 k.1.symm k.2.symm
      have h2 : ¬ (a = t ∧ b = o) := fun k => h.2 k.2.symm k.1.symm
      simp [h1, h2]
  | _ => rfl

private theorem steps_shape {P : G F E → Event → Prop} {g g' : G F E} {l : List (Event × G F E)} (hs : GSteps P g l g') (a b : FrameId) :
    ∀ {m : Mirror} {b0 : Bool} {r : Nat} {L : List Event}, WF g → Paired g.ns → MirrorOf g m →
      CShape b0 (decide ((a, b) ∈ m.conns)) r (L.filterMap (ctag a b)) →
      CShape b0 (decide ((a, b) ∈ ((l.map Prod.fst).foldl Mirror.take m).conns)) (r + removals a b (l.map Prod.fst))
        ((queued L (l.map Prod.fst)).filterMap (ctag a b)) := by
  induction hs with
  | nil g => intro m b0 r L _ _ _ h; simpa [removals] using h
  | @cons g g' g'' x l hs hx _ ih =>
    intro m b0 r L hw hp hm h
    have h1 := h.insert (step_caccept hs hw hp hm a b)
    rw [take_conn] at h1
    have h2 := ih (hs.wf hw) (hs.paired_ns hw hp) (hm.take hs hw hp) h1
    have h3 : removals a b (x.1 :: l.map Prod.fst) = removals a b [x.1] + removals a b (l.map Prod.fst) := removals_append a b [x.1] _
    simp only [List.map_cons, List.foldl_cons]
    rw [h3, ← Nat.add_assoc]
    exact h2

/-- `C34_exactly_wrong` for the events of a graph, self edges included.  Let a queue be flushed in a state of the graph and then again in a later one.
Told to an observer who knew the connections at the first flush, the delivered events are wrong exactly for those that existed then, were
removed at least twice and do not exist now. -/
theorem C34_exactly_wrong_in_graphs (env : QEnv) (hp : env.Passive) (cs0 cs : List (GS.Cmd F E)) (s0 s : GS F E) (h0 : GS.run cs0 GS.init = some s0)
    (h : GS.run cs s0 = some s) (n : Nat) (hn : (newEvents s0 s).length ≤ n) :
    ∃ q, Queue.run env n (batchProgram [newEvents s0 s]) Queue.init = some q ∧ ∀ a b (before after : Bool),
      (before = true ↔ GS.containsEdge a b s0 = .ok true s0) → (after = true ↔ GS.containsEdge a b s = .ok true s) →
      (connAfter a b before q.processed ≠ after ↔ before = true ∧ 2 ≤ removals a b (newEvents s0 s) ∧ after = false) := by
  refine ⟨_, run_batches hp (by simpa using hn) rfl, fun a b before after hb ha => ?_⟩
  obtain ⟨l0, j1, -⟩ := GS.run_advances WF.empty h0
  have hm0 := MirrorOf.takes j1 WF.empty (run_paired_ns (cs := []) rfl) MirrorOf.empty
  have hw0 : WF s0.g := GS.run_wf WF.empty h0
  have hp0 : Paired s0.g.ns := run_paired_ns h0
  obtain ⟨l, k1, k2⟩ := GS.run_advances hw0 h
  have hne : newEvents s0 s = l.map Prod.fst := by simp [newEvents, k2]
  have hm := MirrorOf.takes k1 hw0 hp0 hm0
  have hsh := steps_shape k1 a b (r := 0) (L := []) (b0 := decide ((a, b) ∈ ((l0.map Prod.fst).foldl Mirror.take Mirror.empty).conns)) hw0 hp0 hm0 (by
    by_cases hf : (a, b) ∈ ((l0.map Prod.fst).foldl Mirror.take Mirror.empty).conns <;> simp [hf, CShape])
  rw [containsEdge_iff, ← hm0.conns] at hb
  rw [containsEdge_iff, ← hm.conns] at ha
  have hb' : before = decide ((a, b) ∈ ((l0.map Prod.fst).foldl Mirror.take Mirror.empty).conns) := by
    rw [Bool.eq_iff_iff, decide_eq_true_eq]; exact hb
  have ha' : after = decide ((a, b) ∈ ((l.map Prod.fst).foldl Mirror.take ((l0.map Prod.fst).foldl Mirror.take Mirror.empty)).conns) := by
    rw [Bool.eq_iff_iff, decide_eq_true_eq]; exact ha
  rw [← hb', ← ha', Nat.zero_add, ← hne] at hsh
  simp only [Queue.init, List.nil_append, List.flatMap_cons, List.flatMap_nil, List.append_nil, connAfter_eq]
  clear ha' hb' ha hb
  cases before <;> cases after <;> simp only [CShape] at hsh ⊢
  · rw [hsh]; simp [tagsAfter]
  · rcases hsh with h | h <;> rw [h] <;> simp [tagsAfter]
  · rcases hsh with ⟨hr, h⟩ | ⟨hr, h⟩ <;> rw [h] <;> simp [tagsAfter, hr]
  · rcases hsh with ⟨hr, h | h⟩ | ⟨hr, h | h⟩ | ⟨hr, h | h⟩ <;> rw [h] <;> simp [tagsAfter]

/-- the self edge of "a" is added and changed, the connection of "a" and "b" that existed is removed, added and removed -/
example : ∃ s0 s : GS DemoFrame Int, GS.run [.addEdge "a" "b" 1] GS.init = some s0 ∧
    GS.run [.addEdge "a" "a" 5, .removeEdge "a" "b", .addEdge "b" "a" 2, .setEdge "a" "a" 6, .removeEdge "b" "a", .addEdge "c" "c" 1] s0 = some s ∧
    newEvents s0 s = [.edgeAdded "a" "a" 2, .edgeRemoved "a" "b", .edgeAdded "b" "a" 4, .edgeModified "a" "a" 2 2, .edgeRemoved "b" "a",
      .frameAdded "c", .frameAdded "c", .edgeAdded "c" "c" 6] ∧
    (Queue.run demoQuiet 9 (batchProgram [newEvents s0 s]) Queue.init).map (fun q => (q.processed, connAfter "a" "b" true q.processed,
      connAfter "a" "a" false q.processed, connAfter "c" "c" false q.processed)) =
    some ([.edgeAdded "a" "a" 2, .edgeModified "a" "a" 2 2, .frameAdded "c", .frameAdded "c", .edgeAdded "c" "c" 6], true, true, true) :=
  ⟨_, _, rfl, rfl, rfl, by decide +kernel⟩

/-- A queue that is subscribed to an empty graph and flushed for the first time tells the connections of the graph, self edges included. -/
theorem C34_first_flush_with_self_edges (env : QEnv) (hp : env.Passive) (cs : List (GS.Cmd F E)) (s : GS F E) (h : GS.run cs GS.init = some s)
    (n : Nat) (hn : s.trace.length ≤ n) :
    ∃ q, Queue.run env n (batchProgram [s.trace.map Prod.fst]) Queue.init = some q ∧
      ∀ a b, connAfter a b false q.processed = true ↔ GS.containsEdge a b s = .ok true s := by
  have hne : newEvents (GS.init : GS F E) s = s.trace.map Prod.fst := by simp [newEvents, GS.init]
  obtain ⟨q, h1, h2⟩ := C34_exactly_wrong_in_graphs env hp [] cs GS.init s rfl h n (by rw [hne]; simpa using hn)
  rw [hne] at h1
  refine ⟨q, h1, fun a b => ?_⟩
  by_cases hc : GS.containsEdge a b s = .ok true s
  · have := h2 a b false true (by simp only [containsEdge_iff]; simp; rfl) (by simp [hc])
    simp only [hc, iff_true]
    by_contra hne
    exact absurd (this.1 hne).1 (by simp)
  · have := h2 a b false false (by simp only [containsEdge_iff]; simp; rfl) (by simp [hc])
    simp only [hc, iff_false]
    intro hne
    exact absurd (this.1 (by rw [hne]; simp)).1 (by simp)

/-- a self edge, and a connection that comes and goes -/
example : ∃ s : GS DemoFrame Int, GS.run [.addEdge "a" "a" 1, .addEdge "a" "b" 2, .removeEdge "a" "b"] GS.init = some s ∧
    (Queue.run demoQuiet 9 (batchProgram [s.trace.map Prod.fst]) Queue.init).map (fun q => (connAfter "a" "a" false q.processed,
      connAfter "a" "b" false q.processed)) = some (true, false) := ⟨_, rfl, by decide +kernel⟩

/-- a sequence of steps can be cut anywhere -/
private theorem steps_split {P : G F E → Event → Prop} : ∀ {l1 l2 : List (Event × G F E)} {g g'' : G F E}, GSteps P g (l1 ++ l2) g'' →
    ∃ g', GSteps P g l1 g' ∧ GSteps P g' l2 g''
  | [], _, g, _, h => ⟨g, .nil g, h⟩
  | x :: l1, l2, g, g'', h => by
    cases h with
    | cons h hx t =>
      obtain ⟨g', h1, h2⟩ := steps_split t
      exact ⟨g', .cons h hx h1, h2⟩

private theorem batches_conn {P : G F E → Event → Prop} (a b : FrameId) : ∀ {bs : List (List Event)} {l : List (Event × G F E)} {g g' : G F E} {m : Mirror},
    GSteps P g l g' → bs.flatten = l.map Prod.fst → WF g → Paired g.ns → MirrorOf g m → (∀ es ∈ bs, removals a b es ≤ 1) →
    connAfter a b (decide ((a, b) ∈ m.conns)) (bs.flatMap (queued [])) = decide ((a, b) ∈ ((l.map Prod.fst).foldl Mirror.take m).conns)
  | [], l, g, g', m, _, hb, _, _, _, _ => by
    rw [← hb]; rfl
  | es :: bs, l, g, g', m, hs, hb, hw, hp, hm, hr => by
    rw [List.flatten_cons] at hb
    obtain ⟨l1, l2, rfl, e1, e2⟩ := List.append_eq_map_iff.1 hb
    obtain ⟨g1, s1, s2⟩ := steps_split hs
    have h1 := steps_shape s1 a b (r := 0) (L := []) (b0 := decide ((a, b) ∈ m.conns)) hw hp hm (by
      by_cases hf : (a, b) ∈ m.conns <;> simp [hf, CShape])
    have h2 := batches_conn a b s2 e2.symm (s1.wf hw) (s1.paired_ns hw hp) (MirrorOf.takes s1 hw hp hm) (fun es' h => hr es' (by simp [h]))
    have h3 := hr es (by simp)
    rw [List.flatMap_cons, connAfter_append, List.map_append, List.foldl_append, ← h2]
    congr 1
    rw [e1, Nat.zero_add] at h1
    rw [e1, connAfter_eq]
    generalize decide ((a, b) ∈ m.conns) = before at h1 ⊢
    generalize decide ((a, b) ∈ (es.foldl Mirror.take m).conns) = after at h1 ⊢
    cases before <;> cases after <;> simp only [CShape] at h1 ⊢
    · rw [h1]; rfl
    · rcases h1 with h | h <;> rw [h] <;> rfl
    · rcases h1 with ⟨hr, h⟩ | ⟨hr, h⟩
      · rw [h]; rfl
      · omega
    · rcases h1 with ⟨hr, h | h⟩ | ⟨hr, h | h⟩ | ⟨hr, h | h⟩ <;> rw [h] <;> rfl

/-- Any number of flushes at any times, any history, self edges included: a connection that is removed at most once between two flushes is told correctly.
Missing compared to C34: connections that are removed twice between two flushes (`C34_exactly_wrong_in_graphs`). -/
theorem C34_programs_in_graphs_partial (env : QEnv) (hp : env.Passive) (cs0 cs : List (GS.Cmd F E)) (s0 s : GS F E) (h0 : GS.run cs0 GS.init = some s0)
    (h : GS.run cs s0 = some s) (bs : List (List Event)) (hb : bs.flatten = newEvents s0 s) (n : Nat) (hn : ∀ es ∈ bs, es.length ≤ n) :
    ∃ q, Queue.run env n (batchProgram bs) Queue.init = some q ∧ q.events = [] ∧ ∀ a b (before : Bool), (∀ es ∈ bs, removals a b es ≤ 1) →
      (before = true ↔ GS.containsEdge a b s0 = .ok true s0) →
      (connAfter a b before q.processed = true ↔ GS.containsEdge a b s = .ok true s) := by
  refine ⟨_, run_batches hp hn rfl, rfl, fun a b before hr hbe => ?_⟩
  obtain ⟨l0, j1, -⟩ := GS.run_advances WF.empty h0
  have hm0 := MirrorOf.takes j1 WF.empty (run_paired_ns (cs := []) rfl) MirrorOf.empty
  have hw0 : WF s0.g := GS.run_wf WF.empty h0
  have hp0 : Paired s0.g.ns := run_paired_ns h0
  obtain ⟨l, k1, k2⟩ := GS.run_advances hw0 h
  have hne : newEvents s0 s = l.map Prod.fst := by simp [newEvents, k2]
  have hm := MirrorOf.takes k1 hw0 hp0 hm0
  rw [containsEdge_iff, ← hm0.conns] at hbe
  have hb' : before = decide ((a, b) ∈ ((l0.map Prod.fst).foldl Mirror.take Mirror.empty).conns) := by
    rw [Bool.eq_iff_iff, decide_eq_true_eq]; exact hbe
  have := batches_conn a b k1 (hb.trans hne) hw0 hp0 hm0 hr
  rw [containsEdge_iff, ← hm.conns, hb']
  simp only [Queue.init, List.nil_append, this, decide_eq_true_eq]

/-- a connection that existed is removed in two batches, once in each; a self edge is added in the first and changed in the second -/
example : ∃ s0 s : GS DemoFrame Int, GS.run [.addEdge "a" "b" 1] GS.init = some s0 ∧
    GS.run [.removeEdge "a" "b", .addEdge "a" "a" 3, .addEdge "a" "b" 2, .setEdge "a" "a" 6, .removeEdge "b" "a"] s0 = some s ∧
    newEvents s0 s = [[.edgeRemoved "a" "b", .edgeAdded "a" "a" 2, .edgeAdded "a" "b" 4], [.edgeModified "a" "a" 2 2, .edgeRemoved "b" "a"]].flatten ∧
    (Queue.run demoQuiet 9 (batchProgram [[.edgeRemoved "a" "b", .edgeAdded "a" "a" 2, .edgeAdded "a" "b" 4],
      [.edgeModified "a" "a" 2 2, .edgeRemoved "b" "a"]]) Queue.init).map (fun q => (connAfter "a" "b" true q.processed,
      connAfter "a" "a" false q.processed)) = some (false, true) :=
  ⟨_, _, rfl, rfl, rfl, by decide +kernel⟩

end Verif
