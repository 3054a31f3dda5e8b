import Verif.Lemmas.ViewSlots
import Verif.Lemmas.Mirror
import Verif.Spec.Demo
set_option linter.unusedSectionVars false
set_option synthInstance.maxSize 1024
/-!
# C94: slots that throw do not disturb the graph

Full statement: if a slot that is connected to a signal of a tree view throws, then after the call of the graph that caused the
emission the graph, the published events and all views without throwing slots are those that the call leaves without slots.

It fails: `add_edge` publishes its event after the views, `disconnectFrame` stops after the edge at hand, and the views that are
subscribed behind the throwing one are passed over.  What holds is stated exactly: graph and events compared with the same call on
the same graph without views, and the views compared with the call without slots.
-/

namespace Verif
open GS
variable {F E : Type} [FrameProp F] [EdgeProp E]

/-- the full statement -/
def C94_statement (F E : Type) [FrameProp F] [EdgeProp E] : Prop :=
  ∀ (sl : Slots) (hist : List (Cmd F E)) (s : GS F E), run hist init = some s → ∀ (c : Cmd F E) (t : GS F E), (exec c s).st? = some t →
    ∃ s', (execS sl c s).st? = some s' ∧ s'.g = t.g ∧ s'.trace = t.trace ∧ ∀ q, (∀ w, sl q w = none) → s'.views q = t.views q

/-- the same graph in a program without views, before any event -/
def C94_alone (s : GS F E) : GS F E := ⟨s.g, [], fun _ => TreeView.empty, []⟩

/-- Slots that return: the call is the one of the other properties. -/
theorem C94_quiet (sl : Slots) (hq : ∀ p w, sl p w = none) (c : Cmd F E) (s : GS F E) : execS sl c s = exec c s := by
  have he : ∀ p w, TreeView.emit (sl p) w = .ok () w := by intro p w; simp [TreeView.emit, hq]
  have never : ∀ (k : Nat) (r rS : Res TreeView Unit), TreeView.SlotCut (sl k) r rS → rS = r := by
    rintro k r rS (h | ⟨x, w, -, h, -⟩)
    · exact h
    · rw [hq] at h; cases h
  have hadd : ∀ (g : G F E) (e : ERec E) (ps : List Nat) (vs : Nat → TreeView),
      addEdgeToTreeViewsS sl g e ps vs = addEdgeToTreeViews g e ps vs := by
    intro g e ps vs
    have : (fun p => addEdgeToTreeViewS (sl p) g e) = fun _ => addEdgeToTreeView g e := by
      funext p w; exact never p _ _ (addEdgeToTreeViewS_cut (sl p) g e w)
    rw [addViewsS_over, addViews_over, this]
  have hrm : ∀ (o t : VId) (ps : List Nat) (vs : Nat → TreeView),
      removeEdgeFromTreeViewsS sl o t ps vs = removeEdgeFromTreeViews o t ps vs := by
    intro o t ps vs
    have : rmViewS sl o t = rmView o t := by
      funext p w; exact never p _ _ (rmViewS_cut sl o t p w)
    rw [rmViewsS_over, rmViews_over, this]
  have hboth : ∀ (o t : FrameId) (u v : VId) (s : GS F E), removeEdgeBothS sl o t u v s = removeEdgeBoth o t u v s := by
    intro o t u v s
    simp only [removeEdgeBothS, removeEdgeBoth, hrm]
    rfl
  have hD : ∀ (u v : VId) (s : GS F E), removeEdgeDS sl u v s = removeEdgeD u v s := by
    intro u v s
    simp only [removeEdgeDS, removeEdgeD, hboth]
    rfl
  have hloop : ∀ (v : VId) (n : Nat) (s : GS F E), disconnectLoopS sl v n s = disconnectLoop v n s := by
    intro v n
    induction n with
    | zero => intro s; unfold disconnectLoopS disconnectLoop; cases s.g.outEdges v <;> rfl
    | succ n ih =>
      intro s
      unfold disconnectLoopS disconnectLoop
      cases s.g.outEdges v with
      | nil => rfl
      | cons e es =>
        simp only [hD]
        cases removeEdgeD v e.tgt s with
        | ok a s1 => exact ih s1
        | throw x s1 => rfl
        | ub r => rfl
  cases c with
  | addEdge o t p =>
    simp only [execS, exec, addEdgeS, addEdge, addEdgeDS, addEdgeD, hadd]
    rfl
  | removeEdge o t =>
    simp only [execS, exec, removeEdgeS, removeEdge, hboth]
    rfl
  | disconnectFrame f =>
    simp only [execS, exec, disconnectFrameS, disconnectFrame, hloop]
    rfl
  | getTree f k p =>
    simp only [execS, exec, getTreeS, getTree]
    cases s.g.vertexOf f with
    | none => rfl
    | some v =>
      simp only
      rw [never p _ _ (getTreeIntoS_cut (sl p) s.g v (s.views p))]
      cases getTreeInto s.g v (s.views p) <;> rfl
  | _ => rfl

/-- Whatever the slots do: the graph after any history is one that some calls without views and slots make (without self edges if
the history has none), so everything that holds for the graph and its names after ordinary histories holds here as well. -/
theorem C94_graph (sl : Slots) (calls : List (Cmd F E)) (s : GS F E) (h : runS sl calls init = some s) :
    ∃ cs t, run cs init = some t ∧ t.g = s.g ∧ t.subs = [] ∧
      ((∀ f p, Cmd.addEdge f f p ∉ calls) → ∀ f p, Cmd.addEdge f f p ∉ cs) := by
  obtain ⟨cs, b, k1, k2, k3, k4⟩ := runS_solo WF.empty h
  refine ⟨cs, b, k1, k2.symm, k3.1, ?_⟩
  intro hn f p hm
  refine k4 ?_ _ hm rfl
  intro c hc
  cases c with
  | addEdge o t p => intro ho; subst ho; exact hn _ _ hc
  | _ => trivial

/-- `remove_edge` and slots: graph and events are those of the call without views, whether it returned or a slot threw. -/
theorem C94_removal_complete (sl : Slots) (s : GS F E) (o t : FrameId) (s' : GS F E) (h : (execS sl (.removeEdge o t) s).st? = some s') :
    ∃ b, (exec (.removeEdge o t) (C94_alone s)).st? = some b ∧ s'.g = b.g ∧ s'.trace = s.trace ++ b.trace ∧ s'.subs = s.subs := by
  obtain ⟨b, k1, k2, k3, -, -, k6⟩ := removeEdgeS_solo h
  exact ⟨b, k1, k2, k6, k3⟩

/-- `add_edge` and slots: the graph is that of the call without views; the events as well if the call returns.  If a slot threw, both
directions of the edge are in the graph, but the last event is missing: no subscriber learns of the edge. -/
theorem C94_addition_silent (sl : Slots) (calls : List (Cmd F E)) (s : GS F E) (hr : runS sl calls init = some s) (o t : FrameId) (p : E)
    (b : GS F E) (hb : exec (.addEdge o t p) (C94_alone s) = .ok () b) (s' : GS F E) :
    (execS sl (.addEdge o t p) s = .ok () s' → s'.g = b.g ∧ s'.trace = s.trace ++ b.trace ∧ s'.subs = s.subs) ∧
    (∀ x, execS sl (.addEdge o t p) s = .throw x s' → s'.g = b.g ∧ s'.subs = s.subs ∧
      ∃ i, s.trace ++ b.trace = s'.trace ++ [(.edgeAdded o t i, s'.g)]) := by
  have hw : WF s.g := runS_wf WF.empty hr
  constructor
  · intro h
    obtain ⟨b', k1, k2, k3, -, -, k6⟩ := addEdgeS_solo (sl := sl) (o := o) (t := t) (p := p) hw (s' := s')
      (by rw [show addEdgeS sl o t p s = execS sl (.addEdge o t p) s from rfl, h]; rfl)
    have : b' = b := by
      have hb' : exec (.addEdge o t p) (solo s) = .ok () b := hb
      rw [hb'] at k1; cases k1; rfl
    subst this
    rcases k6 with ⟨k6, -⟩ | ⟨⟨x, k6⟩, -⟩
    · exact ⟨k2, k6, k3⟩
    · rw [show execS sl (.addEdge o t p) s = addEdgeS sl o t p s from rfl, k6] at h; cases h
  · intro x h
    obtain ⟨b', k1, k2, k3, -, -, k6⟩ := addEdgeS_solo (sl := sl) (o := o) (t := t) (p := p) hw (s' := s')
      (by rw [show addEdgeS sl o t p s = execS sl (.addEdge o t p) s from rfl, h]; rfl)
    have : b' = b := by
      have hb' : exec (.addEdge o t p) (solo s) = .ok () b := hb
      rw [hb'] at k1; cases k1; rfl
    subst this
    refine ⟨k2, k3, ?_⟩
    rcases k6 with ⟨-, ⟨y, k6⟩ | k6⟩ | ⟨-, -, k6⟩
    · rw [show exec (.addEdge o t p) (solo s) = .ok () b' from hb] at k6; cases k6
    · rw [show execS sl (.addEdge o t p) s = addEdgeS sl o t p s from rfl, k6] at h; cases h
    · exact k6

/-- An observer that rebuilds the graph from the events (C08) does not know the edge of which a slot prevented the announcement, although
the graph has it, and it stops at the next event about the edge. -/
theorem C94_observer_misled (sl : Slots) (hist : List (Cmd F E)) (hns : ∀ a p, Cmd.addEdge a a p ∉ hist) (s : GS F E)
    (hr : run hist init = some s) (o t : FrameId) (hot : o ≠ t) (p : E) (b : GS F E) (hb : exec (.addEdge o t p) (C94_alone s) = .ok () b)
    (x : Exn) (s' : GS F E) (h : execS sl (.addEdge o t p) s = .throw x s') :
    containsEdge o t s' = .ok true s' ∧ containsEdge t o s' = .ok true s' ∧
    (∃ m, Mirror.empty.replay (s'.trace.map Prod.fst) = some m ∧ (o, t) ∉ m.conns) ∧
    Mirror.empty.replay ((s'.trace.map Prod.fst) ++ [.edgeRemoved o t]) = none ∧
    ∀ i j, Mirror.empty.replay ((s'.trace.map Prod.fst) ++ [.edgeModified o t i j]) = none := by
  have hw : WF s.g := run_wf WF.empty hr
  have happ : ∀ (l l' : List Event) (m : Mirror), m.replay (l ++ l') = (m.replay l).bind (fun m' => m'.replay l') := by
    intro l
    induction l with
    | nil => intro l' m; rfl
    | cons e l ih =>
      intro l' m
      simp only [List.cons_append, Mirror.replay]
      cases m.apply e with
      | none => rfl
      | some m1 => exact ih l' m1
  obtain ⟨b', k1, k2, k3, -, -, k6⟩ := addEdgeS_solo (sl := sl) (o := o) (t := t) (p := p) hw (s' := s')
      (by rw [show addEdgeS sl o t p s = execS sl (.addEdge o t p) s from rfl, h]; rfl)
  have hbb : b' = b := by
    have hb' : exec (.addEdge o t p) (solo s) = .ok () b := hb
    rw [hb'] at k1; cases k1; rfl
  subst hbb
  obtain ⟨i, k6⟩ : ∃ i, s.trace ++ b'.trace = s'.trace ++ [(.edgeAdded o t i, s'.g)] := by
    rcases k6 with ⟨-, ⟨y, k6⟩ | k6⟩ | ⟨-, -, k6⟩
    · rw [show exec (.addEdge o t p) (solo s) = .ok () b' from hb] at k6; cases k6
    · rw [show execS sl (.addEdge o t p) s = addEdgeS sl o t p s from rfl, k6] at h; cases h
    · exact k6
  obtain ⟨l1, a1, a2⟩ := run_advances WF.empty hr
  obtain ⟨l2, c1, c2⟩ := exec_advances (s := solo s) hw k1
  have clean1 := a1.mono (Q := cleanEv) (fun g e he => he (noSelf_of hns))
  have clean2 := c1.mono (Q := cleanEv) (fun g e he => he hot)
  have all := clean1.append clean2
  have hbt : b'.trace = l2 := by simpa [solo] using c2
  have hst : s.trace = l1 := by simpa [init] using a2
  obtain ⟨m, h3, h4⟩ := MirrorOf.steps (fun g e he => he) all WF.empty Paired.empty MirrorOf.empty
  rw [← hst, ← hbt, k6, List.map_append, happ] at h3
  obtain ⟨m1, e1, e2⟩ := Option.bind_eq_some_iff.1 h3
  have hnot : (o, t) ∉ m1.conns := by
    simp only [List.map_cons, List.map_nil, Mirror.replay, Mirror.apply] at e2
    split at e2
    · rename_i hc; exact hc.2.2.2
    · cases e2
  have hm : m = { m1 with conns := insert (o, t) (insert (t, o) m1.conns) } := by
    simp only [List.map_cons, List.map_nil, Mirror.replay, Mirror.apply] at e2
    split at e2
    · simp only [Option.bind_some, Option.some.injEq] at e2; exact e2.symm
    · cases e2
  refine ⟨?_, ?_, ⟨m1, e1, hnot⟩, ?_, ?_⟩
  · rw [containsEdge_iff, k2]
    exact (h4.conns o t).1 (by rw [hm]; simp)
  · rw [containsEdge_iff, k2]
    exact (h4.conns t o).1 (by rw [hm]; simp)
  · rw [happ, e1]; simp [Mirror.replay, Mirror.apply, hnot]
  · intro i j
    rw [happ, e1]; simp [Mirror.replay, Mirror.apply, hnot]

/-- `disconnectFrame` and slots: some neighbours are disconnected, completely and with their events, as by `remove_edge`; if the call
returns, all of them. -/
theorem C94_disconnect (sl : Slots) (calls : List (Cmd F E)) (s : GS F E) (hr : runS sl calls init = some s) (f : FrameId) (s' : GS F E)
    (h : (execS sl (.disconnectFrame f) s).st? = some s') :
    (∃ (ts : List FrameId) (b : GS F E), run (ts.map (Cmd.removeEdge f)) (C94_alone s) = some b ∧ s'.g = b.g ∧ s'.trace = s.trace ++ b.trace ∧ s'.subs = s.subs) ∧
    (execS sl (.disconnectFrame f) s = .ok () s' → ∃ v, s'.g.vertexOf f = some v ∧ ∀ e ∈ s'.g.edges, e.src ≠ v) := by
  have hw : WF s.g := runS_wf WF.empty hr
  obtain ⟨ts, b, k1, k2, k3, k4, k5, k6⟩ := disconnectFrameS_solo hw h
  refine ⟨⟨ts, b, k1, k2, k6, k3⟩, ?_⟩
  intro hok
  simp only [execS, disconnectFrameS] at hok
  cases hv : s.g.vertexOf f with
  | none => rw [hv] at hok; cases hok
  | some v =>
    rw [hv] at hok
    have hvb : ∀ (ts : List FrameId) (b b' : GS F E), run (ts.map (Cmd.removeEdge f)) b = some b' → b'.g.vertexOf f = b.g.vertexOf f := by
      intro ts
      induction ts with
      | nil => intro b b' h; simp only [List.map_nil, run, Option.some.injEq] at h; subst h; rfl
      | cons t ts ih =>
        intro b b' h
        obtain ⟨b1, m1, m2⟩ := run_cons h
        rw [ih b1 b' m2, removeEdge_vertexOf m1]
    refine ⟨v, by rw [k2, hvb _ _ _ k1]; exact hv, ?_⟩
    have hend : ∀ (n : Nat) (s s' : GS F E), disconnectLoopS sl v n s = .ok () s' → s'.g.outEdges v = [] := by
      intro n
      induction n with
      | zero =>
        intro s s' h
        unfold disconnectLoopS at h
        split at h
        · rename_i hn; cases h; exact hn
        · cases h
      | succ n ih =>
        intro s s' h
        unfold disconnectLoopS at h
        split at h
        · rename_i hn; cases h; exact hn
        · simp only at h
          split at h
          · exact ih _ _ h
          · cases h
          · cases h
    have := hend _ _ _ hok
    intro e he hsrc
    have : e ∈ s'.g.outEdges v := List.mem_filter.2 ⟨he, by simpa using hsrc⟩
    rw [hend _ _ _ hok] at this
    cases this

/-- a call that adds or removes one edge -/
def C94_oneEdge : Cmd F E → Prop
  | .addEdge _ _ _ => True
  | .removeEdge _ _ => True
  | _ => False

/-- The views, if a call that adds or removes an edge does not end as without slots: a slot of one of the subscribed views `k` threw, and
the exception is the one of the call.  The views in front of `k` are as after the call without slots, `k` has emitted the first part
of its signals, and the views behind it (like all views that are not subscribed) are as before the call. -/
theorem C94_views (sl : Slots) (calls : List (Cmd F E)) (s : GS F E) (hr : runS sl calls init = some s) (c : Cmd F E)
    (hc : C94_oneEdge c) (hne : execS sl c s ≠ exec c s) :
    ∃ x s' a k b, execS sl c s = .throw x s' ∧ s.subs = a ++ k :: b ∧ k ∉ a ∧ sl k (s'.views k) = some x ∧
      (∀ q, q ∉ a → q ≠ k → s'.views q = s.views q) ∧ (s.views k).signals <+: (s'.views k).signals ∧
      ∀ t, (exec c s).st? = some t → (∀ q ∈ a, s'.views q = t.views q) ∧ (s'.views k).signals <+: (t.views k).signals := by
  have hw : WF s.g := runS_wf WF.empty hr
  have hn : s.subs.Nodup := (runS_subsInv WF.empty init_subsInv hr).1
  cases c with
  | addEdge o t p =>
    obtain ⟨x, s', a, k, b, k1, k2, k3, k4, k5⟩ := addEdgeS_cut hn hne
    obtain ⟨b', -, -, -, -, k6, -⟩ := addEdgeS_solo (sl := sl) (o := o) (t := t) (p := p) hw (s' := s') (by rw [k1]; rfl)
    refine ⟨x, s', a, k, b, k1, k2, ?_, k3, k4, (k6 k).1, fun u hu => ⟨(k5 u hu).1, (k5 u hu).2.1⟩⟩
    intro hka
    rw [k2] at hn
    exact (List.nodup_append.1 hn).2.2 k hka k (by simp) rfl
  | removeEdge o t =>
    obtain ⟨x, s', a, k, b, k1, k2, k3, k4, k5⟩ := removeEdgeS_cut' hn hne
    obtain ⟨b', -, -, -, -, k6, -⟩ := removeEdgeS_solo (sl := sl) (o := o) (t := t) (s' := s') (by rw [k1]; rfl)
    refine ⟨x, s', a, k, b, k1, k2, ?_, k3, k4, (k6 k).1, fun u hu => ⟨(k5 u hu).1, (k5 u hu).2.1⟩⟩
    intro hka
    rw [k2] at hn
    exact (List.nodup_append.1 hn).2.2 k hka k (by simp) rfl
  | _ => exact absurd hc (by simp [C94_oneEdge])

/-- `getTree` and slots: if the call does not end as without slots, a slot threw.  The view has its root and the first part of the
signals, but it is not subscribed, even if that was asked for; nothing else has changed. -/
theorem C94_getTree (sl : Slots) (s : GS F E) (f : FrameId) (keep : Bool) (k : Nat)
    (hne : execS sl (.getTree f keep k) s ≠ exec (.getTree f keep k) s) :
    ∃ x s' v, execS sl (.getTree f keep k) s = .throw x s' ∧ s.g.vertexOf f = some v ∧ sl k (s'.views k) = some x ∧ s'.g = s.g ∧
      s'.trace = s.trace ∧ s'.subs = s.subs ∧ (∀ q, q ≠ k → s'.views q = s.views q) ∧ (s'.views k).root = some v ∧
      (s'.views k).publisher = (s.views k).publisher ∧ (s.views k).signals <+: (s'.views k).signals ∧
      ∀ t, exec (.getTree f keep k) s = .ok () t → (s'.views k).signals <+: (t.views k).signals := by
  simp only [execS, exec, getTreeS, getTree] at hne ⊢
  cases hv : s.g.vertexOf f with
  | none => rw [hv] at hne; exact absurd rfl hne
  | some v =>
    rw [hv] at hne
    simp only at hne ⊢
    rcases getTreeIntoS_cut (sl k) s.g v (s.views k) with h | ⟨x, w, h, h1, h2⟩
    · exfalso
      apply hne
      rw [h]
      cases getTreeInto s.g v (s.views k) <;> rfl
    · have hl := getTreeIntoS_later (by rw [h]; rfl : (getTreeIntoS (sl k) s.g v (s.views k)).st? = some w)
      rw [h]
      refine ⟨x, _, v, rfl, rfl, by simpa [setView] using h1, rfl, rfl, rfl, fun q hq => by simp [setView, hq], ?_, ?_, ?_, ?_⟩
      · simp only [setView, if_true]; exact hl.3
      · simp only [setView, if_true]; exact hl.2
      · simp only [setView, if_true]; exact hl.1
      · intro t ht
        simp only [setView, if_true]
        cases hg : getTreeInto s.g v (s.views k) with
        | ub r => rw [hg] at ht; cases ht
        | throw y w' => rw [hg] at ht; cases ht
        | ok u w' =>
          rw [hg] at ht
          have hp := (h2 w' (by rw [hg]; rfl)).1
          simp only at ht
          split at ht
          · simp only [subscribeTreeView, setView, if_true] at ht
            split at ht
            · cases ht
            · cases ht; simpa [setView] using hp
          · cases ht; simpa [setView] using hp

/-- demo: the slots of view 0 throw when an edge of the tree is removed, the ones of view 1 when one is added -/
def demoSlots : Slots := fun k w =>
  match k, w.signals.getLast? with
  | 0, some (.edgeRemoved _ _) => some (.runtimeError "slot")
  | 1, some (.edgeAdded _ _) => if w.signals.length > 2 then some (.runtimeError "slot") else none
  | _, _ => none

/-- demo: the chain a, b, c with three views on it -/
def demoThree : List (Cmd DemoFrame Int) :=
  [.addEdge "a" "b" 1, .addEdge "b" "c" 2, .getTree "a" true 0, .getTree "a" true 1, .getTree "a" true 2]

/-- demo: what is left of a state -/
def demoSeen (s : GS DemoFrame Int) : List (VId × VId) × List Event × List (List VId) × List Nat :=
  (s.g.edges.map (fun e => (e.src, e.tgt)), (s.trace.map Prod.fst).drop 5, [0, 1, 2].map (fun k => (s.views k).tree.map Prod.fst), s.subs)

/-- the slot of view 1 throws at the new edge: view 0 has the frame "d" (3), view 1 as well, view 2 has not; the event is missing -/
example : (match execS demoSlots (.addEdge "c" "d" 3) ((run demoThree init).getD init) with
    | .throw x s => some (x, demoSeen s) | _ => none) =
    some (.runtimeError "slot", [(0, 1), (1, 0), (1, 2), (2, 1), (2, 3), (3, 2)], [.frameAdded "d"],
      [[0, 1, 2, 3], [0, 1, 2, 3], [0, 1, 2]], [0, 1, 2]) := by decide +kernel

/-- the slot of view 0 throws when "c" (2) is taken out: "b" (1) stays in that view, and the other two are as before -/
example : (match execS demoSlots (.removeEdge "a" "b") ((run demoThree init).getD init) with
    | .throw x s => some (x, demoSeen s, (s.views 0).signals.getLast?) | _ => none) =
    some (.runtimeError "slot", ([(1, 2), (2, 1)], [.edgeRemoved "a" "b"], [[0, 1], [0, 1, 2], [0, 1, 2]], [0, 1, 2]),
      some (.edgeRemoved 1 2)) := by decide +kernel

/-- `getTree` on a fourth view whose slots throw at the second edge: it is not subscribed -/
example : (match execS (fun k w => if k = 3 ∧ w.signals.length = 2 then some (.runtimeError "slot") else none) (.getTree "a" true 3)
      ((run demoThree init).getD init) with
    | .throw x s => some (x, (s.views 3).tree.map Prod.fst, (s.views 3).root, (s.views 3).publisher, s.subs) | _ => none) =
    some (.runtimeError "slot", [0, 1, 2], some 0, false, [0, 1, 2]) := by decide +kernel

/-- `disconnectFrame("b")` stops after the first neighbour -/
example : (match execS demoSlots (.disconnectFrame "b") ((run demoThree init).getD init) with
    | .throw x s => some (x, demoSeen s) | _ => none) =
    some (.runtimeError "slot", [(1, 2), (2, 1)], [.edgeRemoved "b" "a"], [[0, 1], [0, 1, 2], [0, 1, 2]], [0, 1, 2]) := by decide +kernel

/-- slots that return: `C94_quiet` -/
example : (match execS (fun _ _ => none) (.disconnectFrame "b") ((run demoThree init).getD init) with
    | .ok _ s => some (demoSeen s) | _ => none) =
    some ([], [.edgeRemoved "b" "a", .edgeRemoved "b" "c"], [[0], [0], [0]], [0, 1, 2]) := by decide +kernel

/-- The full statement is false: `add_edge` does not publish its event. -/
theorem C94_statement_fails : ¬ C94_statement DemoFrame Int := by
  intro hs
  obtain ⟨s, hsr⟩ : ∃ s, run demoThree init = some s := ⟨_, rfl⟩
  have h1 : (run demoThree init).bind (fun s => (exec (.addEdge "c" "d" 3) s).st?.map (fun t => t.trace.length)) = some 7 := by
    decide +kernel
  have h2 : (run demoThree init).bind (fun s => (execS demoSlots (.addEdge "c" "d" 3) s).st?.map (fun t => t.trace.length)) = some 6 := by
    decide +kernel
  rw [hsr] at h1 h2
  simp only [Option.bind_some] at h1 h2
  obtain ⟨t, ht, ht'⟩ := Option.map_eq_some_iff.1 h1
  obtain ⟨u, hu, hu'⟩ := Option.map_eq_some_iff.1 h2
  obtain ⟨s', k1, -, k3, -⟩ := hs demoSlots demoThree s hsr (.addEdge "c" "d" 3) t ht
  rw [hu] at k1
  cases k1
  rw [k3, ht'] at hu'
  cases hu'

/-- The views do not recover: all three keep "b" (1) after the graph has lost that frame; the descriptor is dangling. -/
theorem C94_stale_view : (runS demoSlots (demoThree ++ [.removeEdge "a" "b", .removeEdge "b" "c", .removeFrame "b", .removeFrame "c"])
      init).map (fun s => (s.g.verts.map VRec.id, [0, 1, 2].map (fun k => (s.views k).tree.map Prod.fst), s.subs)) =
    some ([0], [[0, 1], [0, 1], [0, 1]], [0, 1, 2]) := by decide +kernel

/-- Connecting the frames again does not help the view whose slot threw: "c" is a frame of the tree again, but view 0 believes that it
knows everything behind "b". -/
theorem C94_view_incomplete : (runS demoSlots (demoThree ++ [.removeEdge "a" "b", .addEdge "a" "b" 1]) init).map
      (fun s => (s.g.edges.map (fun e => (e.src, e.tgt)), (s.views 0).tree.map Prod.fst)) =
    some ([(1, 2), (2, 1), (0, 1), (1, 0)], [0, 1]) := by decide +kernel

/-- the observer of `C94_observer_misled` at work -/
example : ((runS demoSlots (demoThree ++ [.addEdge "c" "d" 3]) init).map (fun s => (s.trace.map Prod.fst).drop 3)) =
      some [.frameAdded "c", .edgeAdded "b" "c" 2, .frameAdded "d"] ∧
    (runS demoSlots (demoThree ++ [.addEdge "c" "d" 3, .setEdge "c" "d" 4]) init).map (fun s => (s.trace.map Prod.fst).drop 5) =
      some [.frameAdded "d", .edgeModified "c" "d" 4 5] := by decide +kernel

/-- a graph that histories with throwing slots make, and the ordinary calls for it (`C94_graph`) -/
example : ((runS demoSlots (demoThree ++ [.disconnectFrame "b", .addEdge "c" "d" 3]) init).map (fun s => s.g.edges.map (fun e => (e.src, e.tgt, e.prop))))
      = some [(1, 2, 2), (2, 1, -2), (2, 3, 3), (3, 2, -3)] ∧
    (run ([.addEdge "a" "b" 1, .addEdge "b" "c" 2, .removeEdge "b" "a", .addEdge "c" "d" 3] : List (Cmd DemoFrame Int)) init).map
      (fun s => s.g.edges.map (fun e => (e.src, e.tgt, e.prop))) = some [(1, 2, 2), (2, 1, -2), (2, 3, 3), (3, 2, -3)] := by decide +kernel

/-- demo: throws at the signal with this number of every view -/
def demoNth (n : Nat) : Slots := fun _ w => if w.signals.length = n then some (.runtimeError "slot") else none

/-- a slot throws while the part behind the new edge is added: "e" (4) is missing in the view, the edges are in the graph -/
example : (match execS (demoNth 2) (.addEdge "b" "c" 9) ((run ([.addEdge "c" "d" 1, .addEdge "d" "e" 1, .addFrame "b",
        .getTree "b" true 0] : List (Cmd DemoFrame Int)) init).getD init) with
    | .throw x s => some (x, s.g.edges.map (fun e => (e.src, e.tgt)), (s.views 0).signals, (s.trace.map Prod.fst).length) | _ => none) =
    some (.runtimeError "slot", [(0, 1), (1, 0), (1, 2), (2, 1), (3, 0), (0, 3)], [.edgeAdded 3 0, .edgeAdded 0 1], 6) := by decide +kernel

/-- a slot throws at the announcement of a cross edge, in `add_edge` and in `getTree` -/
example : (match execS (demoNth 3) (.addEdge "a" "c" 9) ((run ([.addEdge "a" "b" 1, .addEdge "b" "c" 1,
        .getTree "a" true 0] : List (Cmd DemoFrame Int)) init).getD init) with
    | .throw x s => some (x, (s.views 0).signals.getLast?, (s.views 0).crossEdges.length, s.g.edges.length, (s.trace.map Prod.fst).length)
    | _ => none) = some (.runtimeError "slot", some (.crossEdgeAdded ⟨0, 2, 4⟩), 1, 6, 5) := by decide +kernel

example : (match execS (demoNth 3) (.getTree "a" true 0) ((run ([.addEdge "a" "b" 1, .addEdge "b" "c" 1,
        .addEdge "a" "c" 9] : List (Cmd DemoFrame Int)) init).getD init) with
    | .throw x s => some (x, (s.views 0).signals, s.subs) | _ => none) =
    some (.runtimeError "slot", [.edgeAdded 0 1, .edgeAdded 0 2, .crossEdgeAdded ⟨1, 2, 2⟩], []) := by decide +kernel

end Verif
