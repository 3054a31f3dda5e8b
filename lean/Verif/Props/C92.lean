import Verif.Lemmas.Reenter
import Verif.Lemmas.ReenterViews
import Verif.Lemmas.NoSelf
import Verif.Spec.Demo
set_option linter.unusedSectionVars false
set_option synthInstance.maxSize 1024
/-!
# C92: event handlers may call the graph that published the event

Full statement: whatever the subscribers of a graph do in their handlers (call the graph again, throw), a call that ends leaves the
graph, the subscribed views and the view objects as some sequence of ordinary calls would have done, and the same events were
published.

It fails, because `remove_edge` publishes its event between the removal of the two directions, and because `add_edge` keeps
descriptors while it publishes the new frames.  It holds, up to repeated announcements of frames, if handlers do nothing when an edge
is removed (`C92_in_order_partial`).
-/

namespace Verif
open GS
variable {F E : Type} [FrameProp F] [EdgeProp E]

/-- is it the announcement of a frame -/
def C92_announces : Event → Bool
  | .frameAdded _ => true
  | _ => false

/-- `s'` is what the calls `cs`, one after the other and without handlers, make of `s`; the events are the same except that
`s'` may have announced frames more often -/
def C92_sameAs (cs : List (Cmd F E)) (s s' : GS F E) : Prop :=
  ∃ t, run cs s = some t ∧ s'.g = t.g ∧ s'.subs = t.subs ∧ s'.views = t.views ∧ t.trace.Sublist s'.trace ∧
    s'.trace.filter (fun x => !C92_announces x.1) = t.trace.filter (fun x => !C92_announces x.1)

/-- the full statement -/
def C92_statement (F E : Type) [FrameProp F] [EdgeProp E] : Prop :=
  ∀ (hd : Handler F E) (n : Nat) (hist : List (Cmd F E)) (s : GS F E), run hist init = some s →
    ∀ (c : Cmd F E) (s' : GS F E), (hexec hd n c s).st? = some s' → ∃ cs, C92_sameAs cs s s'

theorem sameAs_of_lin {s s' : GS F E} (h : Lin s s') : ∃ cs, C92_sameAs cs s s' := by
  obtain ⟨cs, t, h1, h2⟩ := h
  have : (fun x : Event × G F E => !C92_announces x.1) = fun x => !isAnnounce x.1 := by
    funext x; cases x.1 <;> rfl
  exact ⟨cs, t, h1, h2.g, h2.subs, h2.views, h2.trace.sub, by rw [this]; exact h2.trace.rest⟩

/-- Subscribers that only listen: the call is the one of the other properties. -/
theorem C92_listeners (hd : Handler F E) (hp : ∀ ev s, hd ev 0 s = .done) (n : Nat) (hist : List (Cmd F E)) (s : GS F E)
    (hr : run hist init = some s) (c : Cmd F E) : hexec hd (n + 1) c s = exec c s := by
  refine execH_passive (nt := fun ev s => handleLoop hd (hexec hd n) ev n 0 (notify ev s)) ?_ n c s (run_wf WF.empty hr)
  intro ev s
  rw [handleLoop.eq_def]
  simp only [hp]

/-- Handlers that call the graph and throw as they like, except that they do nothing when the removal of an edge is announced: every
call that ends (returns or throws) has the effect of some sequence of ordinary calls, for every reachable state. -/
theorem C92_in_order_partial (hd : Handler F E) (hq : ∀ o t s, hd (.edgeRemoved o t) 0 s = .done) (n : Nat)
    (hist : List (Cmd F E)) (s : GS F E) (hr : run hist init = some s) (c : Cmd F E) (s' : GS F E)
    (h : (hexec hd n c s).st? = some s') : ∃ cs, C92_sameAs cs s s' :=
  sameAs_of_lin (hexec_lin hq n c s s' (run_wf WF.empty hr) h)

/-- The same for whole histories. -/
theorem C92_histories_partial (hd : Handler F E) (hq : ∀ o t s, hd (.edgeRemoved o t) 0 s = .done) (n : Nat)
    (calls : List (Cmd F E)) (s' : GS F E) (h : hrun hd n calls init = some s') : ∃ cs, C92_sameAs cs init s' := by
  have key : ∀ (calls : List (Cmd F E)) (s : GS F E), WF s.g → hrun hd n calls s = some s' → Lin s s' := by
    intro calls
    induction calls with
    | nil => intro s _ h; simp only [hrun, Option.some.injEq] at h; subst h; exact .refl _
    | cons c calls ih =>
      intro s hw h
      simp only [hrun] at h
      cases hx : hexec hd n c s with
      | ub r => rw [hx] at h; cases h
      | ok a s1 =>
        rw [hx] at h
        have l1 := hexec_lin hq n c s s1 hw (by rw [hx]; rfl)
        exact l1.trans (ih s1 (l1.wf hw) h)
      | throw x s1 =>
        rw [hx] at h
        have l1 := hexec_lin hq n c s s1 hw (by rw [hx]; rfl)
        exact l1.trans (ih s1 (l1.wf hw) h)
  exact sameAs_of_lin (key calls init WF.empty h)

/-- demo: a frame "a" gets the neighbour "a2", which is removed again when the edge is modified -/
def demoCompanion : Handler DemoFrame Int := fun ev k _ =>
  match ev, k with
  | .frameAdded "a", 0 => .call (.addEdge "a" "a2" 7) false
  | .edgeModified "a" "a2" _ _, 0 => .call (.disconnectFrame "a2") true
  | .edgeModified "a" "a2" _ _, 1 => .call (.removeFrame "a2") true
  | .edgeModified "a" "a2" _ _, 2 => .call (.removeFrame "a2") true
  | _, _ => .done

/-- frame "a" is announced, then "a2" and their edge, then "b" and the edge of the call from outside -/
example : (hrun demoCompanion 5 [.addEdge "a" "b" 1, .setEdge "a" "a2" 2] init).map
    (fun s => (s.trace.map Prod.fst, s.g.verts.map (fun r => FrameProp.getId r.prop), s.g.edges.map (fun e => (e.src, e.tgt, e.prop)))) =
    some ([.frameAdded "a", .frameAdded "a2", .edgeAdded "a" "a2" 0, .frameAdded "b", .edgeAdded "a" "b" 2,
        .edgeModified "a" "a2" 0 1, .edgeRemoved "a2" "a", .frameRemoved "a2"], ["a", "b"], [(0, 2, 1), (2, 0, -1)]) := by
  decide +kernel

/-- number of edges from `u` to `v` -/
def C92_edges (g : G F E) (u v : VId) : Nat := (g.edges.filter (fun e => e.src = u ∧ e.tgt = v)).length

theorem edges_eq_count (g : G F E) (u v : VId) : C92_edges g u v = g.count u v := by
  simp [C92_edges, G.count, List.countP_eq_length_filter]

/-- The half removed edge: whatever is called afterwards, one edge more leads from `t` to `o` than back, and both frames
stay, because `removeFrame` throws. -/
def C92_stuck (o t : FrameId) (vo vt : VId) (s : GS F E) : Prop :=
  ∀ ds u, run ds s = some u → C92_edges u.g vt vo = C92_edges u.g vo vt + 1 ∧ u.g.vertexOf o = some vo ∧ u.g.vertexOf t = some vt ∧
    removeFrame o u = .throw (.frameStillConnected o) u ∧ removeFrame t u = .throw (.frameStillConnected t) u

theorem stuck_of {o t : FrameId} {vo vt : VId} {s : GS F E} (hw : WF s.g) (hc : s.g.count vt vo = s.g.count vo vt + 1)
    (ho : s.g.vertexOf o = some vo) (ht : s.g.vertexOf t = some vt) : C92_stuck o t vo vt s := by
  intro ds u hu
  obtain ⟨l, h1, -⟩ := run_advances hw hu
  have hwu := h1.wf hw
  have hcu := h1.count hw vt vo
  have no := h1.named (hw.named ho)
  have nt := h1.named (hw.named ht)
  have hcu' : u.g.count vt vo = u.g.count vo vt + 1 := by omega
  obtain ⟨e, he, h2, h3⟩ := G.edge_isSome.1 (G.edge_of_count (g := u.g) (u := vt) (v := vo) (by omega))
  obtain ⟨r, hr, hr1⟩ := hwu.esrc e he
  obtain ⟨r', hr', hr1'⟩ := hwu.etgt e he
  have ho' : u.g.vertexOf o = some vo := hwu.vertexOf_iff.2 ⟨r', hr', hr1'.trans h3, no.2 r' hr' (hr1'.trans h3)⟩
  have ht' : u.g.vertexOf t = some vt := hwu.vertexOf_iff.2 ⟨r, hr, hr1.trans h2, nt.2 r hr (hr1.trans h2)⟩
  have d1 : u.g.degree vo > 0 := by
    have : 0 < (u.g.edges.filter (fun e => e.tgt = vo)).length :=
      List.length_pos_of_mem (List.mem_filter.2 ⟨he, by simpa using h3⟩)
    unfold G.degree; omega
  have d2 : u.g.degree vt > 0 := by
    have : 0 < (u.g.edges.filter (fun e => e.src = vt)).length :=
      List.length_pos_of_mem (List.mem_filter.2 ⟨he, by simpa using h2⟩)
    unfold G.degree; omega
  refine ⟨by rw [edges_eq_count, edges_eq_count]; exact hcu', ho', ht', ?_, ?_⟩
  · simp [removeFrame, ho', d1]
  · simp [removeFrame, ht', d2]

/-- the state in which the handlers of a removal run -/
theorem half_removed {hist : List (Cmd F E)} {s : GS F E} (hr : run hist init = some s) {o t : FrameId} {vo vt : VId} (hne : o ≠ t)
    (ho : s.g.vertexOf o = some vo) (ht : s.g.vertexOf t = some vt) {e : ERec E} (he : s.g.edge vo vt = some e) :
    ∃ e2 g1, s.g.edge vt vo = some e2 ∧ s.g.removeEdge e.id = some g1 ∧ WF g1 ∧ g1.count vt vo = g1.count vo vt + 1 ∧
      g1.vertexOf o = some vo ∧ g1.vertexOf t = some vt := by
  have hw : WF s.g := run_wf WF.empty hr
  obtain ⟨l, h1, -⟩ := run_advances WF.empty hr
  have hsym := h1.count WF.empty vo vt
  have z : ∀ u v, (init : GS F E).g.count u v = 0 := fun u v => rfl
  rw [z, z] at hsym
  obtain ⟨m, hs, htg⟩ := G.edge_some he
  have hvne : vo ≠ vt := by
    intro h; rw [← h] at ht; exact hne (hw.vertexOf_inj ho ht)
  obtain ⟨g1, hg1⟩ : ∃ g1, s.g.removeEdge e.id = some g1 := by
    have : s.g.edges.any (fun r => r.id = e.id) = true := List.any_eq_true.2 ⟨e, m, by simp⟩
    unfold G.removeEdge; rw [if_pos this]; exact ⟨_, rfl⟩
  have c1 := hw.count_remove m hg1 vo vt
  have c2 := hw.count_remove m hg1 vt vo
  rw [hs, htg] at c1 c2
  rw [if_pos ⟨rfl, rfl⟩] at c1
  rw [if_neg (fun h => hvne h.1)] at c2
  obtain ⟨e2, he2⟩ := Option.isSome_iff_exists.1 (G.edge_of_count (g := s.g) (u := vt) (v := vo) (by omega))
  have hl : g1.labels = s.g.labels := by
    have := hg1
    unfold G.removeEdge at this
    split at this
    · cases this; rfl
    · cases this
  exact ⟨e2, g1, he2, hg1, hw.removeEdge hg1, by omega, by simp only [G.vertexOf, hl]; exact ho,
    by simp only [G.vertexOf, hl]; exact ht⟩

/-- A handler that throws when the removal of an edge is announced leaves the edge half removed, for every reachable graph and every
edge.  Nothing that is called later can repair it: the frames can never be removed again. -/
theorem C92_half_edge (hd : Handler F E) (n : Nat) (hist : List (Cmd F E)) (s : GS F E) (hr : run hist init = some s)
    (o t : FrameId) (hne : o ≠ t) (vo vt : VId) (ho : s.g.vertexOf o = some vo) (ht : s.g.vertexOf t = some vt) (e : ERec E)
    (he : s.g.edge vo vt = some e) (hf : ∀ s, hd (.edgeRemoved o t) 0 s = .fail) :
    ∃ s', hexec hd (n + 1) (.removeEdge o t) s = .throw (.runtimeError "thrown by the handler") s' ∧ C92_stuck o t vo vt s' := by
  obtain ⟨e2, g1, h2, h3, h4, h5, h6, h7⟩ := half_removed hr hne ho ht he
  refine ⟨notify (.edgeRemoved o t) { s with g := g1 }, ?_, stuck_of h4 h5 h6 h7⟩
  simp only [hexec, execH, removeEdgeH, ho, ht, removeEdgeBothH, he, h2, h3]
  rw [handleLoop.eq_def]
  simp only [hf]

/-- A handler that removes a frame when its edge has been removed, for example because that was the last one: it is refused, for every
reachable graph, since the other direction is still there.  If the handler does not catch the exception, the edge is half removed for
ever. -/
theorem C92_frame_still_connected (hd : Handler F E) (n : Nat) (hist : List (Cmd F E)) (s : GS F E)
    (hr : run hist init = some s) (o t : FrameId) (hne : o ≠ t) (vo vt : VId) (ho : s.g.vertexOf o = some vo)
    (ht : s.g.vertexOf t = some vt) (e : ERec E) (he : s.g.edge vo vt = some e) (f : FrameId) (hf : f = o ∨ f = t)
    (hc : ∀ s, hd (.edgeRemoved o t) 0 s = .call (.removeFrame f) false) :
    ∃ s', hexec hd (n + 2) (.removeEdge o t) s = .throw (.frameStillConnected f) s' ∧ C92_stuck o t vo vt s' := by
  obtain ⟨e2, g1, h2, h3, h4, h5, h6, h7⟩ := half_removed hr hne ho ht he
  have hst := stuck_of (s := notify (.edgeRemoved o t) { s with g := g1 }) h4 h5 h6 h7
  have hrf : removeFrame f (notify (.edgeRemoved o t) { s with g := g1 }) =
      .throw (.frameStillConnected f) (notify (.edgeRemoved o t) { s with g := g1 }) := by
    have := hst [] _ rfl
    rcases hf with rfl | rfl
    · exact this.2.2.2.1
    · exact this.2.2.2.2
  have hrh : ∀ nt : Notify F E, removeFrameH nt f (notify (.edgeRemoved o t) { s with g := g1 }) =
      .throw (.frameStillConnected f) (notify (.edgeRemoved o t) { s with g := g1 }) := by
    intro nt
    simp only [removeFrame, removeFrameH] at hrf ⊢
    cases hv : (notify (.edgeRemoved o t) { s with g := g1 }).g.vertexOf f with
    | none => rw [hv] at hrf; cases hrf
    | some v =>
      rw [hv] at hrf
      simp only at hrf ⊢
      split at hrf
      · rename_i hx; rw [if_pos hx]
      · cases hrf
  refine ⟨notify (.edgeRemoved o t) { s with g := g1 }, ?_, hst⟩
  simp only [hexec, execH, removeEdgeH, ho, ht, removeEdgeBothH, he, h2, h3]
  rw [handleLoop.eq_def]
  simp only [hc, hrh]
  rfl

/-- demo: "a" and "b" connected -/
def demoPair : List (Cmd DemoFrame Int) := [.addEdge "a" "b" 3]

/-- demo: throws at every removal of an edge -/
def demoThrower : Handler DemoFrame Int := fun ev _ _ => match ev with | .edgeRemoved _ _ => .fail | _ => .done

/-- `remove_edge("a", "b")` leaves the edge from "b" to "a"; connecting and removing again does not help, nor does `disconnectFrame` -/
example : (hrun demoThrower 3 (demoPair ++ [.removeEdge "a" "b"]) init).map (fun s => (s.g.edges.map (fun e => (e.src, e.tgt, e.prop)),
      (run [.addEdge "a" "b" 4, .removeEdge "a" "b", .disconnectFrame "b", .removeFrame "a"] s).map
        (fun u => (u.g.edges.map (fun e => (e.src, e.tgt, e.prop)), u.g.verts.length)))) =
    some ([(1, 0, -3)], some ([(1, 0, -4)], 2)) := by decide +kernel

/-- The full statement is false: no sequence of ordinary calls leaves one edge. -/
theorem C92_statement_fails : ¬ C92_statement DemoFrame Int := by
  intro hs
  obtain ⟨s, hsr⟩ : ∃ s, run demoPair init = some s := ⟨_, rfl⟩
  have hn : (run demoPair init).map (fun s => (s.g.vertexOf "a", s.g.vertexOf "b", (s.g.edge 0 1).isSome)) =
      some (some 0, some 1, true) := by decide +kernel
  rw [hsr] at hn
  simp only [Option.map_some, Option.some.injEq, Prod.mk.injEq] at hn
  obtain ⟨ha, hb, he⟩ := hn
  obtain ⟨e, he⟩ := Option.isSome_iff_exists.1 he
  obtain ⟨s', h1, h2⟩ := C92_half_edge demoThrower 0 demoPair s hsr "a" "b" (by decide) 0 1 ha hb e he (fun _ => rfl)
  obtain ⟨cs, t, h3, h4, -⟩ := hs demoThrower 1 demoPair s hsr (.removeEdge "a" "b") s' (by rw [h1]; rfl)
  have hst := (h2 [] s' rfl).1
  obtain ⟨l, h5, -⟩ := run_advances WF.empty (run_append_some hsr h3)
  have hsym := h5.count WF.empty 0 1
  have z : ∀ u v, (init : GS DemoFrame Int).g.count u v = 0 := fun u v => rfl
  rw [z, z] at hsym
  rw [edges_eq_count, edges_eq_count, h4] at hst
  omega

/-- A handler that gives the remaining direction a new property runs into the assert of `setEdgeProperty`. -/
theorem C92_set_in_handler (hd : Handler F E) (n : Nat) (hist : List (Cmd F E)) (s : GS F E)
    (hr : run hist init = some s) (o t : FrameId) (hne : o ≠ t) (vo vt : VId) (ho : s.g.vertexOf o = some vo)
    (ht : s.g.vertexOf t = some vt) (e : ERec E) (he : s.g.edge vo vt = some e) (p : E) (b : Bool)
    (hc : ∀ s, hd (.edgeRemoved o t) 0 s = .call (.setEdge t o p) b) :
    hexec hd (n + 2) (.removeEdge o t) s = .ub "setEdgeProperty: assert" := by
  obtain ⟨e2, g1, h2, h3, h4, h5, h6, h7⟩ := half_removed hr hne ho ht he
  have hp : Paired s.g.ns := run_paired_ns hr
  have hvv : vo ≠ vt := fun e => hne ((run_wf WF.empty hr).vertexOf_inj ho (e ▸ ht))
  have hg : g1.edges = s.g.edges.filter (fun r => r.id ≠ e.id) := by
    have := h3
    unfold G.removeEdge at this
    split at this
    · cases this; rfl
    · cases this
  have hno : g1.edge vo vt = none := by
    refine G.edge_none.2 ?_
    rintro r hr' ⟨a1, a2⟩
    rw [hg] at hr'
    obtain ⟨b1, b2⟩ := List.mem_filter.1 hr'
    obtain ⟨c1, c2, c3⟩ := G.edge_some he
    exact (by simpa using b2 : r.id ≠ e.id) (congrArg ERec.id (hp.uniq r (G.mem_ns.2 ⟨b1, by rw [a1, a2]; exact hvv⟩) e
      (G.mem_ns.2 ⟨c1, by rw [c2, c3]; exact hvv⟩) (by rw [a1, c2]) (by rw [a2, c3])))
  obtain ⟨e3, h8⟩ := Option.isSome_iff_exists.1 (G.edge_of_count (g := g1) (u := vt) (v := vo) (by omega))
  have hno' : (g1.setProp e3.id p).edge vo vt = none := by rw [G.edge_setProp, hno]; rfl
  simp only [hexec, execH, removeEdgeH, ho, ht, removeEdgeBothH, he, h2, h3]
  rw [handleLoop.eq_def]
  simp only [hc, setEdgePropertyH, notify, h6, h7, h8, hno']

/-- A handler that removes the new frame again while `add_edge` creates it: `add_edge` goes on with a dangling descriptor. -/
theorem C92_dangling (hd : Handler F E) (n : Nat) (hist : List (Cmd F E)) (s : GS F E) (hr : run hist init = some s) (o t : FrameId)
    (ho : s.g.vertexOf o = none) (vt : VId) (ht : s.g.vertexOf t = some vt) (p : E) (b : Bool)
    (h0 : ∀ s, hd (.frameAdded o) 0 s = .call (.removeFrame o) b) (h1 : ∀ s, hd (.frameAdded o) 1 s = .done)
    (h2 : ∀ s, hd (.frameRemoved o) 0 s = .done) :
    hexec hd (n + 2) (.addEdge o t p) s = .ub "add_edge: dangling descriptor" := by
  have hw : WF s.g := run_wf WF.empty hr
  have ho' : s.g.labels.get o = none := ho
  have hv : (s.g.addVertex o (FrameProp.setId o FrameProp.dflt : F)).1.vertexOf o = some s.g.nextV := by
    simp [G.addVertex, ho', G.vertexOf, AMap.get_append, AMap.get_cons]
  have hsnd : (s.g.addVertex o (FrameProp.setId o FrameProp.dflt : F)).2 = s.g.nextV := by simp [G.addVertex, ho']
  have hdeg : (s.g.addVertex o (FrameProp.setId o FrameProp.dflt : F)).1.degree s.g.nextV = 0 := by
    have a1 : s.g.edges.filter (fun e => e.src = s.g.nextV) = [] := by
      refine List.filter_eq_nil_iff.2 ?_
      intro e he h
      obtain ⟨r, hr, hr1⟩ := hw.esrc e he
      have := hw.vlt r hr
      rw [hr1, of_decide_eq_true h] at this
      exact Nat.lt_irrefl _ this
    have a2 : s.g.edges.filter (fun e => e.tgt = s.g.nextV) = [] := by
      refine List.filter_eq_nil_iff.2 ?_
      intro e he h
      obtain ⟨r, hr, hr1⟩ := hw.etgt e he
      have := hw.vlt r hr
      rw [hr1, of_decide_eq_true h] at this
      exact Nat.lt_irrefl _ this
    simp [G.addVertex, ho', G.degree, a1, a2]
  have hgone : ((s.g.addVertex o (FrameProp.setId o FrameProp.dflt : F)).1.removeVertex s.g.nextV o).findV s.g.nextV = none := by
    simp [G.findV, G.removeVertex]
  have hrm : ∀ s1 : GS F E, s1.g = (s.g.addVertex o (FrameProp.setId o FrameProp.dflt : F)).1 →
      hexec hd (n + 1) (.removeFrame o) s1 =
        .ok () (notify (.frameRemoved o) { s1 with g := s1.g.removeVertex s.g.nextV o }) := by
    intro s1 hs1
    have hlt : ¬ (s1.g.degree s.g.nextV > 0) := by rw [hs1, hdeg]; simp
    simp only [hexec, execH, removeFrameH, hs1, hv, hdeg]
    simp only [gt_iff_lt, Nat.lt_irrefl, if_false]
    rw [handleLoop.eq_def]
    simp only [h2]
  rw [hexec.eq_def]
  simp only [execH, addEdgeH, ho, ht, orCreateH, addVertexH]
  rw [handleLoop.eq_def]
  simp only [h0]
  rw [hrm _ rfl]
  simp only
  rw [handleLoop.eq_def]
  simp only [h1, addEdgeDH, notify, hsnd, hgone]

/-- A handler that sets the transform once more whenever it is changed never ends, for every graph with that edge. -/
theorem C92_endless (hd : Handler F E) (o t : FrameId) (p : E) (b : Bool)
    (hc : ∀ i j s, hd (.edgeModified o t i j) 0 s = .call (.setEdge o t p) b) (vo vt : VId) (n : Nat) :
    ∀ (s : GS F E) (q : E), s.g.vertexOf o = some vo → s.g.vertexOf t = some vt → (s.g.edge vo vt).isSome → (s.g.edge vt vo).isSome →
      hexec hd n (.setEdge o t q) s = .ub "handler: no end" := by
  induction n with
  | zero => intro s q _ _ _ _; rfl
  | succ n ih =>
    intro s q ho ht h1 h2
    obtain ⟨e1, he1⟩ := Option.isSome_iff_exists.1 h1
    obtain ⟨e2, he2⟩ := Option.isSome_iff_exists.1 h2
    obtain ⟨e2', he2'⟩ : ∃ e, (s.g.setProp e1.id q).edge vt vo = some e := by
      rw [G.edge_setProp, he2]; exact ⟨_, rfl⟩
    simp only [hexec, execH, setEdgePropertyH, ho, ht, he1, he2']
    rw [handleLoop.eq_def]
    simp only [hc]
    cases n with
    | zero => rfl
    | succ m =>
      simp only
      rw [ih _ p]
      · exact ho
      · exact ht
      · simp only [notify, G.edge_setProp, he1]; rfl
      · simp only [notify, G.edge_setProp, he2]; rfl

/-- demo: reconnects the frames when their edge is removed -/
def demoKeeper : Handler DemoFrame Int := fun ev k _ =>
  match ev, k with
  | .edgeRemoved o t, 0 => .call (.addEdge o t 9) true
  | _, _ => .done

/-- The view that is kept up to date loses the edge that the handler added again: `remove_edge` removes it from the views after the
handler has run.  The graph has the edge, the view has the root only. -/
theorem C92_view_loses_edge : (hrun demoKeeper 5 (demoPair ++ [.getTree "a" true 0, .removeEdge "a" "b"]) init).map
    (fun s => (s.g.edges.map (fun e => (e.src, e.tgt, e.prop)), s.subs, (s.views 0).root, (s.views 0).vertexExists 1, s.trace.map Prod.fst)) =
    some ([(0, 1, 9), (1, 0, -9)], [0], some 0, false, [.frameAdded "a", .frameAdded "b", .edgeAdded "a" "b" 0, .edgeRemoved "a" "b",
      .edgeAdded "a" "b" 2]) := by decide +kernel

/-- `disconnectFrame` with such a handler never ends -/
example : hexec demoKeeper 6 (.disconnectFrame "a") ((run demoPair init).getD init) matches .ub _ := by decide +kernel

/-- demo: changes its mind twice -/
def demoUndecided : Handler DemoFrame Int := fun ev k s =>
  match ev, k with
  | .edgeRemoved o t, 0 => if s.trace.length < 5 then .call (.addEdge o t 9) true else .done
  | .edgeRemoved o t, 1 => if s.trace.length < 6 then .call (.removeEdge o t) true else .done
  | _, _ => .done

/-- Adding the edge and removing it again in the handler: the inner removal takes the old inverse edge, and the outer one removes it a
second time. -/
theorem C92_removed_twice : hexec demoUndecided 6 (.removeEdge "a" "b") ((run demoPair init).getD init) matches
    .ub "remove_edge: edge removed twice" := by decide +kernel

/-- demo: creates "b" together with "a" -/
def demoEager : Handler DemoFrame Int := fun ev k _ =>
  match ev, k with
  | .frameAdded "a", 0 => .call (.addFrame "b") true
  | _, _ => .done

/-- The frame that the handler of the first announcement creates is announced a second time by `add_edge`; there is one such frame. -/
theorem C92_announced_twice : (hrun demoEager 5 [.addEdge "a" "b" 3] init).map (fun s => (s.trace.map Prod.fst, s.g.verts.length)) =
    some ([.frameAdded "a", .frameAdded "b", .frameAdded "b", .edgeAdded "a" "b" 0], 2) := by decide +kernel

/-- demo for `C92_dangling` -/
example : hexec (F := DemoFrame) (E := Int) (fun ev k _ => match ev, k with
      | .frameAdded "c", 0 => .call (.removeFrame "c") true | _, _ => .done) 4
    (.addEdge "c" "b" 1) ((run demoPair init).getD init) matches .ub "add_edge: dangling descriptor" := by decide +kernel

/-- demo: throws when "b" is announced; "a" gets the neighbour "b" -/
def demoNestedThrow : Handler DemoFrame Int := fun ev k _ =>
  match ev, k with
  | .frameAdded "a", 0 => .call (.addEdge "a" "b" 7) false
  | .frameAdded "b", 0 => .fail
  | _, _ => .done

/-- the exception leaves the handler of "a" and the call from outside; both frames stay, without an edge -/
example : (match hexec demoNestedThrow 5 (.addFrame "a") init with
    | .throw x s => some (x, s.g.verts.map (fun r => FrameProp.getId r.prop), s.g.edges.length, s.trace.map Prod.fst)
    | _ => none) = some (.runtimeError "thrown by the handler", ["a", "b"], 0, [.frameAdded "a", .frameAdded "b"]) := by decide +kernel

/-- the same inside `add_edge("c", "b")` -/
example : (match hexec demoNestedThrow 5 (.addEdge "c" "b" 1) init with
    | .throw x s => some (x, s.g.verts.map (fun r => FrameProp.getId r.prop), s.g.edges.length, s.trace.map Prod.fst)
    | _ => none) = some (.runtimeError "thrown by the handler", ["c", "b"], 0, [.frameAdded "c", .frameAdded "b"]) := by decide +kernel

/-- Whatever the handlers do while the removal of an edge is announced (also subscribe and unsubscribe views, or leave view objects in
any state): when `remove_edge` returns, no subscribed view connects the two frames any more. -/
theorem C92_views_updated (hd : Handler F E) (n : Nat) (o t : FrameId) (s s' : GS F E) (vo vt : VId)
    (ho : s.g.vertexOf o = some vo) (ht : s.g.vertexOf t = some vt) (h : hexec hd n (.removeEdge o t) s = .ok () s') :
    ∀ p ∈ s'.subs, ¬ ((s'.views p).vertexExists vo ∧ (s'.views p).vertexExists vt ∧ (s'.views p).TreeEdge vo vt) := by
  intro p hp
  apply edgeExists_false_iff
  cases n with
  | zero => cases h
  | succ n =>
    simp only [hexec, execH, removeEdgeH, ho, ht] at h
    unfold removeEdgeBothH at h
    split at h
    · split at h
      · cases h
      · split at h
        · split at h
          · cases h
          · split at h
            · rename_i hr
              cases h
              exact (removeEdgeFromTreeViews_gone _ _ _ hr).1 p hp
            · cases h
            · cases h
        · cases h
        · cases h
    · cases h

/-- demo: asks for a view when an edge is removed -/
def demoLate : Handler DemoFrame Int := fun ev k _ =>
  match ev, k with
  | .edgeRemoved _ _, 0 => .call (.getTree "b" true 1) true
  | _, _ => .done

/-- the view that the handler asks for contains "a" at first, since the edge from "b" to "a" is still there; `remove_edge` then removes it -/
example : (hrun demoLate 5 (demoPair ++ [.removeEdge "a" "b"]) init).map
    (fun s => (s.subs, (s.views 1).root, (s.views 1).vertexExists 0, s.g.edges.length)) = some ([1], some 1, false, 0) := by decide +kernel

/-- demo: a handler that only listens -/
def demoListener : Handler DemoFrame Int := fun _ _ _ => .done

/-- a listener sees the ordinary calls: the inverse edge is written, the view follows, `disconnectFrame` removes all connections -/
example : (hrun demoListener 3 [.addEdge "a" "b" 3, .getTree "a" true 0, .addEdge "a" "c" 4, .addEdge "b" "c" 5, .setEdge "a" "b" 6] init).map
      (fun s => (s.g.edges.map (fun e => (e.src, e.tgt, e.prop)), (s.views 0).vertexExists 2, (s.views 0).crossEdges.length)) =
      some ([(0, 1, 6), (1, 0, -6), (0, 2, 4), (2, 0, -4), (1, 2, 5), (2, 1, -5)], true, 1) ∧
    (hrun demoListener 3 [.addEdge "a" "b" 3, .addEdge "a" "c" 4, .addEdge "b" "c" 5, .disconnectFrame "a"] init).map
      (fun s => s.g.edges.map (fun e => (e.src, e.tgt, e.prop))) = some [(1, 2, 5), (2, 1, -5)] := by
  refine ⟨?_, ?_⟩ <;> decide +kernel

end Verif
