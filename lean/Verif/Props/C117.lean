import Verif.Props.C05
import Verif.Props.C07
import Verif.Lemmas.ItemChain
import Verif.Spec.Between
import Verif.Spec.Demo
/-! # C117: every call causes exactly the events that its documentation names

Full statement: a call that returns publishes exactly the events that its documentation names (Graph.hpp:87-260), in the order in which the
changes are made; a call that throws publishes nothing.

It fails for `add_edge` from a new frame to itself, which announces the frame twice, and for `remove_edge` and `disconnectFrame` that throw while a
tree view is subscribed. -/

set_option linter.unusedSectionVars false

namespace Verif
open GS
variable {F E : Type} [FrameProp F] [EdgeProp E]

/-- the events `l` are those that the documentation names for a call that led from `s` to `s'` -/
def C117_documented (s s' : GS F E) (l : List Event) : Cmd F E → Prop
  | .addFrame f | .emplaceFrame f _ => l = [.frameAdded f]
  | .removeFrame f => l = [.frameRemoved f]
  | .disconnectFrame f => ∃ nbrs : List FrameId, nbrs.Nodup ∧ (∀ n, n ∈ nbrs ↔ containsEdge f n s = .ok true s) ∧
      l = nbrs.map (fun n => .edgeRemoved f n)
  | .addEdge a b _ => ∃ e, getEdge a b s' = .ok e s' ∧
      l = (if containsFrame a s then [] else [.frameAdded a]) ++ (if containsFrame b s || a == b then [] else [.frameAdded b]) ++
        [.edgeAdded a b e.id]
  | .removeEdge a b => l = [.edgeRemoved a b]
  | .setEdge a b _ => ∃ e1 e2, getEdge a b s' = .ok e1 s' ∧ getEdge b a s' = .ok e2 s' ∧ l = [.edgeModified a b e1.id e2.id]
  | .getTree .. | .unsubscribeView _ => l = []

/-- Full statement of the property -/
def C117_statement (F E : Type) [FrameProp F] [EdgeProp E] : Prop :=
  ∀ (cs : List (Cmd F E)) (s s' : GS F E) (c : Cmd F E), run cs init = some s →
    (exec c s = .ok () s' → C117_documented s s' (eventsBetween s s') c) ∧ ∀ x, exec c s = .throw x s' → eventsBetween s s' = []

private theorem addEdge_events {a b : FrameId} {p : E} {s s' : GS F E} (hab : a = b → containsFrame a s = true) (hw : WF s.g) (h : addEdge a b p s = .ok () s') :
    C117_documented s s' (eventsBetween s s') (.addEdge a b p) := by
  unfold addEdge at h
  simp only at h
  obtain ⟨a1, b1, c1⟩ := orCreate_spec (s := s) (s0 := s) (f := a) (fun f v h => h)
  obtain ⟨a2, b2, c2⟩ := orCreate_spec (s := (orCreate a (s.g.vertexOf a) s).1) (s0 := s) (f := b) c1
  have hw2 := a2.wf (a1.wf hw)
  have b1 := c2 _ _ b1
  have t1 : (orCreate a (s.g.vertexOf a) s).1.trace.map Prod.fst = s.trace.map Prod.fst ++ (if containsFrame a s then [] else [.frameAdded a]) := by
    unfold orCreate containsFrame
    cases s.g.vertexOf a <;> simp [addVertexN, notify]
  have t2 : (orCreate b (s.g.vertexOf b) (orCreate a (s.g.vertexOf a) s).1).1.trace.map Prod.fst =
      (orCreate a (s.g.vertexOf a) s).1.trace.map Prod.fst ++ (if containsFrame b s then [] else [.frameAdded b]) := by
    rw [orCreate.eq_def b]
    unfold containsFrame
    cases s.g.vertexOf b <;> simp [addVertexN, notify]
  generalize orCreate b (s.g.vertexOf b) (orCreate a (s.g.vertexOf a) s).1 = r2 at *
  generalize (orCreate a (s.g.vertexOf a) s).2 = u at *
  obtain ⟨s2, v⟩ := r2
  simp only at *
  obtain ⟨ru, hu, hua⟩ := hw2.live_of_vertexOf b1
  obtain ⟨rv, hv, hvb⟩ := hw2.live_of_vertexOf b2
  unfold addEdgeD at h
  simp only [hu, hv] at h
  split at h
  · cases h
  · rename_i hn
    split at h
    · injection h with _ h
      subst h
      refine ⟨⟨s2.g.nextE, u, v, p⟩, ?_, ?_⟩
      · simp only [getEdge, notify]
        have k1 : ((s2.g.addEdge u v p).1.addEdge v u (EdgeProp.inverse p)).1.vertexOf a = some u := b1
        have k2 : ((s2.g.addEdge u v p).1.addEdge v u (EdgeProp.inverse p)).1.vertexOf b = some v := b2
        rw [k1, k2]
        simp [G.edge_addEdge, hn]
      · have : (containsFrame b s || a == b) = containsFrame b s := by
          by_cases hh : a = b
          · rw [← hh, hab hh, Bool.true_or]
          · simp [hh]
        rw [this]
        refine eventsBetween_of_map ?_
        simp only [notify, List.map_append, List.map_cons, List.map_nil, hua, hvb, t2, t1, G.addEdge, List.append_assoc]
    · cases h
    · cases h

/-- Missing compared to C117: self edges and exceptions of tree views, see `C117_statement_fails` and the next theorems.  After every history with
any tree views: every call that returns has published exactly the documented events, except for `add_edge` from a new frame to
itself. -/
theorem C117_events_partial (cs : List (Cmd F E)) (s s' : GS F E) (h : run cs init = some s)
    (c : Cmd F E) (hc : ∀ a p, c = .addEdge a a p → containsFrame a s = true) (hx : exec c s = .ok () s') : C117_documented s s' (eventsBetween s s') c := by
  have hw := run_wf WF.empty h
  cases c with
  | addFrame f =>
    simp only [exec, addFrame] at hx
    split at hx
    · simp only [GS.discard] at hx
      injection hx with _ hx
      subst hx
      exact eventsBetween_of_map (by simp [notify, addVertexN])
    · simp [GS.discard] at hx
  | emplaceFrame f p =>
    simp only [exec, emplaceFrame] at hx
    split at hx
    · simp only [GS.discard] at hx
      injection hx with _ hx
      subst hx
      exact eventsBetween_of_map (by simp [notify, addVertexN])
    · simp [GS.discard] at hx
  | removeFrame f =>
    simp only [exec, removeFrame] at hx
    split at hx
    · cases hx
    · split at hx
      · cases hx
      · injection hx with _ hx
        subst hx
        exact eventsBetween_of_map (by simp [notify])
  | disconnectFrame f =>
    have hf : containsFrame f s = true := by
      simp only [exec, disconnectFrame] at hx
      unfold containsFrame
      cases hv : s.g.vertexOf f with
      | none => rw [hv] at hx; cases hx
      | some v => rfl
    obtain ⟨nbrs, ⟨k1, k2, -, -, -, k3⟩, k4⟩ := (C07_with_views_partial cs s h f hf).1 s' hx
    exact ⟨nbrs, k1, fun n => ⟨k2 n, k4 n⟩, eventsBetween_of_map k3⟩
  | addEdge a b p => exact addEdge_events (fun hab => hc a p (by rw [hab])) hw hx
  | removeEdge a b =>
    simp only [exec, removeEdge] at hx
    split at hx
    · cases hx
    · split at hx
      · cases hx
      · unfold removeEdgeBoth at hx
        split at hx
        · split at hx
          · cases hx
          · simp only at hx
            split at hx
            · cases hx
            · split at hx
              · injection hx with _ hx
                subst hx
                exact eventsBetween_of_map (by simp [notify])
              · cases hx
              · cases hx
        · cases hx
  | setEdge a b p =>
    simp only [exec, setEdgeProperty] at hx
    split at hx
    · cases hx
    · rename_i vo ha
      split at hx
      · cases hx
      · rename_i vt hb
        split at hx
        · cases hx
        · rename_i e1 h1
          split at hx
          · cases hx
          · rename_i e2 h2
            injection hx with _ hx
            subst hx
            have k1 : ((s.g.setProp e1.id p).setProp e2.id (EdgeProp.inverse p)).vertexOf a = some vo := ha
            have k2 : ((s.g.setProp e1.id p).setProp e2.id (EdgeProp.inverse p)).vertexOf b = some vt := hb
            have r1 : ∃ r, ((s.g.setProp e1.id p).setProp e2.id (EdgeProp.inverse p)).edge vo vt = some r ∧ r.id = e1.id := by
              rw [G.edge_setProp, G.edge_setProp, h1]
              refine ⟨_, rfl, ?_⟩
              dsimp only
              split <;> split <;> rfl
            have r2 : ∃ r, ((s.g.setProp e1.id p).setProp e2.id (EdgeProp.inverse p)).edge vt vo = some r ∧ r.id = e2.id := by
              rw [G.edge_setProp, h2]
              refine ⟨_, rfl, ?_⟩
              dsimp only
              split <;> rfl
            obtain ⟨r1, g1, i1⟩ := r1
            obtain ⟨r2, g2, i2⟩ := r2
            refine ⟨r1, r2, ?_, ?_, ?_⟩
            · simp only [getEdge, notify, k1, k2, g1]
            · simp only [getEdge, notify, k1, k2, g2]
            · rw [i1, i2]; exact eventsBetween_of_map (by simp [notify])
  | getTree f k p =>
    simp only [exec, getTree] at hx
    split at hx
    · cases hx
    · split at hx
      · cases hx
      · cases hx
      · split at hx
        · unfold subscribeTreeView at hx
          split at hx
          · cases hx
          · injection hx with _ hx
            subst hx
            exact eventsBetween_of (l := []) (by simp)
        · injection hx with _ hx
          subst hx
          exact eventsBetween_of (l := []) (by simp)
  | unsubscribeView p =>
    simp only [exec] at hx
    injection hx with _ hx
    subst hx
    refine eventsBetween_of (l := []) ?_
    unfold unsubscribeView
    split <;> simp

/-- calls of every kind that return, with a view -/
example : ∃ s s1 s2 s3 s4 : GS DemoFrame Int, run [.addEdge "a" "b" 1, .getTree "a" true 0] init = some s ∧
    exec (.addEdge "c" "b" 2) s = .ok () s1 ∧ eventsBetween s s1 = [.frameAdded "c", .edgeAdded "c" "b" 2] ∧
    exec (.setEdge "b" "a" 3) s1 = .ok () s2 ∧ eventsBetween s1 s2 = [.edgeModified "b" "a" 1 0] ∧
    exec (.disconnectFrame "b") s2 = .ok () s3 ∧ eventsBetween s2 s3 = [.edgeRemoved "b" "a", .edgeRemoved "b" "c"] ∧
    exec (.addEdge "x" "y" 2) s3 = .ok () s4 ∧ eventsBetween s3 s4 = [.frameAdded "x", .frameAdded "y", .edgeAdded "x" "y" 4] :=
  ⟨_, _, _, _, _, rfl, rfl, rfl, rfl, rfl, rfl, rfl, rfl, rfl⟩

/-- a self edge at a contained frame is announced once; its neighbour `b` can then be disconnected -/
example : ∃ s s1 s2 : GS DemoFrame Int, run [.addEdge "a" "b" 1, .addEdge "b" "c" 1] init = some s ∧
    exec (.addEdge "a" "a" 3) s = .ok () s1 ∧ eventsBetween s s1 = [.edgeAdded "a" "a" 4] ∧
    exec (.disconnectFrame "b") s1 = .ok () s2 ∧ eventsBetween s1 s2 = [.edgeRemoved "b" "a", .edgeRemoved "b" "c"] :=
  ⟨_, _, _, rfl, rfl, rfl, rfl, rfl⟩

/-- the same beside self edges: the property of a self edge is set, `c` is connected -/
example : ∃ s s1 s2 : GS DemoFrame Int, run [.addEdge "a" "a" 1] init = some s ∧
    exec (.setEdge "a" "a" 3) s = .ok () s1 ∧ eventsBetween s s1 = [.edgeModified "a" "a" 0 0] ∧
    exec (.addEdge "c" "a" 2) s1 = .ok () s2 ∧ eventsBetween s1 s2 = [.frameAdded "c", .edgeAdded "c" "a" 2] :=
  ⟨_, _, _, rfl, rfl, rfl, rfl, rfl⟩

/-- Missing compared to C117: see `C117_statement_fails`.  A call that throws has published nothing, except for `remove_edge` and `disconnectFrame`
that throw a `runtime_error` while a tree view is subscribed: they have published the removals that were made. -/
theorem C117_throw_partial (cs : List (Cmd F E)) (s s' : GS F E) (h : run cs init = some s)
    (c : Cmd F E) (x : Exn) (hx : exec c s = .throw x s') :
    eventsBetween s s' = [] ∨ s.subs ≠ [] ∧ (∃ m, x = .runtimeError m) ∧
      ((∃ a b, c = .removeEdge a b ∧ eventsBetween s s' = [.edgeRemoved a b]) ∨
       ∃ f nbrs, c = .disconnectFrame f ∧ nbrs ≠ [] ∧ eventsBetween s s' = nbrs.map (fun n => .edgeRemoved f n)) := by
  have hw := run_wf WF.empty h
  have same : s' = s → eventsBetween s s' = [] := by rintro rfl; exact eventsBetween_self _
  cases c with
  | disconnectFrame f =>
    cases hf : containsFrame f s with
    | true =>
      obtain ⟨k1, k2, nbrs, k3, -, -, -, -, -, k4⟩ := (C07_with_views_partial cs s h f hf).2 x s' hx
      exact Or.inr ⟨k1, k2, Or.inr ⟨f, nbrs, rfl, k3, eventsBetween_of_map k4⟩⟩
    | false =>
      refine Or.inl (same ?_)
      have : s.g.vertexOf f = none := by simpa [containsFrame] using hf
      simp only [exec, disconnectFrame, this, Res.throw.injEq] at hx
      exact hx.2.symm
  | removeEdge a b =>
    simp only [exec, removeEdge] at hx
    split at hx
    · simp only [Res.throw.injEq] at hx
      exact Or.inl (same hx.2.symm)
    · split at hx
      · simp only [Res.throw.injEq] at hx
        exact Or.inl (same hx.2.symm)
      · unfold removeEdgeBoth at hx
        split at hx
        · split at hx
          · cases hx
          · simp only at hx
            split at hx
            · cases hx
            · split at hx
              · cases hx
              · rename_i hv
                injection hx with hx0 hx
                subst hx0
                subst hx
                refine Or.inr ⟨?_, removeEdgeFromTreeViews_throw hv, Or.inl ⟨a, b, rfl, eventsBetween_of_map (by simp [notify])⟩⟩
                intro hn
                simp only [notify, hn] at hv
                simp [removeEdgeFromTreeViews] at hv
              · cases hx
        · simp only [Res.throw.injEq] at hx
          exact Or.inl (same hx.2.symm)
  | addFrame f =>
    simp only [exec, addFrame] at hx
    split at hx
    · cases hx
    · simp only [GS.discard, Res.throw.injEq] at hx
      exact Or.inl (same hx.2.symm)
  | emplaceFrame f p =>
    simp only [exec, emplaceFrame] at hx
    split at hx
    · cases hx
    · simp only [GS.discard, Res.throw.injEq] at hx
      exact Or.inl (same hx.2.symm)
  | removeFrame f => exact Or.inl (same (removeFrame_throw hx))
  | addEdge a b p => exact Or.inl (same (addEdge_throw hw hx))
  | setEdge a b p => exact Or.inl (same (setEdgeProperty_throw hx))
  | getTree f k p =>
    simp only [exec, getTree] at hx
    split at hx
    · simp only [Res.throw.injEq] at hx
      exact Or.inl (same hx.2.symm)
    · simp only [getTreeInto] at hx
      split at hx
      · cases hx
      · rename_i heq
        split at heq <;> cases heq
      · split at hx
        · unfold subscribeTreeView at hx
          split at hx <;> cases hx
        · cases hx
  | unsubscribeView p => cases hx

/-- both exceptional cases, and a failing call without an event -/
example : ∃ s s1 s2 : GS DemoFrame Int, run [.addEdge "a" "b" 1, .addEdge "b" "c" 2, .addEdge "c" "a" 3, .getTree "a" true 0] init = some s ∧
    exec (.removeEdge "a" "b") s = .throw (.runtimeError "NOT IMPLEMENTED") s1 ∧ eventsBetween s s1 = [.edgeRemoved "a" "b"] ∧
    exec (.disconnectFrame "b") s = .throw (.runtimeError "NOT IMPLEMENTED") s2 ∧ eventsBetween s s2 = [.edgeRemoved "b" "a"] ∧
    exec (.addEdge "b" "a" 1) s = .throw (.edgeAlreadyExists "b" "a") s :=
  ⟨_, _, _, rfl, rfl, rfl, rfl, rfl, rfl⟩

/-- Negative, in every state: `add_edge` from a new frame to itself, if it returns, has announced the frame twice. -/
theorem C117_self_edge_twice (cs : List (Cmd F E)) (s s' : GS F E) (h : run cs init = some s) (a : FrameId) (p : E)
    (hn : containsFrame a s = false) (hx : exec (.addEdge a a p) s = .ok () s') :
    ∃ i, eventsBetween s s' = [.frameAdded a, .frameAdded a, .edgeAdded a a i] := by
  have hw := run_wf WF.empty h
  have hn : s.g.vertexOf a = none := by simpa [containsFrame] using hn
  simp only [exec, addEdge] at hx
  obtain ⟨a1, b1, c1⟩ := orCreate_spec (s := s) (s0 := s) (f := a) (fun f v h => h)
  obtain ⟨a2, b2, c2⟩ := orCreate_spec (s := (orCreate a (s.g.vertexOf a) s).1) (s0 := s) (f := a) c1
  have hw2 := a2.wf (a1.wf hw)
  have b1 := c2 _ _ b1
  have t1 : (orCreate a (s.g.vertexOf a) (orCreate a (s.g.vertexOf a) s).1).1.trace.map Prod.fst =
      s.trace.map Prod.fst ++ [.frameAdded a, .frameAdded a] := by
    rw [hn]
    simp [orCreate, addVertexN, notify]
  generalize orCreate a (s.g.vertexOf a) (orCreate a (s.g.vertexOf a) s).1 = r2 at *
  generalize (orCreate a (s.g.vertexOf a) s).2 = u at *
  obtain ⟨s2, v⟩ := r2
  simp only at *
  obtain ⟨ru, hu, hua⟩ := hw2.live_of_vertexOf b1
  obtain ⟨rv, hv, hvb⟩ := hw2.live_of_vertexOf b2
  unfold addEdgeD at hx
  simp only [hu, hv] at hx
  split at hx
  · cases hx
  · split at hx
    · injection hx with _ hx
      subst hx
      exact ⟨s2.g.nextE, eventsBetween_of_map (by simp [notify, t1, hua, hvb, G.addEdge])⟩
    · cases hx
    · cases hx

example : ∃ s s' : GS DemoFrame Int, run [.addFrame "b"] init = some s ∧ exec (.addEdge "a" "a" 1) s = .ok () s' ∧
    eventsBetween s s' = [.frameAdded "a", .frameAdded "a", .edgeAdded "a" "a" 0] :=
  ⟨_, _, rfl, rfl, rfl⟩

/-- The full statement is false. -/
theorem C117_statement_fails : ¬ C117_statement DemoFrame Int := by
  intro h
  obtain ⟨s, s', h1, h2, h3⟩ : ∃ s s' : GS DemoFrame Int, run [] init = some s ∧ exec (.addEdge "a" "a" 1) s = .ok () s' ∧
      eventsBetween s s' = [.frameAdded "a", .frameAdded "a", .edgeAdded "a" "a" 0] := ⟨_, _, rfl, rfl, rfl⟩
  obtain ⟨e, -, k⟩ := (h [] s s' _ h1).1 h2
  rw [h3] at k
  have := congrArg List.length k
  revert this
  split <;> simp

/-- The calls that add and remove one item, in every state: one event with the frame and the item if the call returns, none if it throws.
(`clearFrame`, `removeFrame` and `clear` are treated in C43, C44 and C45.) -/
theorem C117_items {E : Type} [EdgeProp E] (s s' : EG E) :
    (∀ f i, EG.addItemToFrame f i s = .ok () s' → eventsBetween s.gs s'.gs = [.itemAdded f i]) ∧
    (∀ i, EG.addItem i s = .ok () s' → eventsBetween s.gs s'.gs = [.itemAdded (s.heap i).frame i]) ∧
    (∀ i, EG.removeItem i s = .ok () s' → eventsBetween s.gs s'.gs = [.itemRemoved (s.heap i).frame i]) ∧
    (∀ f it l, EG.removeItemAt f it s = .ok l s' → ∃ i, (s.heap i).frame = f ∧ eventsBetween s.gs s'.gs = [.itemRemoved f i]) ∧
    (∀ x, ((∃ f i, EG.addItemToFrame f i s = .throw x s') ∨ (∃ i, EG.addItem i s = .throw x s') ∨ (∃ i, EG.removeItem i s = .throw x s') ∨
      ∃ f it, EG.removeItemAt f it s = .throw x s') → eventsBetween s.gs s'.gs = []) := by
  have add : ∀ f i, EG.addItemToFrame f i s = .ok () s' → eventsBetween s.gs s'.gs = [.itemAdded f i] := by
    intro f i h
    unfold EG.addItemToFrame at h
    split at h
    · cases h
    · injection h with _ h
      subst h
      exact eventsBetween_of_map (by simp [EG.notify, EG.setItemFrame, EG.modFrame, notify])
  have addT : ∀ f i x, EG.addItemToFrame f i s = .throw x s' → eventsBetween s.gs s'.gs = [] := by
    intro f i x h
    unfold EG.addItemToFrame at h
    split at h
    · injection h with _ h
      subst h
      exact eventsBetween_self _
    · cases h
  refine ⟨add, fun i h => add _ i h, fun i h => ?_, fun f it l h => ?_, ?_⟩
  · unfold EG.removeItem at h
    simp only at h
    split at h
    · cases h
    · split at h
      · cases h
      · split at h
        · cases h
        · split at h
          · injection h with _ h
            subst h
            refine eventsBetween_of_map ?_
            split <;> simp [EG.notify, EG.setItemFrame, EG.modFrame, notify]
          · cases h
  · unfold EG.removeItemAt at h
    split at h
    · cases h
    · split at h
      · cases h
      · rename_i i _
        split at h
        · cases h
        · rename_i hfr
          split at h
          · cases h
          · split at h
            · cases h
            · injection h with _ h
              subst h
              refine ⟨i, by simpa using hfr, eventsBetween_of_map ?_⟩
              split <;> simp [EG.notify, EG.setItemFrame, EG.modFrame, notify]
  · rintro x (⟨f, i, h⟩ | ⟨i, h⟩ | ⟨i, h⟩ | ⟨f, it, h⟩)
    · exact addT f i x h
    · exact addT _ i x h
    · unfold EG.removeItem at h
      simp only at h
      repeat' split at h
      all_goals first
        | (injection h with _ h; subst h; exact eventsBetween_self _)
        | cases h
    · unfold EG.removeItemAt at h
      repeat' split at h
      all_goals first
        | (injection h with _ h; subst h; exact eventsBetween_self _)
        | cases h

/-- one event for each of the calls, none for the failing one -/
example : ∃ s s1 s2 s3 : EG Int, EG.run [.graph (.addFrame "a"), .addItemToFrame "a" 1, .addItemToFrame "a" 2] (EG.init fun _ => ⟨0, ""⟩) = some s ∧
    EG.removeItemAt "a" ⟨"a", 0, 0⟩ s = .ok [2] s1 ∧ eventsBetween s.gs s1.gs = [.itemRemoved "a" 1] ∧
    EG.removeItem 2 s1 = .ok () s2 ∧ eventsBetween s1.gs s2.gs = [.itemRemoved "a" 2] ∧
    EG.addItemToFrame "a" 2 s2 = .ok () s3 ∧ eventsBetween s2.gs s3.gs = [.itemAdded "a" 2] ∧
    EG.addItemToFrame "z" 2 s2 = .throw (.unknownFrame "z") s2 :=
  ⟨_, _, _, _, rfl, rfl, rfl, rfl, rfl, rfl, rfl, rfl⟩

end Verif
