import Verif.Lemmas.Lifetime
import Verif.Spec.Demo
set_option linter.unusedSectionVars false
/-! # C103: graphs and tree views may be destroyed in any order

The full property: a program that uses objects only while they exist, and calls graphs only in a way that is defined, has no undefined
behaviour, whatever the order in which graphs and views are destroyed. -/

namespace Verif
open GS TreeView
variable {F E : Type} [FrameProp F] [EdgeProp E]

/-- The full statement. -/
def C103_statement : Prop :=
  ∀ os : List (LOp DemoFrame Int), ProperFrom [] LW.init os → (LW.run os LW.init).isSome

section
variable {os : List (LOp F E)} {s : LW F E} {h : LHist F E} (hr : LW.run os LW.init = some (s, h))
include hr

/-- In every program the pointers of the views are those of the history, and an existing graph points to exactly the views that are
subscribed to it, once to each, and all of them exist. -/
theorem C103_pointers (p : Nat) :
    s.pub p = owner h p ∧ ∀ k, GraphMade h k → ¬ GraphGone h k →
      (s.graphs k).subs.count p = (if owner h p = some k then 1 else 0) ∧ (owner h p = some k → ViewMade h p ∧ ¬ ViewGone h p) := by
  have i : LInv s h := by simpa using run_linv init_linv hr
  refine ⟨i.pub p, fun k h1 h2 => ?_⟩
  obtain ⟨a, b⟩ := i.subs k ((i.graphAlive k).2 ⟨h1, h2⟩)
  have hb := b p
  rw [i.pub] at hb
  refine ⟨?_, fun hx => (i.viewAlive p).1 (i.view p k ((i.pub p).trans hx)).1⟩
  split
  · rename_i hx
    have h3 := List.nodup_iff_count_le_one.1 a p
    have h4 := List.count_pos_iff.2 (hb.2 hx)
    omega
  · rename_i hx
    exact List.count_eq_zero.2 (fun y => hx (hb.1 y))

/-- Exactly when a proper operation is undefined: it destroys, unsubscribes or moves a view whose graph was destroyed while the view was
subscribed to it. -/
theorem C103_exact_partial {o : LOp F E} (ho : Proper h s o) :
    (∃ r, s.step o = .ub r) ↔ ∃ p k, o.ends p ∧ owner h p = some k ∧ GraphGone h k :=
  step_ub_iff (by simpa using run_linv init_linv hr) ho

/-- If the graph is destroyed first, every way to end the subscription of the view is undefined behaviour, in every program. -/
theorem C103_graph_first_fails {p k : Nat} (hp : owner h p = some k) (hk : ¬ GraphGone h k) (q : Nat) :
    LW.run [.destroyGraph k, .destroyView p] s = none ∧ LW.run [.destroyGraph k, .unsubscribe p] s = none ∧
    LW.run [.destroyGraph k, .moveView p q] s = none := by
  have i : LInv s h := by simpa using run_linv init_linv hr
  have hv := i.view p k ((i.pub p).trans hp)
  have hka : s.graphLife k = .alive := by
    rw [Life.eq_alive]
    exact ⟨hv.2, fun x => hk ((i.graphGone k).1 x)⟩
  have hpub : s.pub p = some k := (i.pub p).trans hp
  refine ⟨?_, ?_, ?_⟩
  · simp [LW.run, LW.step, hka, hv.1, LW.leave, hpub]
  · simp [LW.run, LW.step, hka, hv.1, LW.leave, hpub]
  · by_cases hq : s.viewLife q = .unborn
    · simp [LW.run, LW.step, hka, hv.1, hq, LW.move, hpub]
    · simp [LW.run, LW.step, hka, hv.1, hq]

/-- A view whose graph was destroyed cannot be used for another graph either: subscribing it violates an assert. -/
theorem C103_reuse_fails {p k j : Nat} {f : FrameId} {u : VId} (hp : owner h p = some k) (hj : GraphMade h j ∧ ¬ GraphGone h j)
    (hf : getVertex f (s.load j) = .ok u (s.load j)) : ∃ r, s.step (.call j (.getTree f true p)) = .ub r := by
  have i : LInv s h := by simpa using run_linv init_linv hr
  have hpub : s.pub p = some k := (i.pub p).trans hp
  have hv := (i.view p k hpub).1
  have hja := (i.graphAlive j).2 hj
  have hx : ∃ r, exec (.getTree f true p) (s.load j) = .ub r := by
    have hvo : (s.load j).g.vertexOf f = some u := by
      unfold getVertex at hf
      split at hf
      · cases hf
      · rename_i v hv'
        cases hf
        exact hv'
    simp only [exec, getTree, hvo]
    cases hg : getTreeInto (s.load j).g u ((s.load j).views p) with
    | ub r => exact ⟨r, rfl⟩
    | throw x w =>
      exfalso
      unfold getTreeInto at hg
      split at hg <;> cases hg
    | ok a w =>
      have hw : w.publisher = true := by
        rw [getTreeInto_publisher (w' := w) (by rw [hg]; rfl)]
        simp [LW.load, hpub]
      simp [subscribeTreeView, setView, hw]
  obtain ⟨r, hx⟩ := hx
  refine ⟨r, ?_⟩
  simp only [LW.step]
  rw [if_neg (by simp [hja]), if_neg (by simp [LW.argView, hv]), if_neg (by simp [LW.usesViews]), hx]

/-- Views may always be destroyed before their graph: the graph forgets them and nothing else changes. -/
theorem C103_view_first_partial {p : Nat} (hv : ViewMade h p ∧ ¬ ViewGone h p) (hg : ∀ k, owner h p = some k → ¬ GraphGone h k) :
    ∃ t, s.step (.destroyView p) = .ok () t ∧ (∀ k, (t.graphs k).g = (s.graphs k).g ∧ (t.graphs k).trace = (s.graphs k).trace) ∧
      (∀ k, GraphMade h k → ¬ GraphGone h k → (t.graphs k).subs = (s.graphs k).subs.filter (· ≠ p)) ∧ t.views = s.views := by
  have i : LInv s h := by simpa using run_linv init_linv hr
  have h1 := (i.viewAlive p).2 hv
  have key : ∃ t, s.leave p = .ok () t ∧ (∀ k, (t.graphs k).g = (s.graphs k).g ∧ (t.graphs k).trace = (s.graphs k).trace) ∧
      t.views = s.views := by
    unfold LW.leave
    cases hx : s.pub p with
    | none => exact ⟨s, rfl, fun _ => ⟨rfl, rfl⟩, rfl⟩
    | some j =>
      have hj : s.graphLife j = .alive := by
        rw [Life.eq_alive]
        exact ⟨(i.view p j hx).2, fun y => hg j ((i.pub p).symm.trans hx) ((i.graphGone j).1 y)⟩
      simp only [hj, if_true]
      refine ⟨_, rfl, fun k => ?_, rfl⟩
      by_cases hk : k = j <;> simp [LW.setPub, LW.dropSub, hk]
  obtain ⟨t, ht, h2, h3⟩ := key
  refine ⟨t.setViewLife p .dead, by simp only [LW.step, h1, if_true, ht], h2, ?_, h3⟩
  intro k hk hkg
  show (t.graphs k).subs = _
  rw [(leave_spec ht).2.2.2]
  split
  · rfl
  · rename_i hne
    rw [List.filter_eq_self.2]
    intro q hq
    have : s.pub q = some k := ((i.subs k ((i.graphAlive k).2 ⟨hk, hkg⟩)).2 q).1 hq
    have : q ≠ p := by rintro rfl; exact hne this
    simpa using this
end

/-- Programs that destroy no graph while a view is subscribed to it have no undefined behaviour. -/
theorem C103_order_partial {os : List (LOp F E)} (hc : CarefulFrom [] LW.init os) : (LW.run os LW.init).isSome := by
  -- no view belongs to a destroyed graph
  have key : ∀ (os : List (LOp F E)) (s : LW F E) (h : LHist F E), LInv s h → (∀ p k, owner h p = some k → ¬ GraphGone h k) →
      CarefulFrom h s os → (LW.run os s).isSome := by
    intro os
    induction os with
    | nil => intros; rfl
    | cons o os ih =>
      intro s h i hg hc
      obtain ⟨hp, hd, hc⟩ := hc
      have hnext : ∀ b, ∀ p k, owner (h ++ [(o, b)]) p = some k → ¬ GraphGone (h ++ [(o, b)]) k := by
        intro b p k ho hgone
        rw [GraphGone, mem_snoc] at hgone
        rw [owner_snoc] at ho
        cases o with
        | destroyGraph j =>
          have ho' : owner h p = some k := ho
          rcases hgone with hgone | hgone
          · exact hg p k ho' hgone
          · cases hgone
            exact hd k rfl p ho'
        | call j c =>
          have hgone : GraphGone h k := by
            rcases hgone with hgone | hgone
            · exact hgone
            · cases hgone
          by_cases hold : owner h p = some k
          · exact hg p k hold hgone
          · have : j = k := by
              cases c with
              | getTree f x q =>
                cases x with
                | false => exact absurd ho hold
                | true =>
                  cases b with
                  | false => exact absurd ho hold
                  | true =>
                    simp only [ownerStep] at ho
                    split at ho
                    · simpa using ho
                    · exact absurd ho hold
              | _ => exact absurd ho hold
            subst this
            exact hp.2.1 hgone
        | moveView q q' =>
          have hgone : GraphGone h k := by
            rcases hgone with hgone | hgone
            · exact hgone
            · cases hgone
          simp only [ownerStep] at ho
          split at ho
          · exact hg q k ho hgone
          · split at ho
            · cases ho
            · exact hg p k ho hgone
        | unsubscribe q =>
          have hgone : GraphGone h k := by
            rcases hgone with hgone | hgone
            · exact hgone
            · cases hgone
          simp only [ownerStep] at ho
          split at ho
          · cases ho
          · exact hg p k ho hgone
        | destroyView q =>
          have hgone : GraphGone h k := by
            rcases hgone with hgone | hgone
            · exact hgone
            · cases hgone
          simp only [ownerStep] at ho
          split at ho
          · cases ho
          · exact hg p k ho hgone
        | newGraph j =>
          rcases hgone with hgone | hgone
          · exact hg p k ho hgone
          · cases hgone
        | newView q =>
          rcases hgone with hgone | hgone
          · exact hg p k ho hgone
          · cases hgone
      unfold LW.run
      cases hs : s.step o with
      | ub r =>
        obtain ⟨p, k, -, h1, h2⟩ := (step_ub_iff i hp).1 ⟨r, hs⟩
        exact absurd h2 (hg p k h1)
      | ok u t =>
        rw [hs] at hc
        have := ih t (h ++ [(o, true)]) (step_linv i hs) (hnext true) hc
        simpa using this
      | throw x t =>
        rw [hs] at hc
        have := ih t (h ++ [(o, false)]) (step_linv_throw i hs) (hnext false) hc
        simpa using this
  exact key os LW.init [] init_linv (fun p k h => by cases h) hc

/-- Exactly when a program of proper operations is undefined: at some point it ends the subscription of a view to a destroyed graph. -/
theorem C103_program_exact_partial {os : List (LOp F E)} (hp : ProperFrom [] LW.init os) :
    LW.run os LW.init = none ↔ ∃ os1 o os2 s h p k, os = os1 ++ o :: os2 ∧ LW.run os1 LW.init = some (s, h) ∧
      o.ends p ∧ owner h p = some k ∧ GraphGone h k := by
  have key : ∀ (os : List (LOp F E)) (s : LW F E) (h : LHist F E), LInv s h → ProperFrom h s os →
      (LW.run os s = none ↔ ∃ os1 o os2 t h' p k, os = os1 ++ o :: os2 ∧ LW.run os1 s = some (t, h') ∧
        o.ends p ∧ owner (h ++ h') p = some k ∧ GraphGone (h ++ h') k) := by
    intro os
    induction os with
    | nil => intro s h i hp; simp [LW.run]
    | cons o os ih =>
      intro s h i hp
      obtain ⟨hp, hc⟩ := hp
      have hone := step_ub_iff i hp
      -- the first operation is the bad one, or a later one
      have split1 : (∃ os1 o' os2 t h' p k, o :: os = os1 ++ o' :: os2 ∧ LW.run os1 s = some (t, h') ∧
          o'.ends p ∧ owner (h ++ h') p = some k ∧ GraphGone (h ++ h') k) ↔
          (∃ p k, o.ends p ∧ owner h p = some k ∧ GraphGone h k) ∨
          ∃ os1 o' os2 t h' p k, os = os1 ++ o' :: os2 ∧ LW.run (o :: os1) s = some (t, h') ∧
            o'.ends p ∧ owner (h ++ h') p = some k ∧ GraphGone (h ++ h') k := by
        constructor
        · rintro ⟨os1, o', os2, t, h', p, k, he, hr, h1, h2, h3⟩
          cases os1 with
          | nil =>
            simp only [LW.run, Option.some.injEq, Prod.mk.injEq] at hr
            obtain ⟨rfl, rfl⟩ := hr
            simp only [List.nil_append, List.cons.injEq] at he
            obtain ⟨rfl, rfl⟩ := he
            exact .inl ⟨p, k, h1, by simpa using h2, by simpa using h3⟩
          | cons x os1 =>
            simp only [List.cons_append, List.cons.injEq] at he
            obtain ⟨rfl, rfl⟩ := he
            exact .inr ⟨os1, o', os2, t, h', p, k, rfl, hr, h1, h2, h3⟩
        · rintro (⟨p, k, h1, h2, h3⟩ | ⟨os1, o', os2, t, h', p, k, rfl, hr, h1, h2, h3⟩)
          · exact ⟨[], o, os, s, [], p, k, rfl, rfl, h1, by simpa using h2, by simpa using h3⟩
          · exact ⟨o :: os1, o', os2, t, h', p, k, rfl, hr, h1, h2, h3⟩
      rw [split1, ← hone]
      cases hs : s.step o with
      | ub r => simp [LW.run, hs]
      | ok u t =>
        rw [hs] at hc
        have := ih t (h ++ [(o, true)]) (step_linv i hs) hc
        simp only [LW.run, hs, Option.map_eq_none_iff, reduceCtorEq, exists_false, false_or, this]
        constructor
        · rintro ⟨os1, o', os2, t', h', p, k, he, hr, h1, h2, h3⟩
          exact ⟨os1, o', os2, t', (o, true) :: h', p, k, he, by rw [hr]; rfl, h1, by simpa using h2, by simpa using h3⟩
        · rintro ⟨os1, o', os2, t', h', p, k, he, hr, h1, h2, h3⟩
          cases hx : LW.run os1 t with
          | none => rw [hx] at hr; cases hr
          | some r =>
            rw [hx] at hr
            simp only [Option.map_some, Option.some.injEq, Prod.mk.injEq] at hr
            obtain ⟨rfl, rfl⟩ := hr
            exact ⟨os1, o', os2, r.1, r.2, p, k, he, hx, h1, by simpa using h2, by simpa using h3⟩
      | throw x t =>
        rw [hs] at hc
        have := ih t (h ++ [(o, false)]) (step_linv_throw i hs) hc
        simp only [LW.run, hs, Option.map_eq_none_iff, reduceCtorEq, exists_false, false_or, this]
        constructor
        · rintro ⟨os1, o', os2, t', h', p, k, he, hr, h1, h2, h3⟩
          exact ⟨os1, o', os2, t', (o, false) :: h', p, k, he, by rw [hr]; rfl, h1, by simpa using h2, by simpa using h3⟩
        · rintro ⟨os1, o', os2, t', h', p, k, he, hr, h1, h2, h3⟩
          cases hx : LW.run os1 t with
          | none => rw [hx] at hr; cases hr
          | some r =>
            rw [hx] at hr
            simp only [Option.map_some, Option.some.injEq, Prod.mk.injEq] at hr
            obtain ⟨rfl, rfl⟩ := hr
            exact ⟨os1, o', os2, r.1, r.2, p, k, he, hx, h1, by simpa using h2, by simpa using h3⟩
  have := key os LW.init [] init_linv hp
  simpa using this

/-- `TreeView view; EnvireGraph graph; … graph.getTree("a", true, &view);` at the end of a block: local objects are destroyed in the
reverse order, the graph first. -/
def scopeProgram : List (LOp DemoFrame Int) :=
  [.newView 0, .newGraph 0, .call 0 (.addFrame "a"), .call 0 (.getTree "a" true 0), .destroyGraph 0, .destroyView 0]

/-- the same with the view declared after the graph -/
def scopeProgramOk : List (LOp DemoFrame Int) :=
  [.newGraph 0, .newView 0, .call 0 (.addFrame "a"), .call 0 (.getTree "a" true 0), .destroyView 0, .destroyGraph 0]

/-- The full statement is false. -/
theorem C103_statement_fails : ¬ C103_statement := by
  intro h
  have hp : ProperFrom [] LW.init scopeProgram := by
    refine ⟨by simp [Proper, ViewMade], by simp [Proper, GraphMade], ?_, ?_, ?_, ?_, trivial⟩
    · refine ⟨by simp [GraphMade], by simp [GraphGone], by simp, by simp, fun r => by simp [exec, addFrame, LW.load, LW.init, G.vertexOf, G.empty, GS.discard, LW.setViewLife]⟩
    · refine ⟨by simp [GraphMade], by simp [GraphGone], by simp, ?_, ?_⟩
      · intro f b p hh
        cases hh
        exact ⟨by simp [ViewMade], by simp [ViewGone]⟩
      · intro r hh
        have hb := congrArg (fun x : Res (GS DemoFrame Int) Unit => match x with | .ub _ => true | _ => false) hh
        cases (show false = true from hb)
    · exact ⟨by simp [GraphMade], by simp [GraphGone]⟩
    · exact ⟨by simp [ViewMade], by simp [ViewGone]⟩
  have hn : LW.run scopeProgram LW.init = none := by rfl
  have := h scopeProgram hp
  rw [hn] at this
  cases this

example : (LW.run scopeProgramOk LW.init).isSome = true := by rfl
example : (LW.run scopeProgram LW.init).isSome = false := by rfl

/-- two graphs, a view that is subscribed to the second one and moved -/
def moveProgram : List (LOp DemoFrame Int) :=
  [.newGraph 0, .newGraph 1, .newView 0, .newView 1, .call 0 (.addFrame "a"), .call 1 (.addEdge "b" "c" 7), .call 0 (.getTree "a" true 0),
    .call 1 (.getTree "b" true 1), .call 1 (.getTree "nowhere" true 1), .moveView 1 2]

-- C103_pointers: after the move graph 1 points to view 2 only; the failing call has subscribed nothing
example : (LW.run moveProgram LW.init).map (fun r => ((r.1.graphs 0).subs, (r.1.graphs 1).subs, [r.1.pub 0, r.1.pub 1, r.1.pub 2],
    [owner r.2 0, owner r.2 1, owner r.2 2])) = some ([0], [2], [some 0, none, some 1], [some 0, none, some 1]) := by rfl
-- C103_exact_partial, C103_program_exact_partial: graph 1 is destroyed: view 0 and the moved-from view 1 may be destroyed, view 2 not
example : [0, 1, 2].map (fun p => (LW.run (moveProgram ++ [.destroyGraph 1, .destroyView p]) LW.init).isSome) = [true, true, false] := by rfl
-- ... after it was unsubscribed it may
example : (LW.run (moveProgram ++ [.unsubscribe 2, .destroyGraph 1, .destroyView 2]) LW.init).isSome = true := by rfl
-- C103_graph_first_fails
example : (LW.run (moveProgram ++ [.destroyGraph 1, .unsubscribe 2]) LW.init).isSome = false ∧
    (LW.run (moveProgram ++ [.destroyGraph 1, .moveView 2 3]) LW.init).isSome = false := ⟨by rfl, by rfl⟩
-- C103_reuse_fails: view 2 cannot be subscribed to graph 0 any more, while the moved-from view 1 can
example : [1, 2].map (fun p => (LW.run (moveProgram ++ [.destroyGraph 1, .call 0 (.getTree "a" true p)]) LW.init).isSome) =
    [true, false] := by rfl
-- C103_view_first_partial: graph 1 goes on without the view
example : (LW.run (moveProgram ++ [.destroyView 2, .call 1 (.addEdge "c" "d" 1), .destroyGraph 1]) LW.init).map
    (fun r => ((r.1.graphs 1).subs, (r.1.graphs 1).g.verts.length)) = some ([], 3) := by rfl

end Verif
