import Verif.Lemmas.Lifetime
import Verif.Spec.Demo
/-! # C103: views that were unsubscribed with `graph.unsubscribeTreeView(&view)` -/

namespace Verif
open GS TreeView
variable {F E : Type} [FrameProp F] [EdgeProp E]

/-- Unsubscribing with `graph.unsubscribeTreeView(&view)` is not enough: in every program, if the graph is destroyed after that, destroying,
unsubscribing or moving the view is undefined behaviour.  After `view.unsubscribe()` the view may outlive the graph. -/
theorem C103_unsubscribed_by_graph_fails {os : List (LOp F E)} {s : LW F E} {h : LHist F E} (hr : LW.run os LW.init = some (s, h))
    {p k : Nat} (hp : owner h p = some k) (hk : ¬ GraphGone h k) (q : Nat) :
    p ∉ ((s.dropSub k p).graphs k).subs ∧
    LW.run [.destroyGraph k, .destroyView p] (s.dropSub k p) = none ∧ LW.run [.destroyGraph k, .unsubscribe p] (s.dropSub k p) = none ∧
    LW.run [.destroyGraph k, .moveView p q] (s.dropSub k p) = none ∧
    (LW.run [.unsubscribe p, .destroyGraph k, .destroyView p] s).isSome = true := by
  have i : LInv s h := by simpa using run_linv init_linv hr
  have hv := i.view p k ((i.pub p).trans hp)
  have hka : s.graphLife k = .alive := by
    rw [Life.eq_alive]
    exact ⟨hv.2, fun x => hk ((i.graphGone k).1 x)⟩
  have hpub : s.pub p = some k := (i.pub p).trans hp
  refine ⟨by simp [LW.dropSub], ?_, ?_, ?_, ?_⟩
  · simp [LW.run, LW.step, LW.dropSub, hka, hv.1, LW.leave, hpub]
  · simp [LW.run, LW.step, LW.dropSub, hka, hv.1, LW.leave, hpub]
  · by_cases hq : s.viewLife q = .unborn
    · simp [LW.run, LW.step, LW.dropSub, hka, hv.1, hq, LW.move, hpub]
    · simp [LW.run, LW.step, LW.dropSub, hka, hv.1, hq]
  · simp [LW.run, LW.step, LW.dropSub, LW.setPub, hka, hv.1, LW.leave, hpub]

/-- a graph with a view: the graph forgets the view, the view keeps its pointer -/
example : ((LW.run ([.newView 0, .newGraph 0, .call 0 (.addFrame "a"), .call 0 (.getTree "a" true 0)] : List (LOp DemoFrame Int)) LW.init).map fun r =>
    (owner r.2 0, (r.1.graphs 0).subs, ((r.1.dropSub 0 0).graphs 0).subs, (r.1.dropSub 0 0).pub 0,
      (LW.run [.destroyGraph 0, .destroyView 0] (r.1.dropSub 0 0)).isSome, (LW.run [.destroyView 0, .destroyGraph 0] (r.1.dropSub 0 0)).isSome)) =
    some (some 0, [0], [], some 0, false, true) := by rfl

end Verif
