import Verif.Lemmas.Throws
import Verif.Lemmas.Sim
import Verif.Spec.Demo
/-! # C05: a failing graph call changes nothing and publishes nothing -/

namespace Verif
open GS
variable {F E : Type} [FrameProp F] [EdgeProp E]

/-- the exceptions that the documentation of each call names (Graph.hpp:87-220, 240-260) -/
def documentedThrow : Cmd F E → Exn → Prop
  | .addFrame f, x | .emplaceFrame f _, x => x = .frameAlreadyExists f
  | .removeFrame f, x => x = .unknownFrame f ∨ x = .frameStillConnected f
  | .disconnectFrame f, x => x = .unknownFrame f
  | .addEdge a b _, x => x = .edgeAlreadyExists a b
  | .removeEdge a b, x | .setEdge a b _, x => x = .unknownFrame a ∨ x = .unknownFrame b ∨ x = .unknownEdge a b
  | .getTree f _ _, x => x = .unknownFrame f
  | .unsubscribeView _, _ => False

/-- After any history (self edges and subscribed views included), a call that throws one of its documented exceptions leaves
the whole state as it was: graph, views, subscriptions and the list of published events. -/
theorem C05_failing_call_changes_nothing (cs : List (Cmd F E)) (s : GS F E) (h : run cs init = some s)
    (c : Cmd F E) (x : Exn) (s' : GS F E) (hc : exec c s = .throw x s') (hx : documentedThrow c x) : s' = s := by
  have hw : WF s.g := run_wf WF.empty h
  cases c with
  | addFrame f =>
    simp only [exec] at hc
    cases hr : addFrame f s with
    | throw y t =>
      rw [hr] at hc
      simp only [GS.discard, Res.throw.injEq] at hc
      rw [← hc.2]; exact addFrame_throw hr
    | ok _ _ => rw [hr] at hc; cases hc
    | ub _ => rw [hr] at hc; cases hc
  | emplaceFrame f p =>
    simp only [exec] at hc
    cases hr : emplaceFrame f p s with
    | throw y t =>
      rw [hr] at hc
      simp only [GS.discard, Res.throw.injEq] at hc
      rw [← hc.2]; exact emplaceFrame_throw hr
    | ok _ _ => rw [hr] at hc; cases hc
    | ub _ => rw [hr] at hc; cases hc
  | removeFrame f => exact removeFrame_throw hc
  | disconnectFrame f => exact disconnectFrame_throw hc hx
  | addEdge a b p => exact addEdge_throw hw hc
  | removeEdge a b =>
    rcases removeEdge_throw hc with h | ⟨m, rfl⟩
    · exact h
    · simp [documentedThrow] at hx
  | setEdge a b p => exact setEdgeProperty_throw hc
  | getTree f k p =>
    simp only [exec, getTree] at hc
    split at hc
    · simp only [Res.throw.injEq] at hc; exact hc.2.symm
    · simp only [getTreeInto] at hc
      split at hc
      · cases hc
      · rename_i heq
        split at heq <;> cases heq
      · split at hc
        · simp only [subscribeTreeView] at hc
          split at hc <;> cases hc
        · cases hc
  | unsubscribeView p => exact hx.elim

/-- a view is subscribed and the graph has a self edge: the failing calls change nothing -/
example : ∃ s : GS DemoFrame Int, run [.addEdge "a" "b" 1, .addEdge "c" "c" 2, .getTree "a" true 0] init = some s ∧ s.subs = [0] ∧
    exec (.addEdge "b" "a" 7) s = .throw (.edgeAlreadyExists "b" "a") s ∧ exec (.removeFrame "c") s = .throw (.frameStillConnected "c") s :=
  ⟨_, rfl, rfl, rfl, rfl⟩

/-- Without self edges and without subscribed tree views the documented exceptions are the only ones. -/
theorem C05_only_documented_throws (cs : List (Cmd F E)) (hcs : ∀ c ∈ cs, c.plain) (s : GS F E) (h : run cs init = some s)
    (c : Cmd F E) (hc : c.plain) (x : Exn) (s' : GS F E) (hx : exec c s = .throw x s') : documentedThrow c x := by
  obtain ⟨s0, -, hsim, hrun⟩ := Sim.outcomes hcs (Sim.init (F := F) (E := E))
  obtain rfl : s0 = s := Option.some.inj (hrun.symm.trans h)
  rcases hsim.exec hc with ⟨-, s1, h1, -⟩ | ⟨y, h1, -, h3⟩
  · rw [h1] at hx; cases hx
  · obtain rfl : y = x := by rw [h3] at hx; simpa using (Res.throw.inj hx).1
    cases c with
    | unsubscribeView => simp [AGraph.step] at h1
    | _ =>
      simp only [AGraph.step] at h1
      split at h1 <;> (try split at h1) <;> (try split at h1) <;>
        simp_all only [Option.some.injEq, reduceCtorEq, documentedThrow] <;> simp_all

/-- each documented exception occurs -/
example : ∃ s : GS DemoFrame Int, run [.addEdge "a" "b" 1, .addFrame "c"] init = some s ∧
    exec (.addFrame "a") s = .throw (.frameAlreadyExists "a") s ∧
    exec (.removeFrame "a") s = .throw (.frameStillConnected "a") s ∧
    exec (.removeFrame "z") s = .throw (.unknownFrame "z") s ∧
    exec (.disconnectFrame "z") s = .throw (.unknownFrame "z") s ∧
    exec (.addEdge "b" "a" 2) s = .throw (.edgeAlreadyExists "b" "a") s ∧
    exec (.removeEdge "a" "c") s = .throw (.unknownEdge "a" "c") s ∧
    exec (.setEdge "a" "z" 1) s = .throw (.unknownFrame "z") s ∧
    exec (.getTree "z" true 0) s = .throw (.unknownFrame "z") s :=
  ⟨_, rfl, rfl, rfl, rfl, rfl, rfl, rfl, rfl, rfl⟩

end Verif
