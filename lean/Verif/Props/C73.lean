import Verif.Lemmas.Dispatcher
/-!
# C73: `checkWaitingForFrames` enables the dispatcher when all awaited frames are there

Full statement (documentation in src/events/GraphEventDispatcher.hpp:86-89): it returns true and enables the dispatcher if all
awaited frames are available.

It fails when it is called by the application: the dispatcher stays disabled and does not wait any more, so that it is silent
until somebody enables it.
-/

namespace Verif
open Disp

/-- the full statement -/
def C73_statement : Prop :=
  ∀ (d : Disp) (f : FrameId), d.waiting = some true → (checkWaitingForFrames f d).1 = true → (checkWaitingForFrames f d).2.enabled = true

/-- It returns true exactly if nothing but (at most) one entry for this frame was left. -/
theorem C73_result_partial (d : Disp) (f : FrameId) :
    (checkWaitingForFrames f d).1 = true ↔ d.waitingFor = [] ∨ d.waitingFor = [f] := by
  have h1 : (checkWaitingForFrames f d).1 = true ↔ d.waitingFor.erase f = [] := by
    unfold checkWaitingForFrames
    by_cases h : d.waitingFor.erase f = [] <;> simp [h]
  rw [h1]
  cases hl : d.waitingFor with
  | nil => simp
  | cons g l =>
    by_cases hg : g = f
    · subst hg; simp
    · rw [List.erase_cons_tail (by simpa using hg)]; simp [hg]

/-- one entry left, two entries left, and twice the same frame -/
example : (checkWaitingForFrames "a" (waitForFrame "a" withPublisher)).1 = true ∧
    (checkWaitingForFrames "a" (waitForFrame "b" (waitForFrame "a" withPublisher))).1 = false ∧
    (checkWaitingForFrames "b" (waitForFrame "a" withPublisher)).1 = false ∧ (checkWaitingForFrames "a" withPublisher).1 = true := by decide

/-- Called by the application it never enables anything; after it returned true no event is ever forwarded (until `enable`). -/
theorem C73_stays_silent (d : Disp) (f : FrameId) (hd : d.enabled = false) (ht : (checkWaitingForFrames f d).1 = true) (es : List Event) :
    ∃ d', Disp.run (.checkWaitingForFrames f :: es.map .notify) d = some d' ∧ d'.calls = d.calls ∧ d'.enabled = false := by
  have h1 : (checkWaitingForFrames f d).2.enabled = false ∧ (checkWaitingForFrames f d).2.waiting = some false ∧
      (checkWaitingForFrames f d).2.calls = d.calls := by
    revert ht
    unfold checkWaitingForFrames
    simp only
    split
    · intro _; exact ⟨hd, rfl, rfl⟩
    · intro h; simp at h
  have key : ∀ (es : List Event) (x : Disp), x.enabled = false → x.waiting = some false → Disp.run (es.map .notify) x = some x := by
    intro es
    induction es with
    | nil => intros; rfl
    | cons e es ih => intro x h2 h3; simp [Disp.run, Disp.exec, Disp.notify, h2, h3, ih x h2 h3]
  refine ⟨(checkWaitingForFrames f d).2, ?_, h1.2.2, h1.1⟩
  simp only [Disp.run, Disp.exec]
  exact key es _ h1.1 h1.2.1

example : (Disp.run [.checkWaitingForFrames "a", .notify (.frameAdded "a"), .notify (.frameAdded "b")]
    ((waitForFrame "a" withPublisher).addCallback .frameAdded 1)).map (fun d => (d.calls, d.enabled)) = some ([], false) := by decide +kernel

theorem C73_statement_fails : ¬ C73_statement := by
  intro hs
  have := hs (waitForFrame "a" withPublisher) "a" rfl (by decide)
  simp [checkWaitingForFrames, waitForFrame, withPublisher, Disp.enable] at this

example : (checkWaitingForFrames "a" (waitForFrame "a" withPublisher)).1 = true ∧ (waitForFrame "a" withPublisher).enabled = false := by decide

end Verif
