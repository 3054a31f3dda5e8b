import Verif.Lemmas.FollowSelf
/-! # Correct views follow additions from any state with a sound graph -/

namespace Verif.GS
open TreeView
variable {F E : Type} [FrameProp F] [EdgeProp E]

/-- `run_followsL` from any state with the invariants of the graph -/
theorem run_follows_any {cs : List (Cmd F E)} : ∀ {s : GS F E}, WF s.g → Paired s.g.ns → SelfTwo s.g → (∀ c ∈ cs, c.growsL) → ViewsLoops s →
    ∃ s', run cs s = some s' ∧ FollowsLoops s s' := by
  induction cs with
  | nil => intro s _ _ _ _ _; exact ⟨s, rfl, .refl s⟩
  | cons c cs ih =>
    intro s hw hp ht hc ho
    obtain ⟨s1, h1, h2⟩ := exec_followsL (hc c (by simp)) hw hp ht ho
    have hr : run [c] s = some s1 := by rw [run_of_exec h1]; rfl
    obtain ⟨l, h5, -⟩ := GS.run_advances hw hr
    have key : ∀ {P : G F E → Event → Prop} {g g' : G F E} {l : List (Event × G F E)}, GSteps P g l g' → WF g → SelfTwo g → SelfTwo g' := by
      intro P g g' l hs
      induction hs with
      | nil => intro _ h; exact h
      | cons hs _ _ ih => intro hw h; exact ih (hs.wf hw) (hs.selfTwo hw h)
    obtain ⟨s', h3, h4⟩ := ih (run_wf hw hr) (h5.paired_ns hw hp) (key h5 hw ht) (fun c' hc' => hc c' (List.mem_cons_of_mem _ hc')) (h2.ok ho)
    exact ⟨s', by rw [run_of_exec h1, h3], h2.trans h4⟩

end Verif.GS
