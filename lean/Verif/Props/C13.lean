import Verif.Lemmas.GraphSearch
import Verif.Spec.Demo
/-! # C13: getFrames returns a shortest path -/

namespace Verif
open GS
variable {F E : Type} [FrameProp F] [EdgeProp E]

/-- After any history: a non-empty result of `getFrames(a,b)` is a path from `a` to `b` without repetitions, and no path from
`a` to `b` has fewer frames. -/
theorem C13_getFrames_shortest_path (cs : List (Cmd F E)) (s : GS F E) (h : run cs init = some s) (a b : FrameId)
    (l : List FrameId) (s' : GS F E) (hl : getFrames a b s = .ok l s') (hne : l ≠ []) :
    s' = s ∧ IsPath s.Conn a b l ∧ l.Nodup ∧ ∀ l', IsPath s.Conn a b l' → l.length ≤ l'.length := by
  have hw : WF s.g := run_wf WF.empty h
  cases ha : s.g.vertexOf a with
  | none => simp [getFrames, ha] at hl
  | some u =>
    cases hb : s.g.vertexOf b with
    | none => simp [getFrames, ha, hb] at hl
    | some v =>
      obtain ⟨evs, lvl, -, hd, hr⟩ := getFrames_eq hw ha hb
      rcases hr with ⟨-, hr⟩ | ⟨-, hr⟩ | ⟨-, path, hp, hlen, hr⟩
      · rw [hl] at hr; cases hr; exact absurd rfl hne
      · rw [hl] at hr; cases hr; exact absurd rfl hne
      · rw [hl] at hr; cases hr
        exact ⟨rfl, treePath_shortest hw ha hb hd hp hlen⟩

/-- two ways from a to d; the shorter one is found -/
example : ∃ s : GS DemoFrame Int,
    run [.addEdge "a" "b" 1, .addEdge "b" "c" 2, .addEdge "c" "d" 3, .addEdge "a" "e" 4, .addEdge "e" "d" 5] init = some s ∧
    getFrames "a" "d" s = .ok ["a", "e", "d"] s ∧ IsPath s.Conn "a" "d" ["a", "b", "c", "d"] :=
  ⟨_, rfl, rfl, ⟨rfl, rfl, by
    refine List.isChain_cons_cons.2 ⟨rfl, List.isChain_cons_cons.2 ⟨rfl, List.isChain_cons_cons.2 ⟨rfl, by simp⟩⟩⟩⟩⟩

end Verif
