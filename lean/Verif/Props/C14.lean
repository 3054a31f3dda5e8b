import Verif.Lemmas.GraphSearch
import Verif.Spec.Demo
/-! # C14: getFrames returns an empty list exactly if there is no path -/

namespace Verif
open GS
variable {F E : Type} [FrameProp F] [EdgeProp E]

/-- Missing compared to C14: the case `a = b` (see `C14_same_frame_fails`).  After any history, `getFrames(a,b)` throws
`UnknownFrameException` for the first frame that is not contained; otherwise it terminates with a list that, for `a ≠ b`, is
empty iff there is no path from `a` to `b`.  The graph is not changed. -/
theorem C14_getFrames_empty_iff_no_path_partial (cs : List (Cmd F E)) (s : GS F E) (h : run cs init = some s) (a b : FrameId) :
    (containsFrame a s = false → getFrames a b s = .throw (.unknownFrame a) s) ∧
    (containsFrame a s = true → containsFrame b s = false → getFrames a b s = .throw (.unknownFrame b) s) ∧
    (containsFrame a s = true → containsFrame b s = true →
      ∃ l, getFrames a b s = .ok l s ∧ (a ≠ b → (l = [] ↔ ¬ ∃ p, IsPath s.Conn a b p))) := by
  have hw : WF s.g := run_wf WF.empty h
  cases ha : s.g.vertexOf a with
  | none => simp [containsFrame, getFrames, ha]
  | some u =>
    cases hb : s.g.vertexOf b with
    | none => simp [containsFrame, getFrames, ha, hb]
    | some v =>
      refine ⟨by simp [containsFrame, ha], by simp [containsFrame, hb], fun _ _ => ?_⟩
      obtain ⟨evs, lvl, -, hd, hr⟩ := getFrames_eq hw ha hb
      rcases hr with ⟨hv, hr⟩ | ⟨hab, hr⟩ | ⟨-, path, hp, hlen, hr⟩
      · refine ⟨_, hr, fun _ => ⟨fun _ => ?_, fun _ => rfl⟩⟩
        rintro ⟨p, hp⟩
        obtain ⟨q, q1, q2, q3, -⟩ := walk_of_path hp ha hb
        exact hv (hd.walk q v q1 q2 q3).1
      · exact ⟨_, hr, fun hne => absurd hab hne⟩
      · refine ⟨_, hr, fun _ => ⟨fun h0 => ?_, fun h0 => ?_⟩⟩
        · have := congrArg List.length h0
          rw [List.length_map, hlen] at this
          simp at this
        · exact absurd ⟨_, (treePath_shortest hw ha hb hd hp hlen).1⟩ h0

/-- a cycle with a tail: the way to the end of the tail, and no way after the tail was cut off -/
example : ∃ s s' : GS DemoFrame Int, run [.addEdge "a" "b" 1, .addEdge "b" "c" 2, .addEdge "c" "a" 3, .addEdge "c" "d" 4] init = some s ∧
    getFrames "a" "d" s = .ok ["a", "c", "d"] s ∧ run [.removeEdge "d" "c"] s = some s' ∧ getFrames "a" "d" s' = .ok [] s' :=
  ⟨_, _, rfl, rfl, rfl, rfl⟩

/-- The property fails for `a = b`: the result is always empty although the frame reaches itself. -/
theorem C14_same_frame_fails (cs : List (Cmd F E)) (s : GS F E) (h : run cs init = some s) (a : FrameId)
    (ha : containsFrame a s = true) : getFrames a a s = .ok [] s ∧ IsPath s.Conn a a [a] := by
  have hw : WF s.g := run_wf WF.empty h
  obtain ⟨u, hu⟩ := Option.isSome_iff_exists.1 ha
  refine ⟨?_, ⟨rfl, rfl, by simp⟩⟩
  obtain ⟨evs, lvl, -, hd, hr⟩ := getFrames_eq hw hu hu
  rcases hr with ⟨-, hr⟩ | ⟨-, hr⟩ | ⟨hne, -⟩
  · exact hr
  · exact hr
  · exact absurd rfl hne

/-- two components -/
example : ∃ s : GS DemoFrame Int,
    run [.addEdge "a" "b" 1, .addEdge "b" "c" 2, .addEdge "d" "e" 3] init = some s ∧
    getFrames "a" "c" s = .ok ["a", "b", "c"] s ∧ getFrames "a" "e" s = .ok [] s ∧
    getFrames "a" "x" s = .throw (.unknownFrame "x") s :=
  ⟨_, rfl, rfl, rfl, rfl⟩

end Verif
