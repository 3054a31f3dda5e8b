import Verif.Lemmas.PathLemmas
import Verif.Lemmas.PathEvents
import Verif.Spec.DemoPose
/-! # C19: getTransform with a path never returns a transform for a broken path

True for paths with at least two frames.  A dirty path whose ends are not connected any more loses its frames when the call
throws, and the next call returns the identity: `C19_second_call_fails`. -/

namespace Verif
open GS
variable {F T : Type} [FrameProp F] [Group T]

/-- Full statement: for a path object that a client got with `getPath(a,b)` for different frames, whatever happened to the graph and
however often the transform was asked for before: a returned transform means that `a` and `b` are connected.  `ps` are the
successive states of the path object between the calls, `evs` the events in between. -/
def C19_statement (F T : Type) [FrameProp F] [Group T] : Prop :=
  ∀ (cs0 cs : List (Cmd F (Tf T))) (s0 s : GS F (Tf T)) (a b : FrameId) (auto : Bool) (p p' p'' : Path) (r : Tf T),
    (∀ a p, Cmd.addEdge a a p ∉ cs0 ++ cs) → a ≠ b → run cs0 init = some s0 → Joined s0 a b → getPath a b auto s0 = .ok p s0 →
    run cs s0 = some s →
    ((getTransformPath (p.observe (newEvents s0 s)) s).st? = some p') →
    getTransformPath p' s = .ok r p'' → Joined s a b

/-- For every path object with at least two frames, dirty or not, and every reachable graph: the call throws or it returns the product
along a path from the first to the last frame in the current graph; so it throws if they are not connected.  A result
leaves the ends of the path as they were.
Missing compared to `C19_statement`: path objects with less than two frames. -/
theorem C19_path_transform_partial (cs : List (Cmd F (Tf T))) (s : GS F (Tf T)) (h : run cs init = some s) (p : Path) (a b : FrameId)
    (h2 : 2 ≤ p.frames.length) (ha : p.frames.head? = some a) (hb : p.frames.getLast? = some b) :
    (∃ r p' l, getTransformPath p s = .ok r p' ∧ IsPath s.Conn a b l ∧ Along s l r.pose ∧
      p'.frames.head? = some a ∧ p'.frames.getLast? = some b ∧ 2 ≤ p'.frames.length ∧ p'.auto = p.auto) ∨
    (∃ x p', getTransformPath p s = .throw x p') := by
  have hw : WF s.g := run_wf WF.empty h
  cases hd : p.dirty with
  | false =>
    rw [getTransformPath_clean h2 hd]
    rcases pathProduct_total hw h2 ha hb with ⟨r, h1, l, k1, k2⟩ | ⟨x, h1, -⟩
    · exact Or.inl ⟨r, p, l, h1, k1, k2, ha, hb, h2, rfl⟩
    · exact Or.inr ⟨x, p, h1⟩
  | true =>
    rw [getTransformPath_dirty h2 ha hb hd]
    by_cases hab : a = b
    · subst hab
      right
      cases hv : s.g.vertexOf a with
      | none => exact ⟨.unknownFrame a, p, by simp [getFrames, hv]⟩
      | some u =>
        obtain ⟨evs, lvl, -, -, hrr⟩ := getFrames_eq hw hv hv
        rcases hrr with ⟨-, k⟩ | ⟨-, k⟩ | ⟨k, -⟩
        · exact ⟨.invalidPath, _, by simp [k]; rfl⟩
        · exact ⟨.invalidPath, _, by simp [k]; rfl⟩
        · exact absurd rfl k
    · rcases getFrames_api hw hab with ⟨-, l, h1, h3, -⟩ | ⟨-, h1 | ⟨x, h1⟩⟩
      · have hl2 := h3.two hab
        have hne : l.length ≠ 0 := by omega
        simp only [h1, hne, if_false]
        rcases pathProduct_total (p := { p.setFrames l with dirty := false }) hw hl2 h3.first h3.last with
          ⟨r, k0, l', k1, k2⟩ | ⟨x, k0, -⟩
        · exact Or.inl ⟨r, _, l', k0, k1, k2, h3.first, h3.last, hl2, rfl⟩
        · exact Or.inr ⟨x, _, k0⟩
      · exact Or.inr ⟨.invalidPath, _, by simp [h1]; rfl⟩
      · exact Or.inr ⟨x, p, by simp [h1]⟩

/-- corollary: not connected, then an exception -/
theorem C19_not_joined_throws (cs : List (Cmd F (Tf T))) (s : GS F (Tf T)) (h : run cs init = some s) (p : Path) (a b : FrameId)
    (h2 : 2 ≤ p.frames.length) (ha : p.frames.head? = some a) (hb : p.frames.getLast? = some b) (hj : ¬ Joined s a b) :
    ∃ x p', getTransformPath p s = .throw x p' := by
  rcases C19_path_transform_partial cs s h p a b h2 ha hb with ⟨r, p', l, -, h1, -⟩ | h1
  · exact absurd ⟨l, h1⟩ hj
  · exact h1

/-- When a result is certain: the path is still valid (the product of its own edges, with the time of the first edge), or the path
is dirty and its ends are connected. -/
theorem C19_result_if_connected (cs : List (Cmd F (Tf T))) (s : GS F (Tf T)) (h : run cs init = some s) (p : Path) (a b : FrameId)
    (h2 : 2 ≤ p.frames.length) (ha : p.frames.head? = some a) (hb : p.frames.getLast? = some b) :
    (p.dirty = false → p.frames.IsChain s.Conn → ∃ q t, getEdgeProperty a (p.frames[1]?.getD "") s = .ok q s ∧ Along s p.frames t ∧
      getTransformPath p s = .ok ⟨q.time, t⟩ p) ∧
    (p.dirty = true → a ≠ b → Joined s a b → ∃ r p', getTransformPath p s = .ok r p') := by
  have hw : WF s.g := run_wf WF.empty h
  constructor
  · intro hd hc
    rw [getTransformPath_clean h2 hd]
    match hf : p.frames, h2 with
    | f0 :: f1 :: l, _ =>
      rw [hf] at ha
      simp only [List.head?_cons, Option.some.injEq] at ha
      subst ha
      obtain ⟨q, t, q1, q2, q3⟩ := pathProduct_valid hw hf hc
      exact ⟨q, t, by simpa using q1, hf ▸ q2, q3⟩
  · intro hd hab hj
    rw [getTransformPath_dirty h2 ha hb hd]
    rcases getFrames_api hw hab with ⟨-, l, h1, h3, -⟩ | ⟨hj', -⟩
    · have hl2 := h3.two hab
      have hne : l.length ≠ 0 := by omega
      simp only [h1, hne, if_false]
      rcases pathProduct_total (p := { p.setFrames l with dirty := false }) hw hl2 h3.first h3.last with
        ⟨r, k0, -⟩ | ⟨x, k0, hch⟩
      · exact ⟨r, _, k0⟩
      · exact absurd h3.steps hch
    · exact absurd hj hj'

/-- Negative: when a dirty path is used and its ends are not connected, the call throws and empties the path; every later call
returns the identity, whatever the graph looks like then. -/
theorem C19_second_call_fails (cs : List (Cmd F (Tf T))) (s : GS F (Tf T)) (h : run cs init = some s) (p : Path) (a b : FrameId)
    (h2 : 2 ≤ p.frames.length) (ha : p.frames.head? = some a) (hb : p.frames.getLast? = some b) (hd : p.dirty = true)
    (hca : containsFrame a s = true) (hcb : containsFrame b s = true) (hj : a ≠ b ∧ ¬ Joined s a b) :
    ∃ p', getTransformPath p s = .throw .invalidPath p' ∧ ∀ s' : GS F (Tf T), getTransformPath p' s' = .ok Tf.ident p' := by
  have hw : WF s.g := run_wf WF.empty h
  rw [getTransformPath_dirty h2 ha hb hd]
  rcases getFrames_api hw hj.1 with ⟨hj', -⟩ | ⟨-, h1 | ⟨x, h1⟩⟩
  · exact absurd hj' hj.2
  · refine ⟨{ p.setFrames [] with dirty := false }, by simp [h1], fun s' => ?_⟩
    simp [getTransformPath, Path.setFrames]
  · obtain ⟨u, hu⟩ := Option.isSome_iff_exists.1 hca
    obtain ⟨v, hv⟩ := Option.isSome_iff_exists.1 hcb
    obtain ⟨evs, lvl, -, -, hrr⟩ := getFrames_eq hw hu hv
    rcases hrr with ⟨-, k⟩ | ⟨-, k⟩ | ⟨-, _, -, -, k⟩ <;> (rw [k] at h1; cases h1)

/-- The full statement is false: ask twice after the connection was removed. -/
theorem C19_statement_fails : ¬ C19_statement DemoFrame DemoPose := by
  intro H
  have hw : ∃ s0 s : GS DemoFrame (Tf DemoPose), run [.addEdge "a" "b" ⟨1, tn 1⟩] init = some s0 ∧
      getPath "a" "b" true s0 = .ok (.subscribed ["a", "b"]) s0 ∧ run [.removeEdge "a" "b"] s0 = some s ∧ s.g.edges = [] ∧
      containsEdge "a" "b" s0 = .ok true s0 ∧
      getTransformPath ((Path.subscribed ["a", "b"]).observe (newEvents s0 s)) s = .throw .invalidPath ⟨[], [], false, true⟩ ∧
      getTransformPath ⟨[], [], false, true⟩ s = .ok ⟨0, 1⟩ ⟨[], [], false, true⟩ :=
    ⟨_, _, rfl, rfl, rfl, rfl, rfl, rfl, rfl⟩
  obtain ⟨s0, s, h1, h2, h3, h4, h5, h6, h7⟩ := hw
  have := H [.addEdge "a" "b" ⟨1, tn 1⟩] [.removeEdge "a" "b"] s0 s "a" "b" true _ _ _ _
    (by simp; rintro _ _ rfl hh; exact absurd hh (by decide)) (by decide) h1 (Joined.of_conn h5) h2 h3 (by rw [h6]; rfl) h7
  exact (this.edges (by decide)).1 h4

/-- A path that missed the removal of one of its edges (C28) throws although its ends are still connected. -/
example : ∃ s0 s : GS DemoFrame (Tf DemoPose),
    run [.addEdge "a" "b" ⟨1, tn 1⟩, .addEdge "b" "c" ⟨2, sh 1⟩] init = some s0 ∧
    getPath "a" "c" true s0 = .ok (.subscribed ["a", "b", "c"]) s0 ∧
    run [.removeEdge "c" "b", .addEdge "a" "c" ⟨3, sh 5⟩, .removeEdge "b" "a"] s0 = some s ∧
    getTransform "a" "c" s = .ok ⟨3, sh 5⟩ s ∧
    (getTransformPath ((Path.subscribed ["a", "b", "c"]).observe (newEvents s0 s)) s).exn? = some (.unknownTransform "a" "b") :=
  ⟨_, _, rfl, rfl, rfl, rfl, rfl⟩

/-- valid path, then a dirty one that is replaced -/
example : ∃ s0 s : GS DemoFrame (Tf DemoPose),
    run [.addEdge "a" "b" ⟨1, tn 1⟩, .addEdge "b" "c" ⟨2, sh 1⟩, .addEdge "a" "d" ⟨5, sh 7⟩, .addEdge "d" "c" ⟨6, tn 2⟩] init = some s0 ∧
    (getTransformPath (.subscribed ["a", "b", "c"]) s0).val? = some ⟨1, tn 0⟩ ∧
    run [.removeEdge "a" "b"] s0 = some s ∧
    getTransformPath ((Path.subscribed ["a", "b", "c"]).observe (newEvents s0 s)) s =
      .ok ⟨5, tn 9⟩ ⟨["a", "d", "c"], [("a", "d"), ("d", "c")], false, true⟩ :=
  ⟨_, _, rfl, rfl, rfl, rfl⟩

/-- a path of two frames; when its ends are separated, the exception -/
example : (run [.addEdge "a" "b" ⟨1, tn 1⟩] (init : GS DemoFrame (Tf DemoPose))).bind (fun s0 =>
    (run [.removeEdge "a" "b"] s0).map fun s => ((getTransformPath (.subscribed ["a", "b"]) s0).val?,
      (getTransformPath ((Path.subscribed ["a", "b"]).observe (newEvents s0 s)) s).exn?)) = some (some ⟨1, tn 1⟩, some .invalidPath) := by
  decide +kernel

end Verif
