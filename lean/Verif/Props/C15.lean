import Verif.Lemmas.PathLemmas
import Verif.Lemmas.Steps
import Verif.Spec.DemoPose
/-! # C15: getTransform composes the transforms along a shortest path -/

namespace Verif
open GS
variable {F T : Type} [FrameProp F] [Group T]

/-- The edge of the connection, else the product along a shortest path, else `UnknownTransformException`. -/
def C15_statement (F T : Type) [FrameProp F] [Group T] : Prop :=
  ∀ (cs : List (Cmd F (Tf T))) (s : GS F (Tf T)), run cs init = some s → ∀ a b, containsFrame a s = true → containsFrame b s = true →
    (∀ p, getEdgeProperty a b s = .ok p s → getTransform a b s = .ok p s) ∧
    (¬ s.Conn a b → Joined s a b → ∃ l t, IsPath s.Conn a b l ∧ (∀ l', IsPath s.Conn a b l' → l.length ≤ l'.length) ∧ Along s l t ∧
      getTransform a b s = .ok ⟨0, t⟩ s) ∧
    (¬ Joined s a b → getTransform a b s = .throw (.unknownTransform a b) s)

/-- Missing compared to `C15_statement`: the transform from a frame to itself in a graph without edges (see `C15_statement_fails`).
After any history the call has no undefined behaviour, terminates and leaves the graph as it is. -/
theorem C15_getTransform_shortest_path_partial (cs : List (Cmd F (Tf T))) (s : GS F (Tf T)) (h : run cs init = some s) (a b : FrameId) :
    (containsFrame a s = false → getTransform a b s = .throw (.unknownFrame a) s) ∧
    (containsFrame a s = true → containsFrame b s = false → getTransform a b s = .throw (.unknownFrame b) s) ∧
    (containsFrame a s = true → containsFrame b s = true →
      (∀ p, getEdgeProperty a b s = .ok p s → getTransform a b s = .ok p s) ∧
      (¬ s.Conn a b → Joined s a b → a ≠ b ∨ 0 < numEdges s →
        ∃ l t, IsPath s.Conn a b l ∧ (∀ l', IsPath s.Conn a b l' → l.length ≤ l'.length) ∧ Along s l t ∧
          getTransform a b s = .ok ⟨0, t⟩ s) ∧
      (¬ Joined s a b → getTransform a b s = .throw (.unknownTransform a b) s)) := by
  have hw : WF s.g := run_wf WF.empty h
  refine ⟨getTransform_unknown.1, getTransform_unknown.2, fun ha hb => ?_⟩
  obtain ⟨u, hu⟩ := Option.isSome_iff_exists.1 ha
  obtain ⟨v, hv⟩ := Option.isSome_iff_exists.1 hb
  rcases getTransform_eq hw hu hv with ⟨h0, h1⟩ | ⟨p, h1, h2⟩ | ⟨-, h1, h2, h3⟩ | ⟨-, h1, l, t, h2, h3, h4, h5⟩
  · refine ⟨fun p hp => ?_, fun _ hj hor => ?_, fun _ => h1⟩
    · obtain ⟨x, y, e, -, -, he, -⟩ := getEdgeProperty_ok hp
      have := (G.edge_some he).1
      rw [h0] at this; cases this
    · rcases hor with hor | hor
      · exact absurd h0 (hj.edges hor).1
      · simp [numEdges, h0] at hor
  · refine ⟨fun p' hp => ?_, fun hc => absurd (conn_of_edgeProperty.2 ⟨p, h1⟩) hc,
      fun hj => absurd (Joined.of_conn (conn_of_edgeProperty.2 ⟨p, h1⟩)) hj⟩
    rw [h1] at hp
    obtain ⟨rfl, -⟩ := Res.ok.inj hp
    exact h2
  · exact ⟨fun p hp => absurd (conn_of_edgeProperty.2 ⟨p, hp⟩) h1, fun _ hj => absurd hj h2, fun _ => h3⟩
  · exact ⟨fun p hp => absurd (conn_of_edgeProperty.2 ⟨p, hp⟩) h1, fun _ _ _ => ⟨l, t, h2, h3, h4, h5⟩, fun hj => absurd ⟨l, h2⟩ hj⟩

/-- the direct edge is taken, although the way round gives another transform; without it the product along the way -/
example : ∃ s s' : GS DemoFrame (Tf DemoPose),
    run [.addEdge "a" "b" ⟨1, tn 1⟩, .addEdge "b" "c" ⟨2, sh 3⟩, .addEdge "a" "c" ⟨3, sh 9⟩] init = some s ∧
    getTransform "a" "c" s = .ok ⟨3, sh 9⟩ s ∧ run [.removeEdge "a" "c"] s = some s' ∧ getTransform "a" "c" s' = .ok ⟨0, tn (-2)⟩ s' ∧
    (tn 1 : DemoPose) * sh 3 = tn (-2) :=
  ⟨_, _, rfl, rfl, rfl, rfl, rfl⟩

/-- for `a = b` and some edge in the graph: the identity, unless there is a self edge -/
theorem C15_same_frame (cs : List (Cmd F (Tf T))) (s : GS F (Tf T)) (h : run cs init = some s) (a : FrameId)
    (ha : containsFrame a s = true) (hc : ¬ s.Conn a a) :
    getTransform a a s = if numEdges s = 0 then .throw (.unknownTransform a a) s else .ok Tf.ident s := by
  have hw : WF s.g := run_wf WF.empty h
  obtain ⟨u, hu⟩ := Option.isSome_iff_exists.1 ha
  rcases getTransform_eq hw hu hu with ⟨h0, h1⟩ | ⟨p, h1, h2⟩ | ⟨-, -, h2, -⟩ | ⟨h0, h1, l, t, h2, h3, h4, h5⟩
  · simp [h1, numEdges, h0]
  · exact absurd (conn_of_edgeProperty.2 ⟨p, h1⟩) hc
  · exact absurd (Joined.refl s a) h2
  · have hl := h3 [a] ⟨rfl, rfl, by simp⟩
    rw [if_neg (by simpa [numEdges] using h0), h5]
    cases h4 with
    | one => rfl
    | step => simp at hl

/-- both cases -/
example : ∃ s s' : GS DemoFrame (Tf DemoPose), run [.addFrame "a"] init = some s ∧
    getTransform "a" "a" s = .throw (.unknownTransform "a" "a") s ∧ run [.addEdge "b" "c" ⟨1, tn 1⟩] s = some s' ∧
    getTransform "a" "a" s' = .ok Tf.ident s' :=
  ⟨_, _, rfl, rfl, rfl, rfl⟩

/-- The full statement is false: in a graph without edges even the transform from a frame to itself is unknown. -/
theorem C15_statement_fails : ¬ C15_statement DemoFrame DemoPose := by
  intro H
  have h := (H [.addFrame "a"] _ rfl "a" "a" rfl rfl).2.1 (by intro hc; cases hc) (Joined.refl _ _)
  obtain ⟨l, t, -, -, -, h5⟩ := h
  cases h5

/-- a chain of three edges, one direct connection, order of the factors visible -/
example : ∃ s : GS DemoFrame (Tf DemoPose),
    run [.addEdge "a" "b" ⟨1, tn 1⟩, .addEdge "b" "c" ⟨2, sh 3⟩, .addEdge "d" "c" ⟨3, sh 10⟩, .addFrame "e"] init = some s ∧
    getTransform "a" "b" s = .ok ⟨1, tn 1⟩ s ∧ getTransform "b" "a" s = .ok ⟨1, tn 1⟩ s ∧
    getTransform "a" "d" s = .ok ⟨0, tn 8⟩ s ∧ getTransform "d" "a" s = .ok ⟨0, tn 8⟩ s ∧
    getTransform "a" "c" s = .ok ⟨0, tn (-2)⟩ s ∧ getTransform "a" "a" s = .ok ⟨0, 1⟩ s ∧
    getTransform "a" "e" s = .throw (.unknownTransform "a" "e") s :=
  ⟨_, rfl, rfl, rfl, rfl, rfl, rfl, rfl, rfl⟩

/-- a single connection is enough -/
example : (run [.addEdge "a" "b" ⟨1, tn 1⟩] (init : GS DemoFrame (Tf DemoPose))).map (fun s =>
    ((getTransform "a" "b" s).val?, (getTransform "b" "a" s).val?)) = some (some ⟨1, tn 1⟩, some ⟨1, tn 1⟩) := by decide +kernel

end Verif
