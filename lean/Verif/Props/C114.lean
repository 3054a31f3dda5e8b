import Verif.Lemmas.PathLemmas
import Verif.Spec.DemoPose
/-! # C114: a computed transform is as recent as the latest transform on the way

`Transform::operator*` keeps the later of two time stamps (src/items/Transform.hpp:86-98, C56). `TransformGraph::getTransform`
multiplies the members `transform` only (src/graph/TransformGraph.hpp:94-219). -/

namespace Verif
open GS
set_option linter.unusedSectionVars false
variable {F T : Type} [FrameProp F] [Group T]

/-- `q` is the product of the transforms of the edges along the frames of the list, multiplied as whole transforms: the time is the
latest of the edges -/
inductive Carried (s : GS F (Tf T)) : List FrameId → Tf T → Prop
  | edge {a b : FrameId} {p : Tf T} : getEdgeProperty a b s = .ok p s → Carried s [a, b] p
  | step {a b : FrameId} {p q : Tf T} {l : List FrameId} :
      getEdgeProperty a b s = .ok p s → Carried s (b :: l) q → Carried s (a :: b :: l) ⟨max p.time q.time, p.pose * q.pose⟩

/-- Between different frames, `getTransform` returns the product of the whole transforms along a path. (Tree views and path
objects: `C114_view_time`, `C114_path_time`.) -/
def C114_statement (F T : Type) [FrameProp F] [Group T] : Prop :=
  ∀ (cs : List (Cmd F (Tf T))) (s : GS F (Tf T)), run cs init = some s → ∀ a b tf, a ≠ b →
    getTransform a b s = .ok tf s → ∃ l, IsPath s.Conn a b l ∧ Carried s l tf

private theorem carried_of_along {s : GS F (Tf T)} {l : List FrameId} {t : T} (h : Along s l t) (h2 : 2 ≤ l.length) :
    ∃ τ, Carried s l ⟨τ, t⟩ := by
  induction h with
  | one a => simp at h2
  | @step a b p l t he ha ih =>
    cases l with
    | nil =>
      cases ha
      exact ⟨p.time, by rw [mul_one]; exact .edge he⟩
    | cons c l =>
      obtain ⟨τ, h3⟩ := ih (by simp)
      exact ⟨_, .step he h3⟩

/-- the time of such a product is the time of one of the edges, and none is later -/
theorem Carried.latest {s : GS F (Tf T)} {l : List FrameId} {q : Tf T} (h : Carried s l q) :
    (∃ a b p, (a, b) ∈ l.zip l.tail ∧ getEdgeProperty a b s = .ok p s ∧ p.time = q.time) ∧
    ∀ a b p, (a, b) ∈ l.zip l.tail → getEdgeProperty a b s = .ok p s → p.time ≤ q.time := by
  induction h with
  | @edge a b p he =>
    refine ⟨⟨a, b, p, by simp, he, rfl⟩, fun x y r hr hp => ?_⟩
    simp only [List.tail_cons, List.zip_cons_cons, List.zip_nil_right, List.mem_singleton, Prod.mk.injEq] at hr
    obtain ⟨rfl, rfl⟩ := hr
    rw [he] at hp
    cases hp
    exact le_refl _
  | @step a b p q l he hq ih =>
    obtain ⟨⟨x, y, r, h1, h2, h3⟩, h4⟩ := ih
    constructor
    · rcases le_total p.time q.time with hle | hle
      · exact ⟨x, y, r, .tail _ h1, h2, by rw [h3]; exact (max_eq_right hle).symm⟩
      · exact ⟨a, b, p, .head _, he, (max_eq_left hle).symm⟩
    · intro x y r hr hp
      simp only [List.tail_cons, List.zip_cons_cons, List.mem_cons, Prod.mk.injEq] at hr
      rcases hr with ⟨rfl, rfl⟩ | hr
      · rw [he] at hp
        cases hp
        exact le_max_left _ _
      · exact (h4 x y r hr hp).trans (le_max_right _ _)

/-- What `getTransform` between two different frames returns: for a connection the edge with its time, otherwise the pose of the product along a
shortest path, with time zero instead of the latest time `τ`. -/
theorem C114_exact (cs : List (Cmd F (Tf T))) {s : GS F (Tf T)} (h : run cs init = some s) {a b : FrameId} {tf : Tf T} (hab : a ≠ b)
    (ht : getTransform a b s = .ok tf s) :
    (s.Conn a b ∧ getEdgeProperty a b s = .ok tf s) ∨
    (¬ s.Conn a b ∧ ∃ l τ, IsPath s.Conn a b l ∧ (∀ l', IsPath s.Conn a b l' → l.length ≤ l'.length) ∧ Carried s l ⟨τ, tf.pose⟩ ∧ tf.time = 0) := by
  have hw : WF s.g := run_wf WF.empty h
  cases hu : s.g.vertexOf a with
  | none => unfold getTransform at ht; simp [hu] at ht
  | some u =>
    cases hv : s.g.vertexOf b with
    | none => unfold getTransform at ht; simp [hu, hv] at ht
    | some v =>
      rcases getTransform_eq hw hu hv with ⟨-, h1⟩ | ⟨q, h1, h2⟩ | ⟨-, -, -, h3⟩ | ⟨-, h1, l, t, h2, h3, h4, h5⟩
      · rw [h1] at ht; cases ht
      · rw [h2] at ht; cases ht
        exact .inl ⟨conn_of_edgeProperty.2 ⟨_, h1⟩, h1⟩
      · rw [h3] at ht; cases ht
      · rw [h5] at ht; cases ht
        obtain ⟨τ, h6⟩ := carried_of_along h4 (h2.two hab)
        exact .inr ⟨h1, l, τ, h2, h3, h6, rfl⟩

/-- times 7 and 8 on the way, zero in the result; the direct connection keeps its time -/
example : ∃ s : GS DemoFrame (Tf DemoPose),
    run [.addEdge "a" "b" ⟨7, tn 1⟩, .addEdge "b" "c" ⟨8, sh 3⟩] init = some s ∧
    getTransform "a" "b" s = .ok ⟨7, tn 1⟩ s ∧ getTransform "a" "c" s = .ok ⟨0, tn (-2)⟩ s ∧
    Carried s ["a", "b", "c"] ⟨8, tn (-2)⟩ :=
  ⟨_, rfl, rfl, rfl, .step (p := ⟨7, tn 1⟩) (q := ⟨8, sh 3⟩) rfl (.edge rfl)⟩

/-- the part that holds: connected frames, and all frames if no edge carries a time -/
theorem C114_partial (cs : List (Cmd F (Tf T))) {s : GS F (Tf T)} (h : run cs init = some s) {a b : FrameId} {tf : Tf T} (hab : a ≠ b)
    (hc : s.Conn a b ∨ ∀ x y p, getEdgeProperty x y s = .ok p s → p.time = 0) (ht : getTransform a b s = .ok tf s) :
    ∃ l, IsPath s.Conn a b l ∧ Carried s l tf := by
  rcases C114_exact cs h hab ht with ⟨h1, h2⟩ | ⟨h1, l, τ, h2, -, h3, h4⟩
  · exact ⟨[a, b], ⟨rfl, rfl, List.isChain_cons_cons.2 ⟨h1, by simp⟩⟩, .edge h2⟩
  · rcases hc with hc | hc
    · exact absurd hc h1
    · obtain ⟨⟨x, y, p, -, k1, k2⟩, -⟩ := h3.latest
      have : τ = 0 := by rw [← hc x y p k1, k2]
      subst this
      exact ⟨l, h2, by rw [← h4] at h3; exact h3⟩

/-- no edge carries a time -/
example : ∃ s : GS DemoFrame (Tf DemoPose), run [.addEdge "a" "b" ⟨0, tn 1⟩, .addEdge "b" "c" ⟨0, sh 3⟩] init = some s ∧
    getTransform "a" "c" s = .ok ⟨0, tn (-2)⟩ s ∧ Carried s ["a", "b", "c"] ⟨0, tn (-2)⟩ :=
  ⟨_, rfl, rfl, .step (p := ⟨0, tn 1⟩) (q := ⟨0, sh 3⟩) rfl (.edge rfl)⟩

/-- If every edge carries a positive time, the result between frames that are not connected directly is never right. -/
theorem C114_far_fails (cs : List (Cmd F (Tf T))) {s : GS F (Tf T)} (h : run cs init = some s) {a b : FrameId} {tf : Tf T} (hab : a ≠ b)
    (hc : ¬ s.Conn a b) (hpos : ∀ x y p, getEdgeProperty x y s = .ok p s → 0 < p.time) (ht : getTransform a b s = .ok tf s) :
    ¬ ∃ l, Carried s l tf := by
  rintro ⟨l, hl⟩
  rcases C114_exact cs h hab ht with ⟨h1, -⟩ | ⟨-, -, -, -, -, -, h4⟩
  · exact hc h1
  · obtain ⟨⟨x, y, p, -, k1, k2⟩, -⟩ := hl.latest
    have := hpos x y p k1
    omega

/-- a chain of three edges with positive times -/
example : (run [.addEdge "a" "b" ⟨7, tn 1⟩, .addEdge "b" "c" ⟨8, sh 3⟩, .addEdge "c" "d" ⟨5, sh 1⟩] (init : GS DemoFrame (Tf DemoPose))).map
    (fun s => ((getTransform "a" "d" s).val?, (getTransform "d" "b" s).val?, (getTransform "d" "c" s).val?)) =
    some (some ⟨0, tn (-3)⟩, some ⟨0, sh (-4)⟩, some ⟨5, sh (-1)⟩) := by decide +kernel

theorem C114_statement_fails : ¬ C114_statement DemoFrame DemoPose := by
  intro h
  obtain ⟨s, hs, ht, hp⟩ : ∃ s : GS DemoFrame (Tf DemoPose),
      run [.addEdge "a" "b" ⟨7, tn 1⟩, .addEdge "b" "c" ⟨8, sh 3⟩] init = some s ∧ getTransform "a" "c" s = .ok ⟨0, tn (-2)⟩ s ∧
      ∀ e ∈ s.g.edges, 0 < e.prop.time := ⟨_, rfl, rfl, by decide +kernel⟩
  obtain ⟨l, -, hl⟩ := h _ s hs "a" "c" _ (by decide) ht
  obtain ⟨⟨x, y, p, -, k1, k2⟩, -⟩ := hl.latest
  obtain ⟨u, v, e, -, -, he, rfl, -⟩ := getEdgeProperty_ok k1
  have := hp e (G.edge_some he).1
  simp only at k2
  omega

/-- With a tree view the result never has a time, not even for connected frames; this needs no assumption on the state or the view. -/
theorem C114_view_time {s s' : GS F (Tf T)} {a b : FrameId} {w : TreeView} {tf : Tf T} (h : getTransformView a b w s = .ok tf s') :
    tf.time = 0 := by
  unfold getTransformView getTransformViewV at h
  repeat' (split at h)
  all_goals first
    | (cases h; done)
    | (cases h; rfl)

/-- the view of the root a, and two connected frames -/
example : (run [.addEdge "a" "b" ⟨7, tn 1⟩, .addEdge "b" "c" ⟨8, sh 3⟩, .getTree "a" true 0] (init : GS DemoFrame (Tf DemoPose))).map
    (fun s => ((getTransformView "a" "b" (s.views 0) s).val?, (getTransform "a" "b" s).val?)) =
    some (some ⟨0, tn 1⟩, some ⟨7, tn 1⟩) := by decide +kernel

private theorem mulSteps_time {s s' : GS F (Tf T)} (l : List FrameId) : ∀ {acc r : Tf T} {f : FrameId}, mulSteps s acc f l = .ok r s' →
    r.time = acc.time := by
  induction l with
  | nil => intro acc r f h; simp only [mulSteps] at h; cases h; rfl
  | cons f' l ih =>
    intro acc r f h
    unfold mulSteps at h
    split at h
    · cases h
    · cases h
    · have := ih h; exact this

/-- With a path the result has the time of its first step, whatever the times of the others. -/
theorem C114_path_time {s : GS F (Tf T)} {p p' : Path} {tf : Tf T} {a b : FrameId} {l : List FrameId} (hf : p.frames = a :: b :: l)
    (hd : p.dirty = false) (h : getTransformPath p s = .ok tf p') : ∃ q s', getTransform a b s = .ok q s' ∧ tf.time = q.time := by
  unfold getTransformPath at h
  rw [hf, if_neg (by simp), hd] at h
  simp only [Bool.false_eq_true, if_false] at h
  unfold pathProduct at h
  rw [hf] at h
  dsimp only at h
  split at h
  · cases h
  · cases h
  · rename_i q s1 hq
    refine ⟨q, s1, hq, ?_⟩
    cases hm : mulSteps s q b l with
    | ok r s2 =>
      rw [hm] at h
      simp only [onPath, Res.ok.injEq] at h
      rw [← h.1]
      exact mulSteps_time l hm
    | throw x s2 => rw [hm] at h; cases h
    | ub m => rw [hm] at h; cases h

/-- forth and back along the same chain: the times differ -/
example : (run [.addEdge "a" "b" ⟨7, tn 1⟩, .addEdge "b" "c" ⟨8, sh 3⟩] (init : GS DemoFrame (Tf DemoPose))).map
    (fun s => ((getTransformPath (.plain ["a", "b", "c"]) s).val?.map Tf.time, (getTransformPath (.plain ["c", "b", "a"]) s).val?.map Tf.time)) =
    some (some 7, some 8) := by decide +kernel

end Verif
