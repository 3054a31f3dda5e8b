import Verif.Lemmas.PathLemmas
import Verif.Lemmas.Poses
import Verif.Spec.DemoPose
/-! # C17: tree-shaped transform graphs are always consistent -/

namespace Verif
open GS
variable {F T : Type} [FrameProp F] [Group T]

/-- After every history that never closes a cycle (additions, updates, removals, in any order), there are poses of the frames such
that every edge holds the transform between the poses of its ends. -/
theorem C17_poses_exist (cs : List (Cmd F (Tf T))) (ht : TreeHistory cs (init : GS F (Tf T))) :
    ∃ s, run cs (init : GS F (Tf T)) = some s ∧ ∃ pose, Consistent s pose := by
  obtain ⟨s, h1, -⟩ := TreeInv.init.run ht
  exact ⟨s, h1, consistent_of_poses (run_poses TreeInv.init .empty ht h1)⟩

/-- poses for a chain after an update -/
example : ∃ s : GS DemoFrame (Tf DemoPose),
    run [.addEdge "a" "b" ⟨1, tn 1⟩, .addEdge "b" "c" ⟨2, sh 3⟩, .setEdge "b" "a" ⟨5, sh 7⟩] init = some s ∧
    getEdgeProperty "a" "b" s = .ok ⟨5, (1 : DemoPose)⁻¹ * sh (-7)⟩ s ∧ getEdgeProperty "b" "c" s = .ok ⟨2, (sh (-7) : DemoPose)⁻¹ * sh (-4)⟩ s :=
  ⟨_, rfl, rfl, rfl⟩

/-- Hence transforms compose: if two of the three transforms between `a`, `b`, `c` are defined, so is the third one and the
product is right.  (Except that nothing is defined in a graph without edges.) -/
theorem C17_compose (cs : List (Cmd F (Tf T))) (ht : TreeHistory cs (init : GS F (Tf T))) (s : GS F (Tf T)) (h : run cs init = some s)
    (a b c : FrameId) (r1 r2 : Tf T) (h1 : getTransform a b s = .ok r1 s) (h2 : getTransform b c s = .ok r2 s) :
    ∃ r, getTransform a c s = .ok r s ∧ r.pose = r1.pose * r2.pose := by
  have hw : WF s.g := run_wf WF.empty h
  obtain ⟨pose, hc⟩ := consistent_of_poses (run_poses TreeInv.init .empty ht h)
  obtain ⟨e1, k1⟩ := ok_reaches hw h1
  obtain ⟨e2, k2⟩ := ok_reaches hw h2
  have k3 := k1.trans k2
  have p1 := k1.pose hc
  have p2 := k2.pose hc
  rcases getTransform_total hw a c with ⟨r, g1, g2⟩ | ⟨x, g1, g2⟩
  · refine ⟨r, g1, ?_⟩
    rw [g2.pose hc, p1, p2]; simp [mul_assoc]
  · by_cases hac : a = c
    · subst hac
      obtain ⟨r, g3, g4⟩ := same_ok hw h1
      rw [g3] at g1; cases g1
    · exact absurd k3.joined (g2 hac)
where
  ok_reaches {s : GS F (Tf T)} (hw : WF s.g) {a b : FrameId} {r : Tf T} (h : getTransform a b s = .ok r s) :
      s.g.edges ≠ [] ∧ Reaches s a b r.pose := by
    constructor
    · intro h0
      unfold getTransform at h
      cases ha : s.g.vertexOf a with
      | none => simp [ha] at h
      | some u =>
        cases hb : s.g.vertexOf b with
        | none => simp [ha, hb] at h
        | some v =>
          simp only [ha, hb, getTransformV, h0, List.length_nil, if_true, unknownTransform] at h
          split at h <;> cases h
    · rcases getTransform_total hw a b with ⟨r', g1, g2⟩ | ⟨x, g1, -⟩
      · rw [h] at g1
        obtain ⟨rfl, -⟩ := Res.ok.inj g1
        exact g2
      · rw [h] at g1; cases g1
  same_ok {s : GS F (Tf T)} (hw : WF s.g) {a b : FrameId} {r : Tf T} (h : getTransform a b s = .ok r s) :
      ∃ r', getTransform a a s = .ok r' s ∧ Reaches s a a r'.pose := by
    obtain ⟨h0, -⟩ := ok_reaches hw h
    cases ha : s.g.vertexOf a with
    | none => simp [getTransform, ha] at h
    | some u =>
      rcases getTransform_eq hw ha ha with ⟨k, -⟩ | ⟨p, k1, k2⟩ | ⟨-, -, k, -⟩ | ⟨-, -, l, t, k1, -, k2, k3⟩
      · exact absurd k h0
      · exact ⟨p, k2, .edge k1⟩
      · exact absurd (Joined.refl s a) k
      · exact ⟨_, k3, l, k1, k2⟩

/-- three frames of a star, with factors that do not commute -/
example : ∃ s : GS DemoFrame (Tf DemoPose),
    run [.addEdge "m" "a" ⟨1, tn 1⟩, .addEdge "m" "b" ⟨2, sh 3⟩, .addEdge "c" "m" ⟨3, tn 5⟩] init = some s ∧
    getTransform "a" "b" s = .ok ⟨0, tn (-2)⟩ s ∧ getTransform "b" "c" s = .ok ⟨0, tn 2⟩ s ∧
    getTransform "a" "c" s = .ok ⟨0, (tn (-2) : DemoPose) * tn 2⟩ s :=
  ⟨_, rfl, rfl, rfl, rfl⟩

/-- ... and the transform back is the inverse. -/
theorem C17_inverse (cs : List (Cmd F (Tf T))) (ht : TreeHistory cs (init : GS F (Tf T))) (s : GS F (Tf T)) (h : run cs init = some s)
    (a b : FrameId) (r : Tf T) (h1 : getTransform a b s = .ok r s) :
    ∃ r', getTransform b a s = .ok r' s ∧ r'.pose = r.pose⁻¹ := by
  obtain ⟨s1, e1, hinv⟩ := TreeInv.init.run ht
  rw [h] at e1
  obtain rfl := Option.some.inj e1
  have hw := hinv.wf
  obtain ⟨pose, hc⟩ := consistent_of_poses (run_poses TreeInv.init .empty ht h)
  obtain ⟨h0, k1⟩ := C17_compose.ok_reaches hw h1
  have hj : Joined s b a := by
    obtain ⟨l, hl, -⟩ := k1
    refine ⟨l.reverse, by simp [hl.last], by simp [hl.first], ?_⟩
    rw [List.isChain_reverse]
    refine hl.steps.imp ?_
    intro x y hxy
    obtain ⟨u, v, hu, hv, -⟩ := conn_iff.1 hxy
    obtain ⟨e, he, a1, a2⟩ := (adj_iff_conn hu hv).1 hxy
    obtain ⟨e', he', -⟩ := hinv.paired.inverse (hinv.paired.edge_iff.2 ⟨he, a1, a2⟩)
    obtain ⟨f1, f2, f3⟩ := G.edge_some he'
    exact (adj_iff_conn hv hu).2 ⟨e', f1, f2, f3⟩
  rcases getTransform_total hw b a with ⟨r', g1, g2⟩ | ⟨x, g1, g2⟩
  · exact ⟨r', g1, by rw [g2.pose hc, k1.pose hc]; simp⟩
  · by_cases hab : b = a
    · subst hab
      rw [h1] at g1; cases g1
    · exact absurd hj (g2 hab)

/-- updates and removals in a tree, with factors that do not commute -/
example : ∃ s : GS DemoFrame (Tf DemoPose),
    run [.addEdge "a" "b" ⟨1, tn 1⟩, .addEdge "b" "c" ⟨2, sh 3⟩, .setEdge "b" "a" ⟨5, sh 7⟩, .addEdge "c" "d" ⟨3, tn 2⟩,
      .removeEdge "c" "b", .addEdge "a" "d" ⟨3, tn (-4)⟩] init = some s ∧
    getTransform "b" "d" s = .ok ⟨0, tn 3⟩ s ∧ getTransform "d" "c" s = .ok ⟨3, tn 2⟩ s ∧
    getTransform "b" "c" s = .ok ⟨0, sh 1⟩ s ∧ getTransform "c" "b" s = .ok ⟨0, sh (-1)⟩ s ∧
    (tn 3 : DemoPose) * tn 2 = sh 1 :=
  ⟨_, rfl, rfl, rfl, rfl, rfl, rfl⟩

/-- The example history is one without cycles. -/
example : TreeHistory [.addEdge "a" "b" ⟨1, tn 1⟩, .removeEdge "a" "b", .addEdge "b" "a" ⟨2, sh 1⟩]
    (init : GS DemoFrame (Tf DemoPose)) := by
  refine ⟨⟨by decide, Or.inr ?_⟩, trivial, ⟨by decide, Or.inr ?_⟩, trivial⟩
  · rintro l hl
    have := (Joined.edges ⟨l, hl⟩ (by decide)).1
    exact this rfl
  · rintro l hl
    have := (Joined.edges ⟨l, hl⟩ (by decide)).1
    exact this rfl

end Verif
