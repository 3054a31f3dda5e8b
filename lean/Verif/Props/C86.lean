import Verif.Lemmas.PairKept
import Verif.Spec.DemoPose
/-! # C86: a transform that was written is the one that is read, until it is written again -/

namespace Verif
open GS
variable {F T : Type} [FrameProp F] [Group T]

private theorem direct {s : GS F (Tf T)} (h : Sound s) {a b : FrameId} {p : Tf T} (hp : getEdgeProperty a b s = .ok p s) :
    getTransform a b s = .ok p s := by
  obtain ⟨u, v, e, hu, hv, he, hp'⟩ := getEdgeProperty_ok hp
  rcases getTransform_eq h.1 hu hv with ⟨h0, -⟩ | ⟨q, h1, h2⟩ | ⟨-, h1, -, -⟩ | ⟨-, h1, -⟩
  · have := (G.edge_some he).1
    rw [h0] at this; cases this
  · rw [hp] at h1
    obtain ⟨rfl, -⟩ := Res.ok.inj h1
    exact h2
  · exact absurd (conn_of_edgeProperty.2 ⟨p, hp⟩) h1
  · exact absurd (conn_of_edgeProperty.2 ⟨p, hp⟩) h1


/-- What was written last is what every overload of `getTransform` reads. -/
def C86_statement (F T : Type) [FrameProp F] [Group T] : Prop :=
  ∀ (cs : List (TCall F T)) (w : TCall F T) (cs' : List (TCall F T)) (s0 s1 s : GS F (Tf T)) (a b : FrameId) (tf : Tf T),
    trun cs init = some s0 → w.Writes s0 a b tf → texec w s0 = .ok () s1 → trun cs' s1 = some s → Untouched a b cs' s1 →
    getTransform a b s = .ok tf s ∧ getTransform b a s = .ok ⟨tf.time, tf.pose⁻¹⟩ s ∧
    ∀ e, getEdge a b s = .ok e s → getTransformE e.id s = .ok tf s

/-- the two directions of a pair of frames -/
private def Reads (s : GS F (Tf T)) (a b : FrameId) (p q : Tf T) : Prop := getEdgeProperty a b s = .ok p s ∧ getEdgeProperty b a s = .ok q s

private theorem reads_untouched {a b : FrameId} {p q : Tf T} {cs : List (TCall F T)} (hab : a ≠ b) :
    ∀ {s s' : GS F (Tf T)}, Sound s → Reads s a b p q → Untouched a b cs s → trun cs s = some s' → Reads s' a b p q := by
  induction cs with
  | nil => intro s s' _ hr _ ht; cases ht; exact hr
  | cons c cs ih =>
    intro s s' h hr hu ht
    unfold trun at ht
    unfold Untouched at hu
    cases hx : texec c s with
    | ok u s1 =>
      simp only [hx] at ht hu
      obtain ⟨k1, k2⟩ := step_pair_ns h true (by simpa using hx)
      refine ih k1 ⟨?_, ?_⟩ hu.2.2 ht
      · rcases k2 a b hab with ⟨i, -⟩ | ⟨i, -⟩ | ⟨i, -⟩ | ⟨-, p', i, -⟩ | ⟨-, p', i, -⟩
        · exact (i p).2 hr.1
        · exact (i p).2 hr.1
        · exact absurd hu.2.1 i
        · exact absurd i (hu.1 p').1
        · exact absurd i (hu.1 p').2
      · rcases k2 b a hab.symm with ⟨i, -⟩ | ⟨i, -⟩ | ⟨i, -⟩ | ⟨-, p', i, -⟩ | ⟨-, p', i, -⟩
        · exact (i q).2 hr.2
        · exact (i q).2 hr.2
        · exact absurd (k1.conn_symm hab hu.2.1) i
        · exact absurd i (hu.1 p').2
        · exact absurd i (hu.1 p').1
    | throw x s1 =>
      simp only [hx] at ht hu
      obtain ⟨k1, k2⟩ := step_pair_ns h false (by simpa using ⟨x, hx⟩)
      refine ih k1 ⟨?_, ?_⟩ hu.2 ht
      · rcases k2 a b hab with ⟨i, -⟩ | ⟨i, -⟩ | ⟨i, -⟩ | ⟨i, -⟩ | ⟨i, -⟩
        · exact (i p).2 hr.1
        · exact (i p).2 hr.1
        · exact absurd hu.1 i
        · cases i
        · cases i
      · rcases k2 b a hab.symm with ⟨i, -⟩ | ⟨i, -⟩ | ⟨i, -⟩ | ⟨i, -⟩ | ⟨i, -⟩
        · exact (i q).2 hr.2
        · exact (i q).2 hr.2
        · exact absurd (k1.conn_symm hab hu.1) i
        · cases i
        · cases i
    | ub m => rw [hx] at ht; cases ht

private theorem reads_written {a b : FrameId} (hab : a ≠ b) {tf : Tf T} {c : TCall F T} {s s' : GS F (Tf T)} (h : Sound s)
    (hx : texec c s = .ok () s') (hw : c.Writes s a b tf) : Reads s' a b tf tf.inverse := by
  obtain ⟨k1, k2⟩ := step_pair_ns h true (by simpa using hx)
  obtain ⟨u1, u2⟩ := Writes_unique_ns h (by intro m; rw [hx]; simp) hab hw
  have aux : getEdgeProperty a b s' = .ok tf s' := by
    rcases k2 a b hab with ⟨-, i⟩ | ⟨-, i⟩ | ⟨-, i⟩ | ⟨-, p', i, j⟩ | ⟨-, p', i, j⟩
    · exact absurd hw (i rfl tf).1
    · cases i
    · exact absurd i (u2 _ _)
    · obtain ⟨-, -, rfl⟩ := u1 _ _ _ hab i
      exact j
    · obtain ⟨rfl, -, -⟩ := u1 _ _ _ hab.symm i
      exact absurd rfl hab
  refine ⟨aux, ?_⟩
  rcases k2 b a hab.symm with ⟨-, i⟩ | ⟨-, i⟩ | ⟨-, i⟩ | ⟨-, p', i, j⟩ | ⟨-, p', i, j⟩
  · exact absurd hw (i rfl tf).2
  · cases i
  · exact absurd i (u2 _ _)
  · obtain ⟨rfl, -, -⟩ := u1 _ _ _ hab.symm i
    exact absurd rfl hab
  · obtain ⟨-, -, rfl⟩ := u1 _ _ _ hab i
    exact j

/-- Missing compared to `C86_statement`: the transform from a frame to itself and the edge overload of `getTransform`, for which it is
false (`C86_self_edge_fails`, `C86_edge_fails`).  After any history, with any self edges and tree views, and for two different frames: if a call (by names, by vertices or by an edge) writes the transform
`tf` from `a` to `b`, then after any further calls that do not write or cut this pair, `getTransform` returns exactly `tf`, time stamp
included, from `a` to `b`, and its inverse from `b` to `a`. -/
theorem C86_read_back_partial (cs : List (TCall F T)) (w : TCall F T) (cs' : List (TCall F T))
    {s0 s1 s : GS F (Tf T)} (h0 : trun cs init = some s0) {a b : FrameId} (hab : a ≠ b) {tf : Tf T} (hw : w.Writes s0 a b tf)
    (h1 : texec w s0 = .ok () s1) (h2 : trun cs' s1 = some s) (hu : Untouched a b cs' s1) :
    getTransform a b s = .ok tf s ∧ getTransform b a s = .ok ⟨tf.time, tf.pose⁻¹⟩ s := by
  have g0 := trun_sound Sound.init h0
  have g1 := (step_pair_ns g0 true (by simpa using h1)).1
  have r := reads_untouched hab g1 (reads_written hab g0 h1 hw) hu h2
  have g := trun_sound g1 h2
  exact ⟨direct g r.1, direct g r.2⟩

/-- two edges, the second updated through its edge descriptor, then calls on other pairs, one of them refused -/
def C86_demo : List (TCall DemoFrame DemoPose) :=
  [.add "a" "b" ⟨7, sh 1⟩, .add "b" "c" ⟨8, sh 2⟩, .other (.getTree "a" true 0)]
def C86_demo_after : List (TCall DemoFrame DemoPose) :=
  [.updateD 0 1 ⟨1, sh 5⟩, .add "c" "b" ⟨3, sh 3⟩, .remove "a" "b", .other (.addFrame "d"), .addD 3 2 ⟨4, tn 4⟩]

example : ∃ s0 s1 s, trun C86_demo init = some s0 ∧ texec (.updateE 2 ⟨9, tn 6⟩) s0 = .ok () s1 ∧
    (TCall.updateE 2 ⟨9, tn 6⟩ : TCall DemoFrame DemoPose).Writes s0 "b" "c" ⟨9, tn 6⟩ ∧ trun C86_demo_after s1 = some s ∧
    Untouched "b" "c" C86_demo_after s1 ∧ (∀ c ∈ C86_demo ++ .updateE 2 ⟨9, tn 6⟩ :: C86_demo_after, c.NoSelf) ∧
    getTransform "b" "c" s = .ok ⟨9, tn 6⟩ s ∧ getTransform "c" "b" s = .ok ⟨9, tn 6⟩ s ∧
    getTransform "d" "c" s = .ok ⟨4, tn 4⟩ s ∧ getTransform "a" "c" s = .throw (.unknownTransform "a" "c") s ∧
    getTransform "d" "b" s = .ok ⟨0, sh (-2)⟩ s :=
  ⟨_, _, _, rfl, rfl, ⟨⟨_, rfl, rfl⟩, rfl⟩, rfl,
    ⟨fun tf => ⟨fun h => absurd h.1 (by decide +kernel), fun h => absurd h.1 (by decide +kernel)⟩, rfl, rfl,
      ⟨fun tf => ⟨id, id⟩, rfl, ⟨fun tf => ⟨id, id⟩, rfl,
      ⟨fun tf => ⟨fun h => absurd h.1 (by decide +kernel), fun h => absurd h.1 (by decide +kernel)⟩, rfl, trivial⟩⟩⟩⟩,
    by simp [C86_demo, C86_demo_after, TCall.NoSelf], rfl, rfl, rfl, rfl, rfl⟩

/-- self edges are added and written before and after the pair is written -/
example : ∃ s0 s1 s, trun [.add "a" "a" ⟨1, sh 1⟩, .add "a" "b" ⟨7, sh 1⟩] (init : GS DemoFrame (Tf DemoPose)) = some s0 ∧
    texec (.update "b" "a" ⟨5, sh 3⟩) s0 = .ok () s1 ∧
    (TCall.update "b" "a" ⟨5, sh 3⟩ : TCall DemoFrame DemoPose).Writes s0 "b" "a" ⟨5, sh 3⟩ ∧
    trun [.update "a" "a" ⟨2, sh 9⟩, .add "b" "b" ⟨4, sh 4⟩, .remove "c" "a"] s1 = some s ∧
    Untouched "b" "a" [.update "a" "a" ⟨2, sh 9⟩, .add "b" "b" ⟨4, sh 4⟩, .remove "c" "a"] s1 ∧
    getTransform "b" "a" s = .ok ⟨5, sh 3⟩ s ∧ getTransform "a" "b" s = .ok ⟨5, sh (-3)⟩ s ∧
    containsEdge "b" "b" s = .ok true s ∧ containsEdge "a" "a" s = .ok true s :=
  ⟨_, _, _, rfl, rfl, ⟨rfl, rfl, rfl⟩, rfl,
    ⟨fun tf => ⟨fun h => absurd h.1 (by decide), fun h => absurd h.2.1 (by decide)⟩, rfl,
      ⟨fun tf => ⟨fun h => absurd h.2.1 (by decide), fun h => absurd h.1 (by decide)⟩, rfl, rfl, trivial⟩⟩,
    rfl, rfl, rfl, rfl⟩

open Classical in
private theorem split_at_write {a b : FrameId} {cs : List (TCall F T)} (hab : a ≠ b) :
    ∀ {s s' : GS F (Tf T)}, Sound s → trun cs s = some s' → s'.Conn a b → (s.Conn a b ∧ Untouched a b cs s) ∨
      ∃ cs1 w cs2 s0 s1 tf, cs = cs1 ++ w :: cs2 ∧ trun cs1 s = some s0 ∧ Sound s0 ∧ texec w s0 = .ok () s1 ∧
        trun cs2 s1 = some s' ∧ Untouched a b cs2 s1 ∧ (w.Writes s0 a b tf ∨ w.Writes s0 b a tf) := by
  induction cs with
  | nil => intro s s' _ ht hc; cases ht; exact .inl ⟨hc, trivial⟩
  | cons c cs ih =>
    intro s s' h ht hc
    unfold trun at ht
    cases hx : texec c s with
    | ok u s1 =>
      simp only [hx] at ht
      obtain ⟨k1, k2⟩ := step_pair_ns h true (by simpa using hx)
      rcases ih k1 ht hc with ⟨i1, i2⟩ | ⟨cs1, w, cs2, s0, s2, tf, rfl, i1, i2, i3⟩
      · by_cases hw : ∃ tf, c.Writes s a b tf ∨ c.Writes s b a tf
        · obtain ⟨tf, hw⟩ := hw
          exact .inr ⟨[], c, cs, s, s1, tf, rfl, rfl, h, hx, ht, i2, hw⟩
        · simp only [not_exists, not_or] at hw
          left
          refine ⟨?_, ?_⟩
          · obtain ⟨p, hp⟩ := conn_of_edgeProperty.1 i1
            rcases k2 a b hab with ⟨i, -⟩ | ⟨i, -⟩ | ⟨i, -⟩ | ⟨-, p', i, -⟩ | ⟨-, p', i, -⟩
            · exact conn_of_edgeProperty.2 ⟨p, (i p).1 hp⟩
            · exact conn_of_edgeProperty.2 ⟨p, (i p).1 hp⟩
            · exact absurd i1 i
            · exact absurd i (hw p').1
            · exact absurd i (hw p').2
          · unfold Untouched
            simp only [hx]
            exact ⟨hw, i1, i2⟩
      · refine .inr ⟨c :: cs1, w, cs2, s0, s2, tf, rfl, ?_, i2, i3⟩
        unfold trun
        simp only [hx]
        exact i1
    | throw x s1 =>
      simp only [hx] at ht
      obtain ⟨k1, k2⟩ := step_pair_ns h false (by simpa using ⟨x, hx⟩)
      rcases ih k1 ht hc with ⟨i1, i2⟩ | ⟨cs1, w, cs2, s0, s2, tf, rfl, i1, i2, i3⟩
      · left
        refine ⟨?_, ?_⟩
        · obtain ⟨p, hp⟩ := conn_of_edgeProperty.1 i1
          rcases k2 a b hab with ⟨i, -⟩ | ⟨i, -⟩ | ⟨i, -⟩ | ⟨i, -⟩ | ⟨i, -⟩
          · exact conn_of_edgeProperty.2 ⟨p, (i p).1 hp⟩
          · exact conn_of_edgeProperty.2 ⟨p, (i p).1 hp⟩
          · exact absurd i1 i
          · cases i
          · cases i
        · unfold Untouched
          simp only [hx]
          exact ⟨i1, i2⟩
      · refine .inr ⟨c :: cs1, w, cs2, s0, s2, tf, rfl, ?_, i2, i3⟩
        unfold trun
        simp only [hx]
        exact i1
    | ub m => rw [hx] at ht; cases ht

/-- And nothing else is ever read: for every two different frames that are connected there is a call in the history that wrote the transform
between them, and after it the pair was not touched. -/
theorem C86_who_wrote (cs : List (TCall F T)) {s : GS F (Tf T)} (h : trun cs init = some s) {a b : FrameId} (hab : a ≠ b)
    (hc : s.Conn a b) : ∃ cs1 w cs2 s0 s1 tf, cs = cs1 ++ w :: cs2 ∧ trun cs1 init = some s0 ∧ texec w s0 = .ok () s1 ∧
      trun cs2 s1 = some s ∧ Untouched a b cs2 s1 ∧
      ((w.Writes s0 a b tf ∧ getTransform a b s = .ok tf s) ∨ (w.Writes s0 b a tf ∧ getTransform b a s = .ok tf s)) := by
  have hno : ¬ (init : GS F (Tf T)).Conn a b := by
    rw [conn_of_edgeProperty]
    rintro ⟨p, hp⟩
    obtain ⟨u, v, e, hu, -⟩ := getEdgeProperty_ok hp
    cases hu
  rcases split_at_write hab Sound.init h hc with ⟨i, -⟩ | ⟨cs1, w, cs2, s0, s1, tf, rfl, i1, i2, i3, i4, i5, i6⟩
  · exact absurd i hno
  · have g1 := (step_pair_ns i2 true (by simpa using i3)).1
    have g := trun_sound g1 i4
    refine ⟨cs1, w, cs2, s0, s1, tf, rfl, i1, i3, i4, i5, ?_⟩
    rcases i6 with i6 | i6
    · exact .inl ⟨i6, direct g (reads_untouched hab g1 (reads_written hab i2 i3 i6) i5 i4).1⟩
    · have r := reads_written hab.symm i2 i3 i6
      exact .inr ⟨i6, direct g (reads_untouched hab g1 ⟨r.2, r.1⟩ i5 i4).2⟩

/-- the pair b-c was written by the second call, in the other direction than asked, and not since -/
example : ∃ s0 s1 s, trun [.add "a" "b" ⟨7, sh 1⟩] (init : GS DemoFrame (Tf DemoPose)) = some s0 ∧
    texec (.add "c" "b" ⟨8, sh 2⟩) s0 = .ok () s1 ∧ trun [.update "a" "b" ⟨3, sh 4⟩] s1 = some s ∧ s.Conn "b" "c" ∧
    (TCall.add "c" "b" ⟨8, sh 2⟩ : TCall DemoFrame DemoPose).Writes s0 "c" "b" ⟨8, sh 2⟩ ∧ getTransform "c" "b" s = .ok ⟨8, sh 2⟩ s ∧
    getTransform "b" "c" s = .ok ⟨8, sh (-2)⟩ s :=
  ⟨_, _, _, rfl, rfl, rfl, rfl, ⟨rfl, rfl, rfl⟩, rfl, rfl⟩

/-- One call ends a connection of two different frames only if it names it: `remove_edge` of the pair or `disconnectFrame` of one of the two frames. -/
theorem C86_cut (cs : List (TCall F T)) (c : TCall F T) {s s' : GS F (Tf T)}
    (h : trun cs init = some s) (h' : trun [c] s = some s') {a b : FrameId} (hab : a ≠ b) (hc : s.Conn a b) (hc' : ¬ s'.Conn a b) : c.Cuts s a b := by
  have g := trun_sound Sound.init h
  obtain ⟨p, hp⟩ := conn_of_edgeProperty.1 hc
  have key : ∀ ok : Bool, (if ok then texec c s = .ok () s' else ∃ x, texec c s = .throw x s') → c.Cuts s a b := by
    intro ok hx
    rcases (step_pair_ns g ok hx).2 a b hab with ⟨i, -⟩ | ⟨i, -⟩ | ⟨-, i⟩ | ⟨-, p', -, i⟩ | ⟨-, p', -, i⟩
    · exact absurd (conn_of_edgeProperty.2 ⟨p, (i p).2 hp⟩) hc'
    · exact absurd (conn_of_edgeProperty.2 ⟨p, (i p).2 hp⟩) hc'
    · exact i
    · exact absurd (conn_of_edgeProperty.2 ⟨_, i⟩) hc'
    · exact absurd (conn_of_edgeProperty.2 ⟨_, i⟩) hc'
  simp only [trun] at h'
  cases hx : texec c s with
  | ok u s1 => simp only [hx, Option.some.injEq] at h'; subst h'; exact key true (by simpa using hx)
  | throw x s1 => simp only [hx, Option.some.injEq] at h'; subst h'; exact key false (by simpa using ⟨x, hx⟩)
  | ub m => simp [hx] at h'

/-- `disconnectFrame(c)` and `removeTransform` by vertices cut b-c; `removeTransform(a, b)` and refused calls do not -/
example : ∃ s s1 s2 s3 s4, trun C86_demo init = some s ∧ trun [.other (.disconnectFrame "c")] s = some s1 ∧
    trun [.removeD 2 1] s = some s2 ∧ trun [.remove "a" "b"] s = some s3 ∧ trun [.other (.removeFrame "c")] s = some s4 ∧
    containsEdge "b" "c" s = .ok true s ∧ containsEdge "b" "c" s1 = .ok false s1 ∧ containsEdge "b" "c" s2 = .ok false s2 ∧
    containsEdge "b" "c" s3 = .ok true s3 ∧ containsEdge "b" "c" s4 = .ok true s4 ∧
    (TCall.removeD 2 1 : TCall DemoFrame DemoPose).Cuts s "b" "c" :=
  ⟨_, _, _, _, _, rfl, rfl, rfl, rfl, rfl, rfl, rfl, rfl, rfl, rfl, .inr ⟨rfl, rfl⟩⟩

/-- The overloads with vertices or an edge do the same as the calls by names, for the descriptors of those frames. -/
theorem C86_overloads (cs : List (TCall F T)) {s : GS F (Tf T)} (h : trun cs init = some s) {a b : FrameId}
    {u v : VId} (ha : getVertex a s = .ok u s) (hb : getVertex b s = .ok v s) (tf : Tf T) :
    updateTransformD u v tf s = updateTransform a b tf s ∧ addTransformD u v tf s = addTransform a b tf s ∧
    removeTransformD u v s = removeTransform a b s ∧ getTransformV u v s = getTransform a b s ∧
    ∀ e, getEdge a b s = .ok e s → updateTransformE e.id tf s = updateTransform a b tf s := by
  have g := trun_sound Sound.init h
  replace ha : s.g.vertexOf a = some u := by
    unfold getVertex at ha
    cases hx : s.g.vertexOf a <;> simp_all
  replace hb : s.g.vertexOf b = some v := by
    unfold getVertex at hb
    cases hx : s.g.vertexOf b <;> simp_all
  refine ⟨setEdgePropertyD_eq g.1 ha hb tf, addEdgeD_eq ha hb tf, removeEdgeD_eq g.1 ha hb, ?_, ?_⟩
  · unfold getTransform; simp only [ha, hb]
  · intro e he
    unfold getEdge at he
    simp only [ha, hb] at he
    cases hx : s.g.edge u v with
    | none => simp [hx] at he
    | some r =>
      simp only [hx, Res.ok.injEq, and_true] at he
      subst he
      obtain ⟨m, s1, t1⟩ := G.edge_some hx
      unfold updateTransformE
      rw [findE_of g.1 m]
      show setEdgePropertyD r.src r.tgt tf s = _
      rw [s1, t1]
      exact setEdgePropertyD_eq g.1 ha hb tf

/-- the descriptors of b and c, and of the edge between them -/
example : ∃ s e s1, trun C86_demo init = some s ∧ getVertex "b" s = .ok 1 s ∧ getVertex "c" s = .ok 2 s ∧ getEdge "c" "b" s = .ok e s ∧
    e.id = 3 ∧ updateTransformE 3 ⟨9, sh 6⟩ s = .ok () s1 ∧ getTransform "c" "b" s1 = .ok ⟨9, sh 6⟩ s1 ∧
    getTransform "b" "c" s1 = .ok ⟨9, sh (-6)⟩ s1 ∧ addTransformD 2 1 ⟨9, sh 6⟩ s = .throw (.edgeAlreadyExists "c" "b") s ∧
    updateTransformD 2 0 ⟨9, sh 6⟩ s = .throw (.unknownEdge "c" "a") s ∧ getTransformV 2 0 s = .ok ⟨0, sh (-3)⟩ s :=
  ⟨_, _, _, rfl, rfl, rfl, rfl, rfl, rfl, rfl, rfl, rfl, rfl, rfl⟩

/-- what the edge overload of `getTransform` returns: the pose of the pair, but the time zero -/
theorem C86_by_edge (cs : List (TCall F T)) {s : GS F (Tf T)} (h : trun cs init = some s) {a b : FrameId}
    {e : ERec (Tf T)} (he : getEdge a b s = .ok e s) : ∃ tf, getTransform a b s = .ok tf s ∧ getTransformE e.id s = .ok ⟨0, tf.pose⟩ s := by
  have g := trun_sound Sound.init h
  have hp : getEdgeProperty a b s = .ok e.prop s := by unfold getEdgeProperty; rw [he]
  refine ⟨_, direct g hp, ?_⟩
  obtain ⟨u, v, e', hu, hv, hx, -⟩ := getEdgeProperty_ok hp
  unfold getEdge at he
  simp only [hu, hv, hx, Res.ok.injEq, and_true] at he
  subst he
  unfold getTransformE
  rw [findE_of g.1 (G.edge_some hx).1]

/-- the edge b-c -/
example : ∃ s e, trun C86_demo init = some s ∧ getEdge "b" "c" s = .ok e s ∧ getTransform "b" "c" s = .ok ⟨8, sh 2⟩ s ∧
    getTransformE e.id s = .ok ⟨0, sh 2⟩ s := ⟨_, _, rfl, rfl, rfl, rfl⟩

/-- a descriptor of an edge that was removed, even if the frames are connected again -/
example : ∃ s e s1, trun C86_demo init = some s ∧ getEdge "b" "c" s = .ok e s ∧
    trun [.remove "b" "c", .add "b" "c" ⟨8, sh 2⟩] s = some s1 ∧ getTransformE e.id s1 = .ub "getTransform: dangling edge" ∧
    updateTransformE e.id ⟨1, sh 1⟩ s1 = .ub "updateTransform: dangling edge" := ⟨_, _, _, rfl, rfl, rfl, rfl, rfl⟩

/-- every transform between frames that are not connected directly has the time zero, whatever the times on the way -/
theorem C86_far_time (cs : List (TCall F T)) {s : GS F (Tf T)} (h : trun cs init = some s) {a b : FrameId}
    (hc : ¬ s.Conn a b) {tf : Tf T} (ht : getTransform a b s = .ok tf s) : tf.time = 0 := by
  have g := trun_sound Sound.init h
  cases hu : s.g.vertexOf a with
  | none => unfold getTransform at ht; simp [hu] at ht
  | some u =>
    cases hv : s.g.vertexOf b with
    | none => unfold getTransform at ht; simp [hu, hv] at ht
    | some v =>
      rcases getTransform_eq g.1 hu hv with ⟨-, h1⟩ | ⟨q, h1, h2⟩ | ⟨-, -, -, h3⟩ | ⟨-, -, l, t, -, -, -, h5⟩
      · rw [h1] at ht; cases ht
      · exact absurd (conn_of_edgeProperty.2 ⟨q, h1⟩) hc
      · rw [h3] at ht; cases ht
      · rw [h5] at ht; cases ht; rfl


/-- both edges on the way from a to c carry times -/
example : ∃ s, trun C86_demo init = some s ∧ containsEdge "a" "c" s = .ok false s ∧ getTransform "a" "c" s = .ok ⟨0, sh 3⟩ s :=
  ⟨_, rfl, rfl, rfl⟩

/-- The edge overload loses the time stamp. -/
theorem C86_edge_fails : ¬ C86_statement DemoFrame DemoPose := by
  intro h
  have := (h [] (.add "a" "b" ⟨7, sh 1⟩) [] init _ _ "a" "b" ⟨7, sh 1⟩ rfl ⟨rfl, rfl, rfl⟩ rfl rfl trivial).2.2 _ rfl
  have := congrArg Res.val? this
  revert this
  decide +kernel

/-- A transform from a frame to itself: what is read is the inverse of what was written. -/
theorem C86_self_edge_fails : ∃ s0 s1, trun [.add "a" "a" ⟨7, sh 1⟩] (init : GS DemoFrame (Tf DemoPose)) = some s0 ∧
    texec (.update "a" "a" ⟨8, sh 2⟩) s0 = .ok () s1 ∧ getTransform "a" "a" s1 = .ok ⟨8, sh (-2)⟩ s1 := ⟨_, _, rfl, rfl, rfl⟩

/-- the time stamp is written and read back with the transform, in both directions -/
example : (trun [.add "a" "b" ⟨7, sh 1⟩, .update "b" "a" ⟨5, sh 3⟩] (init : GS DemoFrame (Tf DemoPose))).map
    (fun s => ((getTransform "a" "b" s).val?, (getTransform "b" "a" s).val?)) = some (some ⟨5, sh (-3)⟩, some ⟨5, sh 3⟩) := by
  decide +kernel

end Verif
