import Verif.Lemmas.QueueRun
import Verif.Lemmas.SelfEdge
set_option linter.unusedSectionVars false
/-! The frame events of graphs with self edges: a frame that is announced twice is never removed. -/

namespace Verif
variable {F E : Type} [FrameProp F] [EdgeProp E]

/-- Announcements of one frame: is it there, and has it been announced once too often. -/
def frameRun : List Bool → Bool × Bool → Option (Bool × Bool)
  | [], s => some s
  | true :: l, (b, k) => frameRun l (true, k || b)
  | false :: l, (b, k) => if b && !k then frameRun l (false, false) else none

theorem frameRun_append (l l' : List Bool) (s : Bool × Bool) : frameRun (l ++ l') s = (frameRun l s).bind (frameRun l') := by
  induction l generalizing s with
  | nil => rfl
  | cons t l ih =>
    obtain ⟨b, k⟩ := s
    cases t
    · simp only [List.cons_append, frameRun]
      split
      · exact ih _
      · rfl
    · simp only [List.cons_append, frameRun]; exact ih _

/-- the record fits the graph -/
def FrameFits (f : FrameId) (g : G F E) (s : Bool × Bool) : Prop := s.1 = (g.vertexOf f).isSome ∧ (s.2 = true → ∃ u, SelfAt g f u)

theorem FrameFits.step {f : FrameId} {g g' : G F E} {x : Event × G F E} {s : Bool × Bool} (h : FrameFits f g s) (hs : GStep g x g') (hw : WF g)
    (hd : ¬ x.1.isDup g) : ∃ s', frameRun ([x.1].filterMap (Queue.ftag f)) s = some s' ∧ FrameFits f g' s' := by
  obtain ⟨b, k⟩ := s
  obtain ⟨h1, h2⟩ := h
  simp only at h1 h2
  have hk : ∀ {k : Bool}, (k = true → ∃ u, SelfAt g f u) → k = true → ∃ u, SelfAt g' f u :=
    fun h2 hk => (h2 hk).elim (fun u hu => ⟨u, hu.step hs hw⟩)
  cases hs with
  | @addV f' p hn hp =>
    by_cases hf : f' = f
    · subst hf
      have hb : b = false := by rw [h1, hn]; rfl
      subst hb
      refine ⟨(true, k), by simp [Queue.ftag, frameRun], ?_, hk h2⟩
      rw [G.vertexOf_addVertex p hn]; simp
    · refine ⟨(b, k), by simp [Queue.ftag, hf, frameRun], ?_, hk h2⟩
      rw [G.vertexOf_addVertex p hn, if_neg hf]; exact h1
  | dupV hv => exact absurd (by simp [Event.isDup, hv]) hd
  | addE ha hb hn => exact ⟨(b, k), rfl, h1, hk h2⟩
  | rmE ha hb k1 k2 hg1 hg2 =>
    refine ⟨(b, k), rfl, ?_, hk h2⟩
    obtain ⟨-, rfl⟩ := G.removeEdge_some hg1
    obtain ⟨-, rfl⟩ := G.removeEdge_some hg2
    exact h1
  | setP ha hb k1 k2 => exact ⟨(b, k), rfl, h1, hk h2⟩
  | @rmV f' v hv hd' =>
    by_cases hf : f' = f
    · subst hf
      have hb : b = true := by rw [h1, hv]; rfl
      have hkf : k = false := by
        cases k with
        | false => rfl
        | true =>
          obtain ⟨u, hu⟩ := hk h2 rfl
          have := hu.1
          rw [G.vertexOf_removeVertex] at this
          simp at this
      subst hb; subst hkf
      refine ⟨(false, false), by simp [Queue.ftag, frameRun], ?_, by simp⟩
      rw [G.vertexOf_removeVertex]; simp
    · refine ⟨(b, k), by simp [Queue.ftag, hf, frameRun], ?_, hk h2⟩
      rw [G.vertexOf_removeVertex, if_neg hf]; exact h1

theorem FrameFits.steps {P : G F E → Event → Prop} {f : FrameId} {g g' : G F E} {l : List (Event × G F E)} (hs : GSteps P g l g') :
    ∀ {s : Bool × Bool}, FrameFits f g s → WF g → (∀ g e, P g e → ¬ e.isDup g) →
    ∃ s', frameRun ((l.map Prod.fst).filterMap (Queue.ftag f)) s = some s' ∧ FrameFits f g' s' := by
  induction hs with
  | nil => intro s h _ _; exact ⟨s, rfl, h⟩
  | @cons g g' g'' x l hs hP _ ih =>
    intro s h hw hd
    obtain ⟨s1, k1, k2⟩ := h.step hs hw (hd _ _ hP)
    obtain ⟨s2, k3, k4⟩ := ih k2 (hs.wf hw) hd
    refine ⟨s2, ?_, k4⟩
    have : ((x :: l).map Prod.fst).filterMap (Queue.ftag f) = [x.1].filterMap (Queue.ftag f) ++ (l.map Prod.fst).filterMap (Queue.ftag f) := by
      rw [← List.filterMap_append]; rfl
    rw [this, frameRun_append, k1]
    exact k3

namespace GS

/-- adding an edge from a frame to itself: the frame is known already, or it is announced twice and the edge is added -/
theorem addEdge_loop {a : FrameId} {p : E} {s s' : GS F E} (hw : WF s.g) (h : (addEdge a a p s).st? = some s') :
    ((∃ u, s.g.vertexOf a = some u) ∧ Advances (fun g e => ¬ e.isDup g) s s') ∨
    (s.g.vertexOf a = none ∧ (∃ u, SelfAt s'.g a u) ∧ (∀ f, f ≠ a → s'.g.vertexOf f = s.g.vertexOf f) ∧ (∀ f u, f ≠ a → SelfAt s.g f u → SelfAt s'.g f u) ∧
      ∃ i, s'.trace.map Prod.fst = s.trace.map Prod.fst ++ [.frameAdded a, .frameAdded a, .edgeAdded a a i]) := by
  cases hv : s.g.vertexOf a with
  | some u =>
    refine Or.inl ⟨⟨u, rfl⟩, ?_⟩
    unfold addEdge at h
    simp only [hv, orCreate] at h
    exact (addEdgeD_advances hw hv hv h).mono (by rintro g e rfl; simp [Event.isDup])
  | none =>
    refine Or.inr ⟨rfl, ?_⟩
    obtain ⟨l, j1, -⟩ := addEdge_advances hw h
    have hv1 : (s.g.addVertex a (FrameProp.setId a FrameProp.dflt)).1.vertexOf a = some s.g.nextV := by
      rw [G.vertexOf_addVertex _ hv]; simp
    have hv2 : (s.g.addVertex a (FrameProp.setId a FrameProp.dflt)).2 = s.g.nextV := by rw [G.addVertex_new _ hv]
    have hv3 : (s.g.addVertex a (FrameProp.setId a FrameProp.dflt)).1.addVertex a (FrameProp.setId a FrameProp.dflt) =
        ((s.g.addVertex a (FrameProp.setId a FrameProp.dflt)).1, s.g.nextV) := by
      generalize (s.g.addVertex a (FrameProp.setId a FrameProp.dflt)).1 = g1 at hv1
      unfold G.addVertex
      have hv1 : g1.labels.get a = some s.g.nextV := hv1
      rw [hv1]
    have hed : (s.g.addVertex a (FrameProp.setId a FrameProp.dflt)).1.edges = s.g.edges := by rw [G.addVertex_new _ hv]
    have hw1 : WF (s.g.addVertex a (FrameProp.setId a FrameProp.dflt)).1 := (GStep.addV (p := FrameProp.setId a FrameProp.dflt) hv (FrameProp.getId_setId _ _)).wf hw
    have hne : ∀ f, f ≠ a → (s.g.addVertex a (FrameProp.setId a FrameProp.dflt)).1.vertexOf f = s.g.vertexOf f := by
      intro f hf
      rw [G.vertexOf_addVertex _ hv, if_neg (Ne.symm hf)]
    unfold addEdge at h
    simp only [hv, orCreate, addVertexN, notify, hv2, hv3] at h
    generalize (s.g.addVertex a (FrameProp.setId a FrameProp.dflt)).1 = g1 at h hv1 hed hw1 hne
    obtain ⟨ru, hu, hua⟩ := hw1.live_of_vertexOf hv1
    have he : g1.edge s.g.nextV s.g.nextV = none := by
      cases hh : g1.edge s.g.nextV s.g.nextV with
      | none => rfl
      | some e =>
        obtain ⟨m1, m2, -⟩ := G.edge_some hh
        rw [hed] at m1
        obtain ⟨r, hr, hr2⟩ := hw.esrc e m1
        have h3 := hw.vlt r hr
        rw [hr2, m2] at h3
        exact absurd h3 (Nat.lt_irrefl _)
    unfold addEdgeD at h
    simp only [hu, he] at h
    split at h
    · simp only [Res.st?, Option.some.injEq, notify] at h
      subst h
      refine ⟨⟨s.g.nextV, hv1, _, by simp [G.addEdge]; exact Or.inr (Or.inl rfl), rfl, rfl⟩, hne, fun f u _ hs => hs.steps j1 hw, ?_⟩
      simp [hua]
    · rename_i hh
      exact absurd hh (addEdgeToTreeViews_not_throw (e := ⟨g1.nextE, s.g.nextV, s.g.nextV, p⟩) edge_addPair_fst edge_addPair_snd)
    · simp [Res.st?] at h

theorem exec_fits {f : FrameId} {c : Cmd F E} {s s' : GS F E} {st : Bool × Bool} (hw : WF s.g) (hf : FrameFits f s.g st)
    (h : (exec c s).st? = some s') : ∃ tr st', s'.trace.map Prod.fst = s.trace.map Prod.fst ++ tr ∧
      frameRun (tr.filterMap (Queue.ftag f)) st = some st' ∧ FrameFits f s'.g st' := by
  have hclean : Advances (fun g e => ¬ e.isDup g) s s' → ∃ tr st', s'.trace.map Prod.fst = s.trace.map Prod.fst ++ tr ∧
      frameRun (tr.filterMap (Queue.ftag f)) st = some st' ∧ FrameFits f s'.g st' := by
    rintro ⟨l, j1, j2⟩
    obtain ⟨st', k1, k2⟩ := FrameFits.steps j1 hf hw (fun _ _ h => h)
    exact ⟨l.map Prod.fst, st', by rw [j2, List.map_append], k1, k2⟩
  by_cases hn : c.noSelf
  · exact hclean ((exec_advances hw h).mono (fun g e he => (he hn).2))
  · cases c with
    | addEdge o t p =>
      have hot : o = t := by simpa [Cmd.noSelf] using hn
      subst hot
      rcases addEdge_loop hw h with ⟨-, h1⟩ | ⟨h0, h1, h2, h3, i, h4⟩
      · exact hclean h1
      · obtain ⟨b, k⟩ := st
        refine ⟨[.frameAdded o, .frameAdded o, .edgeAdded o o i], ?_⟩
        by_cases hfo : f = o
        · subst hfo
          obtain ⟨u, hu⟩ := h1
          refine ⟨(true, true), h4, ?_, by simp [hu.1], fun _ => ⟨u, hu⟩⟩
          simp [Queue.ftag, frameRun]
          rfl
        · refine ⟨(b, k), h4, by simp [Queue.ftag, Ne.symm hfo]; rfl, ?_, ?_⟩
          · rw [h2 f hfo]; exact hf.1
          · exact fun hk => (hf.2 hk).elim (fun u hu => ⟨u, h3 f u hfo hu⟩)
    | _ => exact absurd trivial hn

theorem run_fits {f : FrameId} {cs : List (Cmd F E)} : ∀ {s s' : GS F E} {st : Bool × Bool}, WF s.g → FrameFits f s.g st → run cs s = some s' →
    ∃ tr st', s'.trace.map Prod.fst = s.trace.map Prod.fst ++ tr ∧
      frameRun (tr.filterMap (Queue.ftag f)) st = some st' ∧ FrameFits f s'.g st' := by
  induction cs with
  | nil =>
    intro s s' st _ hf h
    obtain rfl := Option.some.inj h
    exact ⟨[], st, by simp, rfl, hf⟩
  | cons c cs ih =>
    intro s s' st hw hf h
    obtain ⟨s1, h1, h2⟩ := run_cons h
    obtain ⟨tr, st1, k1, k2, k3⟩ := exec_fits hw hf h1
    obtain ⟨tr2, st2, k4, k5, k6⟩ := ih ((exec_advances hw h1).wf hw) k3 h2
    refine ⟨tr ++ tr2, st2, by rw [k4, k1, List.append_assoc], ?_, k6⟩
    rw [List.filterMap_append, frameRun_append, k2]
    exact k5

end GS

namespace Queue

/-- what is queued about a frame, if the frame can be announced twice -/
def LShape (b0 b1 k1 : Bool) (l : List Bool) : Prop :=
  if k1 then b1 = true ∧ l.getLast?.getD b0 = true else FShape b0 b1 l

theorem LShape.after {b0 b1 k1 : Bool} {l : List Bool} (h : LShape b0 b1 k1 l) : l.getLast?.getD b0 = b1 := by
  cases k1
  · exact FShape.after h
  · obtain ⟨rfl, h⟩ := h
    exact h

theorem frame_shape_loose {f : FrameId} {b0 k0 : Bool} (h0 : k0 = true → b0 = true) {es : List Event} : ∀ {b1 k1 : Bool},
    frameRun (es.filterMap (ftag f)) (b0, k0) = some (b1, k1) → LShape b0 b1 k1 ((queued [] es).filterMap (ftag f)) := by
  induction es using List.reverseRecOn with
  | nil =>
    intro b1 k1 h
    obtain ⟨rfl, rfl⟩ := Prod.mk.inj (Option.some.inj h)
    cases k0
    · cases b0 <;> simp [LShape, FShape, queued]
    · simp [LShape, h0, queued]
  | append_singleton es e ih =>
    intro b1 k1 h
    rw [List.filterMap_append, frameRun_append] at h
    cases hr : frameRun (es.filterMap (ftag f)) (b0, k0) with
    | none => simp [hr] at h
    | some st =>
      obtain ⟨b, k⟩ := st
      have hi := ih hr
      rw [hr, Option.bind_some] at h
      rw [queued_snoc, ftags_insert]
      cases ht : ftag f e with
      | none =>
        simp only [List.filterMap_cons, ht, List.filterMap_nil, frameRun] at h
        obtain ⟨rfl, rfl⟩ := Prod.mk.inj (Option.some.inj h)
        exact hi
      | some t =>
        cases t
        · simp only [List.filterMap_cons, ht, List.filterMap_nil, frameRun] at h
          split at h
          · rename_i hbk
            obtain ⟨rfl, rfl⟩ := Prod.mk.inj (Option.some.inj h)
            simp only [Bool.and_eq_true, Bool.not_eq_true'] at hbk
            obtain ⟨rfl, rfl⟩ := hbk
            have hi : FShape b0 true _ := hi
            have := hi.insert (f := f) (e := e) (by intro t h'; rw [ht] at h'; simpa using h'.symm)
            rw [ftags_insert, frameAfter_eq, ht] at this
            simpa [LShape, ht] using this
          · simp at h
        · simp only [List.filterMap_cons, ht, List.filterMap_nil, frameRun] at h
          obtain ⟨rfl, rfl⟩ := Prod.mk.inj (Option.some.inj h)
          cases b
          · cases k
            · have hi : FShape b0 false _ := hi
              have := hi.insert (f := f) (e := e) (by intro t h'; rw [ht] at h'; simpa using h'.symm)
              rw [ftags_insert, frameAfter_eq, ht] at this
              simpa [LShape, ht] using this
            · exact absurd hi.1 (by simp)
          · simp [LShape]

theorem frames_batches_loose {f : FrameId} {bs : List (List Event)} : ∀ {b0 k0 b1 k1 : Bool}, (k0 = true → b0 = true) →
    frameRun (bs.flatten.filterMap (ftag f)) (b0, k0) = some (b1, k1) → frameAfter f b0 (bs.flatMap (queued [])) = b1 := by
  induction bs with
  | nil =>
    intro b0 k0 b1 k1 _ h
    obtain ⟨rfl, rfl⟩ := Prod.mk.inj (Option.some.inj h)
    rfl
  | cons b bs ih =>
    intro b0 k0 b1 k1 h0 h
    rw [List.flatten_cons, List.filterMap_append, frameRun_append] at h
    cases hr : frameRun (b.filterMap (ftag f)) (b0, k0) with
    | none => simp [hr] at h
    | some st =>
      obtain ⟨b2, k2⟩ := st
      rw [hr, Option.bind_some] at h
      have hs := frame_shape_loose h0 hr
      rw [List.flatMap_cons, frameAfter_append, frameAfter_eq f b0 (queued [] b), hs.after]
      refine ih ?_ h
      rintro rfl
      exact hs.1

end Queue
end Verif
