import Verif.Lemmas.StructViews
import Verif.Lemmas.ForestHistory
import Verif.Lemmas.ItemClear

set_option linter.unusedSectionVars false
/-! `EnvireGraph::clear` of a graph without cycles that has subscribed tree views. -/

namespace Verif
variable {F E : Type} [FrameProp F] [EdgeProp E]

namespace GS

theorem removeEdgeBoth_blind {a b : FrameId} {u v : VId} {s s' : GS F E} (h : removeEdgeBoth a b u v s = .ok () s') :
    removeEdgeBoth a b u v (blind s) = .ok () (blind s') := by
  have hg : (blind s).g = s.g := rfl
  unfold removeEdgeBoth at h ⊢
  rw [hg]
  cases h1 : s.g.edge u v with
  | none => simp only [h1, reduceCtorEq] at h
  | some e1 =>
    cases h2 : s.g.edge v u with
    | none => simp only [h1, h2, reduceCtorEq] at h
    | some e2 =>
      simp only [h1, h2] at h ⊢
      cases h3 : s.g.removeEdge e1.id with
      | none => simp only [h3, reduceCtorEq] at h
      | some g1 =>
        simp only [h3] at h ⊢
        cases h4 : g1.removeEdge e2.id with
        | none => simp only [h4, reduceCtorEq] at h
        | some g2 =>
          simp only [h4] at h ⊢
          revert h
          generalize removeEdgeFromTreeViews u v (notify _ _).subs (notify _ _).views = R
          cases R with
          | ok x vs => intro h; simp only [Res.ok.injEq, true_and] at h; subst h; rfl
          | throw x vs => intro h; simp at h
          | ub r => intro h; simp at h

theorem disconnectLoop_blind {v : VId} (n : Nat) : ∀ {s s' : GS F E}, disconnectLoop v n s = .ok () s' →
    disconnectLoop v n (blind s) = .ok () (blind s') := by
  induction n with
  | zero =>
    intro s s' h
    unfold disconnectLoop at h ⊢
    change (match s.g.outEdges v with | [] => _ | _ :: _ => _) = _
    cases hes : s.g.outEdges v with
    | nil => simp only [hes, Res.ok.injEq, true_and] at h; subst h; rfl
    | cons e es => simp [hes] at h
  | succ n ih =>
    intro s s' h
    unfold disconnectLoop at h ⊢
    have hg : (blind s).g = s.g := rfl
    rw [hg]
    cases hes : s.g.outEdges v with
    | nil => simp only [hes, Res.ok.injEq, true_and] at h; subst h; rfl
    | cons e es =>
      simp only [hes] at h ⊢
      have key : ∀ s1, removeEdgeD v e.tgt s = .ok () s1 → removeEdgeD v e.tgt (blind s) = .ok () (blind s1) := by
        intro s1 h1
        unfold removeEdgeD at h1 ⊢
        rw [hg]
        cases ha : s.g.findV v with
        | none => simp only [ha, reduceCtorEq] at h1
        | some ra =>
          cases hb : s.g.findV e.tgt with
          | none => simp only [ha, hb, reduceCtorEq] at h1
          | some rb =>
            simp only [ha, hb] at h1 ⊢
            exact removeEdgeBoth_blind h1
      cases hx : removeEdgeD v e.tgt s with
      | ok a s1 =>
        rw [key s1 hx]
        simp only [hx] at h
        exact ih h
      | throw x s1 => simp only [hx, reduceCtorEq] at h
      | ub r => simp only [hx, reduceCtorEq] at h

theorem disconnectFrame_blind {f : FrameId} {s s' : GS F E} (h : disconnectFrame f s = .ok () s') :
    disconnectFrame f (blind s) = .ok () (blind s') := by
  unfold disconnectFrame at h ⊢
  have hg : (blind s).g = s.g := rfl
  rw [hg]
  cases hv : s.g.vertexOf f with
  | none => simp only [hv, reduceCtorEq] at h
  | some v => simp only [hv] at h ⊢; exact disconnectLoop_blind _ h

theorem removeFrame_blind (f : FrameId) (s : GS F E) : removeFrame f (blind s) = (removeFrame f s).mapSt blind := by
  unfold removeFrame
  have hg : (blind s).g = s.g := rfl
  rw [hg]
  cases s.g.vertexOf f with
  | none => rfl
  | some v =>
    simp only
    split <;> rfl

end GS

namespace EG
open GS

theorem clearList_blind (f : FrameId) (v : VId) (t : TypeIdx) (l : List ItemId) : ∀ s : EG E,
    clearList f v t l (blind s) = blind (clearList f v t l s) := by
  induction l with
  | nil => intro s; rfl
  | cons i l ih => intro s; exact ih (notify (.itemRemoved f i) (modFrame v (EFrame.setList t l) s))

theorem clearTypes_blind (f : FrameId) (v : VId) (m : AMap TypeIdx (List ItemId)) : ∀ s : EG E,
    clearTypes f v m (blind s) = blind (clearTypes f v m s) := by
  induction m with
  | nil => intro s; rfl
  | cons p m ih =>
    intro s
    obtain ⟨t, l⟩ := p
    simp only [clearTypes, clearList_blind]
    exact ih (modFrame v (EFrame.eraseType t) (clearList f v t l s))

theorem clearFrame_blind (f : FrameId) (s : EG E) : clearFrame f (blind s) = (clearFrame f s).mapSt blind := by
  unfold clearFrame
  have hg : (blind s).gs.g = s.gs.g := rfl
  rw [hg]
  cases s.gs.g.vertexOf f with
  | none => rfl
  | some v =>
    simp only
    cases s.gs.g.findV v with
    | none => rfl
    | some r => simp only [clearTypes_blind, Res.mapSt]

theorem removeFrame_blind (f : FrameId) (s : EG E) : removeFrame f (blind s) = (removeFrame f s).mapSt blind := by
  unfold removeFrame
  rw [clearFrame_blind]
  cases clearFrame f s with
  | ok a s1 =>
    simp only [Res.mapSt]
    have hg : (blind s1).gs = GS.blind s1.gs := rfl
    rw [hg, GS.removeFrame_blind]
    cases GS.removeFrame f s1.gs <;> rfl
  | throw x s1 => rfl
  | ub r => rfl

theorem forRemove_blind (fs : List FrameId) : ∀ s : EG E, forFrames removeFrame fs (blind s) = (forFrames removeFrame fs s).mapSt blind := by
  induction fs with
  | nil => intro s; rfl
  | cons f fs ih =>
    intro s
    simp only [forFrames, removeFrame_blind]
    cases removeFrame f s with
    | ok a s1 => exact ih s1
    | throw x s1 => rfl
    | ub r => rfl

theorem clearList_views (f : FrameId) (v : VId) (t : TypeIdx) (l : List ItemId) : ∀ s : EG E, GS.Follows s.gs (clearList f v t l s).gs := by
  induction l with
  | nil => intro s; exact GS.Follows.refl _
  | cons i l ih => 
    intro s
    have h : GS.Follows s.gs (notify (.itemRemoved f i) (modFrame v (EFrame.setList t l) s)).gs := GS.Follows.of_edges rfl rfl rfl
    exact h.trans (ih (notify (.itemRemoved f i) (modFrame v (EFrame.setList t l) s)))

theorem clearTypes_views (f : FrameId) (v : VId) (m : AMap TypeIdx (List ItemId)) : ∀ s : EG E, GS.Follows s.gs (clearTypes f v m s).gs := by
  induction m with
  | nil => intro s; exact GS.Follows.refl _
  | cons p m ih =>
    intro s
    have h : GS.Follows (clearList f v p.1 p.2 s).gs (modFrame v (EFrame.eraseType p.1) (clearList f v p.1 p.2 s)).gs :=
      GS.Follows.of_edges rfl rfl rfl
    exact (clearList_views f v p.1 p.2 s).trans (h.trans (ih (modFrame v (EFrame.eraseType p.1) (clearList f v p.1 p.2 s))))

theorem removeFrame_views {f : FrameId} {s s' : EG E} (h : (removeFrame f s).st? = some s') : GS.Follows s.gs s'.gs := by
  have hc : ∀ {s1}, (clearFrame f s).st? = some s1 → GS.Follows s.gs s1.gs := by
    intro s1 h1
    unfold clearFrame at h1
    cases hv : s.gs.g.vertexOf f with
    | none => simp only [hv, Res.st?, Option.some.injEq] at h1; subst h1; exact GS.Follows.refl _
    | some v =>
      simp only [hv] at h1
      cases hr : s.gs.g.findV v with
      | none => simp [hr, Res.st?] at h1
      | some r => simp only [hr, Res.st?, Option.some.injEq] at h1; subst h1; exact clearTypes_views _ _ _ _
  unfold removeFrame at h
  cases hx : clearFrame f s with
  | ok a s1 =>
    rw [hx] at h
    refine (hc (s1 := s1) (by rw [hx]; rfl)).trans ?_
    simp only [GS.removeFrame] at h
    cases hv : s1.gs.g.vertexOf f with
    | none => simp only [hv, base, Res.st?, Option.some.injEq] at h; subst h; exact GS.Follows.refl _
    | some v =>
      simp only [hv] at h
      split at h
      · simp only [base, Res.st?, Option.some.injEq] at h; subst h; exact GS.Follows.refl _
      · simp only [base, Res.st?, Option.some.injEq] at h; subst h; exact GS.Follows.of_edges rfl rfl rfl
  | throw x s1 =>
    rw [hx] at h
    simp only [Res.st?, Option.some.injEq] at h; subst h
    exact hc (by rw [hx]; rfl)
  | ub r => rw [hx] at h; simp [Res.st?] at h

theorem forRemove_views (fs : List FrameId) : ∀ {s s' : EG E}, forFrames removeFrame fs s = .ok () s' → GS.Follows s.gs s'.gs := by
  induction fs with
  | nil => intro s s' h; simp only [forFrames, Res.ok.injEq, true_and] at h; subst h; exact GS.Follows.refl _
  | cons f fs ih =>
    intro s s' h
    simp only [forFrames] at h
    cases hx : removeFrame f s with
    | ok a s1 => rw [hx] at h; exact (removeFrame_views (s' := s1) (by rw [hx]; rfl)).trans (ih h)
    | throw x s1 => rw [hx] at h; simp at h
    | ub r => rw [hx] at h; simp at h

/-- disconnecting the frames of a graph without cycles -/
theorem forDisconnect_forest (fs : List FrameId) : ∀ {s : EG E}, WF s.gs.g → Paired s.gs.g → s.gs.g.Forest → ViewsOk s.gs →
    (∀ f ∈ fs, (s.gs.g.vertexOf f).isSome) →
    ∃ s', forFrames (fun f s => base s.heap (GS.disconnectFrame f s.gs)) fs s = .ok () s' ∧
      forFrames (fun f s => base s.heap (GS.disconnectFrame f s.gs)) fs (blind s) = .ok () (blind s') ∧ GS.Follows s.gs s'.gs := by
  induction fs with
  | nil => intro s _ _ _ _ _; exact ⟨s, rfl, rfl, GS.Follows.refl _⟩
  | cons f fs ih =>
    intro s hw hp hf ho hn
    obtain ⟨v, hv⟩ := Option.isSome_iff_exists.1 (hn f (by simp))
    obtain ⟨s1, h1, h2, h3⟩ := disconnectLoop_follows s.gs.g.edges.length hw hp hf ho (hw.live hv) (List.length_filter_le _ _)
    have hd : GS.disconnectFrame f s.gs = .ok () s1 := by simp only [GS.disconnectFrame, hv, h1]
    have hb : GS.disconnectFrame f (blind s).gs = .ok () (GS.blind s1) := disconnectFrame_blind hd
    have hr : GS.run [.disconnectFrame f] s.gs = some s1 := by
      rw [run_of_exec (c := GS.Cmd.disconnectFrame f) (s1 := s1) (by rw [GS.exec, hd]; rfl)]; rfl
    obtain ⟨s', a1, a2, a3⟩ := ih (s := ⟨s1, s.heap⟩) (GS.run_wf hw hr)
      (GS.run_paired hw hp hr (by intro c hc; rw [List.mem_singleton] at hc; subst hc; trivial))
      (hf.of_adj (by
        intro x y hxy
        simp only [h2] at hxy
        obtain ⟨e, he, h⟩ := hxy
        exact ⟨e, (List.mem_filter.1 he).1, h⟩)) (h3.ok ho) (by
        intro x hx
        have : s1.g.vertexOf x = s.gs.g.vertexOf x := by rw [h2]; rfl
        rw [this]; exact hn x (by simp [hx]))
    refine ⟨s', ?_, ?_, h3.trans a3⟩
    · simp only [forFrames, hd, base]; exact a1
    · simp only [forFrames, hb, base]; exact a2

theorem clear_forest {s : EG E} (hw : WF s.gs.g) (hp : Paired s.gs.g) (hf : s.gs.g.Forest) (ho : ViewsOk s.gs) {s' : EG E}
    (h : EG.clear (blind s) = .ok () s') : ∃ s1, EG.clear s = .ok () s1 ∧ blind s1 = s' ∧ GS.Follows s.gs s1.gs := by
  obtain ⟨t, a1, a2, a3⟩ := forDisconnect_forest (s.gs.g.verts.map (fun r => FrameProp.getId r.prop)) hw hp hf ho (by
    intro f hf
    exact (mem_names hw).1 hf)
  unfold EG.clear at h ⊢
  have hg : (blind s).gs.g = s.gs.g := rfl
  simp only [hg, a1, a2] at h ⊢
  rw [forRemove_blind] at h
  cases hx : forFrames removeFrame (s.gs.g.verts.map (fun r => FrameProp.getId r.prop)) t with
  | ok a s1 =>
    rw [hx] at h
    simp only [Res.mapSt, Res.ok.injEq, true_and] at h
    exact ⟨s1, rfl, h, a3.trans (forRemove_views _ hx)⟩
  | throw x s1 => rw [hx] at h; simp [Res.mapSt] at h
  | ub r => rw [hx] at h; simp [Res.mapSt] at h

end EG
end Verif
