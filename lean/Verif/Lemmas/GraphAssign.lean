import Verif.Model.GraphAssign
import Verif.Lemmas.Steps

set_option linter.unusedSectionVars false
set_option linter.unusedSimpArgs false
/-! Lemmas about the assignment of graphs. -/

namespace Verif
variable {F E : Type} [FrameProp F] [EdgeProp E]

/-- after the events `l`, the vertex `v` that had the name `f` still has it or is gone -/
structure Held (f : FrameId) (v : VId) (gone : Prop) (g : G F E) : Prop where
  lt : (v : Nat) < g.nextV
  here : ¬ gone → g.vertexOf f = some v
  away : gone → g.findV v = none

theorem GStep.held {g g' : G F E} {x : Event × G F E} {f : FrameId} {v : VId} {gone : Prop} (hs : GStep g x g') (hw : WF g)
    (h : Held f v gone g) : Held f v (gone ∨ x.1 = .frameRemoved f) g' := by
  have hv : ∀ f' p, (g.addVertex f' p).1.findV v = g.findV v ∨ g.findV v ≠ none := by
    intro f' p
    unfold G.addVertex
    split
    · exact Or.inl rfl
    · cases e : g.findV v with
      | some r => exact Or.inr (by simp)
      | none =>
        left
        unfold G.findV at e ⊢
        have hlt : ¬ ((g.nextV : Nat) = v) := fun c => Nat.lt_irrefl _ (c ▸ h.lt)
        have hlt' : ¬ (g.nextV = (v : VId)) := hlt
        simp [List.find?_append, e, hlt']
  cases hs with
  | @addV f' p hn hp =>
    refine ⟨?_, ?_, ?_⟩
    · have := h.lt
      unfold G.addVertex; split
      · exact this
      · exact Nat.lt_succ_of_lt this
    · intro hg
      have := h.here (fun c => hg (Or.inl c))
      unfold G.addVertex G.vertexOf at *
      rw [hn]
      simp [AMap.get_append, this]
    · rintro (hg | hg)
      · have := h.away hg
        rcases hv f' p with h1 | h1
        · rw [h1]; exact this
        · exact absurd this h1
      · cases hg
  | dupV hv => exact ⟨h.lt, fun hg => h.here (fun c => hg (Or.inl c)), fun hg => h.away (hg.resolve_right (by simp))⟩
  | addE ha hb hn => exact ⟨h.lt, fun hg => h.here (fun c => hg (Or.inl c)), fun hg => h.away (hg.resolve_right (by simp))⟩
  | rmE ha hb h1 h2 hg1 hg2 =>
    have e1 := (G.removeEdge_some hg1)
    have e2 := (G.removeEdge_some hg2)
    have a1 : g'.nextV = g.nextV ∧ g'.labels = g.labels ∧ g'.verts = g.verts := by
      rw [e2.2, e1.2]; exact ⟨rfl, rfl, rfl⟩
    refine ⟨by rw [a1.1]; exact h.lt, fun hg => ?_, fun hg => ?_⟩
    · unfold G.vertexOf; rw [a1.2.1]; exact h.here (fun c => hg (Or.inl c))
    · unfold G.findV; rw [a1.2.2]; exact h.away (hg.resolve_right (by simp))
  | setP ha hb h1 h2 => exact ⟨h.lt, fun hg => h.here (fun c => hg (Or.inl c)), fun hg => h.away (hg.resolve_right (by simp))⟩
  | @rmV f' v' hv' hd =>
    refine ⟨h.lt, fun hg => ?_, fun hg => ?_⟩
    · have hf : f' ≠ f := fun c => hg (Or.inr (by rw [c]))
      have := h.here (fun c => hg (Or.inl c))
      show AMap.get (AMap.erase g.labels f') f = some v
      rw [AMap.get_erase, if_neg hf]; exact this
    · rw [G.findV_none]
      intro r hr
      simp only [G.removeVertex, List.mem_filter, decide_eq_true_eq] at hr
      rcases hg with hg | hg
      · exact G.findV_none.1 (h.away hg) r hr.1
      · by_cases hgo : gone
        · exact G.findV_none.1 (h.away hgo) r hr.1
        · have := h.here hgo
          cases hg
          rw [this] at hv'
          cases hv'
          exact hr.2

theorem GSteps.held {P : G F E → Event → Prop} {g g' : G F E} {l : List (Event × G F E)} {f : FrameId} {v : VId} (hs : GSteps P g l g')
    (hw : WF g) {gone : Prop} (h : Held f v gone g) : Held f v (gone ∨ .frameRemoved f ∈ l.map Prod.fst) g' := by
  induction hs generalizing gone with
  | nil => simpa using h
  | cons hs _ _ ih =>
    have := ih (hs.wf hw) (hs.held hw h)
    simpa [or_assoc, eq_comm] using this

namespace AG

/-- what is known after the assignment of `s` and a program -/
structure Inv (s : GS F E) (w0 w : AG F E) : Prop where
  wf : WF w.a.g
  labels : w.labels = s.g.labels
  verts : w.verts = w0.verts
  edges : w.edges = w0.edges
  events : ∃ l, w.a.trace = s.trace ++ l ∧
    ∀ f v, s.g.vertexOf f = some v → Held f v (.frameRemoved f ∈ l.map Prod.fst) w.a.g

theorem assign_inv {s : GS F E} (hw : WF s.g) {w : AG F E} (h : assign s = some w) : Inv s w w := by
  unfold assign at h
  split at h
  · cases h
  · cases h
    refine ⟨hw, rfl, rfl, rfl, [], by simp, fun f v hv => ⟨?_, fun _ => hv, fun hg => by simp at hg⟩⟩
    obtain ⟨r, hr, rfl, -⟩ := hw.vertexOf_iff.1 hv
    exact hw.vlt r hr

theorem Inv.ofExec {s : GS F E} {w0 w : AG F E} (h : Inv s w0 w) {c : GS.Cmd F E} {s' : GS F E} (hx : (GS.exec c w.a).st? = some s') :
    Inv s w0 { w with a := s' } := by
  obtain ⟨l, h1, h2⟩ := h.events
  have ha := GS.exec_advances h.wf hx
  obtain ⟨l', b1, b2⟩ := ha
  refine ⟨b1.wf h.wf, h.labels, h.verts, h.edges, l ++ l', by simp [b2, h1], fun f v hv => ?_⟩
  simpa using b1.held h.wf (h2 f v hv)

theorem setEdgeProperty_cases {o t : FrameId} {p : E} {w : AG F E} :
    (∃ r, setEdgeProperty o t p w = .ub r) ∨ (∃ x, setEdgeProperty o t p w = .throw x w) ∨
    ∃ i j, setEdgeProperty o t p w = .ok () { w with a := { w.a with g := (w.a.g.setProp i p).setProp j (EdgeProp.inverse p) } } := by
  unfold setEdgeProperty withBoth
  split
  · exact Or.inr (Or.inl ⟨_, rfl⟩)
  · split
    · exact Or.inr (Or.inl ⟨_, rfl⟩)
    · split
      · dsimp only
        split
        · exact Or.inr (Or.inl ⟨_, rfl⟩)
        · split
          · exact Or.inl ⟨_, rfl⟩
          · exact Or.inr (Or.inr ⟨_, _, rfl⟩)
      · exact Or.inl ⟨_, rfl⟩

theorem Inv.ofStep {s : GS F E} {w0 w w' : AG F E} (h : Inv s w0 w) {c : AssignOp F E} (hx : (step c w).st? = some w') : Inv s w0 w' := by
  cases c with
  | onA c =>
    simp only [step] at hx
    split at hx
    · cases e : GS.exec c w.a with
      | ok u s1 => rw [e] at hx; cases hx; exact h.ofExec (by rw [e]; rfl)
      | throw x s1 => rw [e] at hx; cases hx; exact h.ofExec (by rw [e]; rfl)
      | ub r => rw [e] at hx; cases hx
    · cases hx
  | setB o t p =>
    simp only [step] at hx
    rcases setEdgeProperty_cases (o := o) (t := t) (p := p) (w := w) with ⟨r, e⟩ | ⟨x, e⟩ | ⟨i, j, e⟩
    · rw [e] at hx; cases hx
    · rw [e] at hx; cases hx; exact h
    · rw [e] at hx; cases hx
      obtain ⟨l, h1, h2⟩ := h.events
      exact ⟨(h.wf.setProp _ _).setProp _ _, h.labels, h.verts, h.edges, l, h1, fun f v hv =>
        ⟨(h2 f v hv).lt, (h2 f v hv).here, (h2 f v hv).away⟩⟩
  | destroyA =>
    simp only [step] at hx
    split at hx
    · cases hx; exact ⟨h.wf, h.labels, h.verts, h.edges, h.events⟩
    · cases hx

theorem Inv.ofRun {s : GS F E} {w0 : AG F E} (cs : List (AssignOp F E)) : ∀ {w w' : AG F E}, Inv s w0 w → run cs w = some w' → Inv s w0 w' := by
  induction cs with
  | nil => intro w w' h hr; cases hr; exact h
  | cons c cs ih =>
    intro w w' h hr
    unfold run at hr
    split at hr
    · rename_i e; exact ih (h.ofStep (by rw [e]; rfl)) hr
    · rename_i e; exact ih (h.ofStep (by rw [e]; rfl)) hr
    · cases hr

/-- the vertex of `a` that `b` uses for `f` -/
theorem Inv.get {s : GS F E} {w0 w : AG F E} (h : Inv s w0 w) (f : FrameId) : w.labels.get f = s.g.vertexOf f := by
  rw [h.labels]; rfl

theorem newVertex_some {l : List (VRec F)} {v : VId} (h : ∃ r ∈ l, r.id = v) :
    ∃ i, newVertex l v = some i ∧ (l[i]?).map VRec.id = some v ∧ (l[i]?) = l.find? (fun r => r.id = v) := by
  induction l with
  | nil => obtain ⟨r, hr, -⟩ := h; cases hr
  | cons x l ih =>
    by_cases hx : x.id = v
    · exact ⟨0, by simp [newVertex, List.findIdx?_cons, hx], by simp [hx], by simp [hx]⟩
    · obtain ⟨r, hr, hrv⟩ := h
      rcases List.mem_cons.1 hr with rfl | hr
      · exact absurd hrv hx
      · obtain ⟨i, h1, h2, h3⟩ := ih ⟨r, hr, hrv⟩
        refine ⟨i + 1, ?_, by simpa using h2, by simpa [hx] using h3⟩
        unfold newVertex at h1 ⊢
        simp [List.findIdx?_cons, hx, h1]

theorem copyVerts_get (l : List (VRec F)) : ∀ (n i : Nat), (copyVerts n l)[i]?.map VRec.prop = l[i]?.map VRec.prop := by
  induction l with
  | nil => intro n i; simp [copyVerts]
  | cons x l ih =>
    intro n i
    cases i with
    | zero => simp [copyVerts]
    | succ i => simpa [copyVerts] using ih (n + 1) i

theorem copyVerts_id (l : List (VRec F)) : ∀ (n : Nat), (copyVerts n l).map VRec.id = List.range' n l.length := by
  induction l with
  | nil => intro n; simp [copyVerts]
  | cons x l ih => intro n; simp [copyVerts, ih, List.range'_succ]

theorem copyVerts_idx (l : List (VRec F)) : ∀ (n : Nat), (copyVerts n l).map (fun r => (r.idx, r.prop)) = l.map (fun r => (r.idx, r.prop)) := by
  induction l with
  | nil => intro n; simp [copyVerts]
  | cons x l ih => intro n; simp [copyVerts, ih]

end AG
end Verif
