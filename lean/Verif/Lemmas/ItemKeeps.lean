import Verif.Lemmas.Items

set_option linter.unusedSectionVars false
set_option linter.unusedSimpArgs false
/-! The calls of the base class, except `removeFrame`, keep the items of all frames and publish no item events. -/

namespace Verif
open GS
variable {E : Type} [EdgeProp E]

/-- all vertices survive and the new ones have no items -/
def Keeps (g g' : G EFrame E) : Prop :=
  (∀ r ∈ g.verts, r ∈ g'.verts) ∧ ∀ r ∈ g'.verts, r ∈ g.verts ∨ r.prop.items = []

theorem Keeps.of_verts {g g' : G EFrame E} (h : g'.verts = g.verts) : Keeps g g' :=
  ⟨fun _ hr => h ▸ hr, fun _ hr => Or.inl (h ▸ hr)⟩

theorem Keeps.trans {g g' g'' : G EFrame E} (h : Keeps g g') (h' : Keeps g' g'') : Keeps g g'' :=
  ⟨fun r hr => h'.1 r (h.1 r hr), fun r hr => (h'.2 r hr).elim (fun h1 => h.2 r h1) Or.inr⟩

theorem Keeps.vertexOf {g g' : G EFrame E} (h : Keeps g g') (hw : WF g) (hw' : WF g') {f : FrameId} {v : VId}
    (hv : g.vertexOf f = some v) : g'.vertexOf f = some v := by
  obtain ⟨r, hr, a, b⟩ := hw.vertexOf_iff.1 hv
  exact hw'.vertexOf_iff.2 ⟨r, h.1 r hr, a, b⟩

theorem Keeps.stocked {ty : ItemId → TypeIdx} {g g' : G EFrame E} {M : Shelf} (h : Keeps g g') (hw : WF g) (hw' : WF g')
    (hs : Stocked ty g M) : Stocked ty g' M := by
  constructor
  · intro r hr
    rcases h.2 r hr with h1 | h1
    · exact hs.holds r h1
    · by_cases hrg : r ∈ g.verts
      · exact hs.holds r hrg
      have hn : g.vertexOf r.prop.id = none := by
        rw [Option.eq_none_iff_forall_ne_some]
        intro v hv
        obtain ⟨q, hq, -, b⟩ := hw.vertexOf_iff.1 hv
        exact hrg (hw'.name_inj hr (h.1 q hq) b.symm ▸ hq)
      rw [hs.absent _ hn]
      intro t; simp [h1]
  · intro f hf
    apply hs.absent
    rw [Option.eq_none_iff_forall_ne_some]
    intro v hv
    rw [h.vertexOf hw hw' hv] at hf
    cases hf

theorem Keeps.tidy {g g' : G EFrame E} (h : Keeps g g') (hT : AllTidy g) : AllTidy g' := by
  intro r hr
  rcases h.2 r hr with h1 | h1
  · exact hT r h1
  · exact ⟨by simp [h1, AMap.keys], by simp [h1]⟩

theorem addVertexN_keeps {f : FrameId} {p : EFrame} (hp : p.items = []) (s : GS EFrame E) :
    Keeps s.g (addVertexN f p s).1.g := by
  simp only [addVertexN, notify, G.addVertex]
  split
  · exact Keeps.of_verts rfl
  · refine ⟨fun r hr => List.mem_append_left _ hr, fun r hr => ?_⟩
    rcases List.mem_append.1 hr with hr | hr
    · exact Or.inl hr
    · simp only [List.mem_singleton] at hr
      exact Or.inr (by rw [hr]; exact hp)

theorem orCreate_keeps (f : FrameId) (v : Option VId) (s : GS EFrame E) : Keeps s.g (orCreate f v s).1.g := by
  unfold orCreate
  split
  · exact addVertexN_keeps rfl s
  · exact Keeps.of_verts rfl

theorem addEdgeD_verts {F : Type} [FrameProp F] {u v : VId} {p : E} {s s' : GS F E}
    (h : (addEdgeD u v p s).st? = some s') : s'.g.verts = s.g.verts := by
  unfold addEdgeD at h
  split at h
  · split at h
    · simp only [Res.st?, Option.some.injEq] at h
      subst h; rfl
    · simp only at h
      split at h
      · simp only [Res.st?, Option.some.injEq] at h
        subst h; rfl
      · simp only [Res.st?, Option.some.injEq] at h
        subst h; rfl
      · simp [Res.st?] at h
  · simp [Res.st?] at h

theorem removeEdgeBoth_verts {F : Type} [FrameProp F] {a b : FrameId} {u v : VId} {s s' : GS F E}
    (h : (removeEdgeBoth a b u v s).st? = some s') : s'.g.verts = s.g.verts := by
  unfold removeEdgeBoth at h
  split at h
  · split at h
    · simp [Res.st?] at h
    · rename_i g1 hg1
      simp only at h
      split at h
      · simp [Res.st?] at h
      · rename_i g2 hg2
        obtain ⟨-, rfl⟩ := G.removeEdge_some hg1
        obtain ⟨-, rfl⟩ := G.removeEdge_some hg2
        split at h
        · simp only [Res.st?, Option.some.injEq] at h
          subst h; rfl
        · simp only [Res.st?, Option.some.injEq] at h
          subst h; rfl
        · simp [Res.st?] at h
  · simp only [Res.st?, Option.some.injEq] at h
    subst h; rfl

theorem disconnectLoop_verts {F : Type} [FrameProp F] {v : VId} (n : Nat) : ∀ {s s' : GS F E},
    (disconnectLoop v n s).st? = some s' → s'.g.verts = s.g.verts := by
  induction n with
  | zero =>
    intro s s' h
    unfold disconnectLoop at h
    split at h
    · simp only [Res.st?, Option.some.injEq] at h; subst h; rfl
    · simp [Res.st?] at h
  | succ n ih =>
    intro s s' h
    unfold disconnectLoop at h
    split at h
    · simp only [Res.st?, Option.some.injEq] at h; subst h; rfl
    · simp only at h
      split at h
      · rename_i s1 h1
        rw [ih h, removeEdgeD_verts (s := s) (s' := s1) (by rw [h1]; rfl)]
      · rename_i s1 h1
        simp only [Res.st?, Option.some.injEq] at h; subst h
        exact removeEdgeD_verts (s := s) (by rw [h1]; rfl)
      · simp [Res.st?] at h

theorem disconnectFrame_verts {F : Type} [FrameProp F] {f : FrameId} {s s' : GS F E}
    (h : (disconnectFrame f s).st? = some s') : s'.g.verts = s.g.verts := by
  unfold disconnectFrame at h
  split at h
  · simp only [Res.st?, Option.some.injEq] at h; subst h; rfl
  · exact disconnectLoop_verts _ h

theorem setEdgeProperty_verts {F : Type} [FrameProp F] {a b : FrameId} {p : E} {s s' : GS F E}
    (h : (setEdgeProperty a b p s).st? = some s') : s'.g.verts = s.g.verts := by
  unfold setEdgeProperty at h
  split at h
  · simp only [Res.st?, Option.some.injEq] at h; subst h; rfl
  · split at h
    · simp only [Res.st?, Option.some.injEq] at h; subst h; rfl
    · split at h
      · simp only [Res.st?, Option.some.injEq] at h; subst h; rfl
      · simp only at h
        split at h
        · simp [Res.st?] at h
        · simp only [Res.st?, Option.some.injEq] at h; subst h; rfl

/-- the call is not `removeFrame` and does not create a frame from a property that holds items already -/
def itemFree : GS.Cmd EFrame E → Prop
  | .removeFrame _ => False
  | .emplaceFrame _ p => p.items = []
  | _ => True

theorem exec_keeps {c : GS.Cmd EFrame E} (hc : itemFree c) {s s' : GS EFrame E} (h : (exec c s).st? = some s') :
    Keeps s.g s'.g := by
  cases c with
  | addFrame f =>
    simp only [exec, st?_discard] at h
    unfold addFrame at h
    split at h
    · simp only [Res.st?, Option.some.injEq] at h; subst h
      exact addVertexN_keeps rfl s
    · simp only [Res.st?, Option.some.injEq] at h; subst h
      exact Keeps.of_verts rfl
  | emplaceFrame f p =>
    simp only [exec, st?_discard] at h
    unfold emplaceFrame at h
    split at h
    · simp only [Res.st?, Option.some.injEq] at h; subst h
      exact addVertexN_keeps (p := FrameProp.setId f p) hc s
    · simp only [Res.st?, Option.some.injEq] at h; subst h
      exact Keeps.of_verts rfl
  | removeFrame f => exact hc.elim
  | disconnectFrame f => exact Keeps.of_verts (disconnectFrame_verts h)
  | addEdge o t p =>
    have h' : (addEdgeD _ _ p _).st? = some s' := h
    exact ((orCreate_keeps o _ s).trans (orCreate_keeps t _ _)).trans (Keeps.of_verts (addEdgeD_verts h'))
  | removeEdge o t =>
    simp only [exec] at h
    unfold GS.removeEdge at h
    split at h
    · simp only [Res.st?, Option.some.injEq] at h; subst h; exact Keeps.of_verts rfl
    · split at h
      · simp only [Res.st?, Option.some.injEq] at h; subst h; exact Keeps.of_verts rfl
      · exact Keeps.of_verts (removeEdgeBoth_verts h)
  | setEdge o t p => exact Keeps.of_verts (setEdgeProperty_verts h)
  | getTree f k p => exact Keeps.of_verts (by rw [(getTree_same h).1])
  | unsubscribeView p =>
    simp only [exec, Res.st?, Option.some.injEq] at h
    subst h
    exact Keeps.of_verts (by rw [(unsubscribeView_same p s).1])

/-- the event says nothing about items and removes no frame -/
def neutral (e : Event) : Prop := ∀ M : Shelf, M.apply e = M

theorem exec_neutral {c : GS.Cmd EFrame E} (hc : itemFree c) {s s' : GS EFrame E} (hw : WF s.g)
    (h : (exec c s).st? = some s') : Advances (fun _ e => neutral e) s s' := by
  cases c with
  | addFrame f =>
    simp only [exec, st?_discard] at h
    exact (addFrame_advances h).mono (by rintro g e ⟨rfl, hn⟩ M; rfl)
  | emplaceFrame f p =>
    simp only [exec, st?_discard] at h
    exact (emplaceFrame_advances h).mono (by rintro g e ⟨rfl, hn⟩ M; rfl)
  | removeFrame f => exact hc.elim
  | disconnectFrame f => exact (disconnectFrame_advances hw h).mono (by rintro _ e ⟨b, rfl⟩ M; rfl)
  | addEdge o t p =>
    refine (addEdge_advances hw h).mono ?_
    rintro g e (⟨rfl, hn⟩ | ⟨rfl, hn⟩ | ⟨i, rfl⟩) M <;> rfl
  | removeEdge o t => exact (removeEdge_advances h).mono (by rintro _ e rfl M; rfl)
  | setEdge o t p => exact (setEdgeProperty_advances h).mono (by rintro _ e ⟨i, j, rfl⟩ M; rfl)
  | getTree f k p => exact .refl (getTree_same h).1 (getTree_same h).2
  | unsubscribeView p =>
    simp only [exec, Res.st?, Option.some.injEq] at h
    subst h
    exact .refl (unsubscribeView_same p s).1 (unsubscribeView_same p s).2

theorem GSteps.forall {F : Type} [FrameProp F] {P : Event → Prop} {g g' : G F E} {l : List (Event × G F E)}
    (h : GSteps (fun _ e => P e) g l g') : ∀ x ∈ l, P x.1 := by
  induction h with
  | nil => simp
  | cons _ hx _ ih =>
    intro x hx'
    rcases List.mem_cons.1 hx' with rfl | hx'
    · exact hx
    · exact ih x hx'

theorem Shelf.replay_append (M : Shelf) (l l' : List Event) : M.replay (l ++ l') = (M.replay l).replay l' :=
  List.foldl_append

theorem Shelf.replay_neutral {l : List Event} (h : ∀ e ∈ l, neutral e) : ∀ M : Shelf, M.replay l = M := by
  induction l with
  | nil => intro M; rfl
  | cons e l ih =>
    intro M
    show Shelf.replay (M.apply e) l = M
    rw [h e (by simp) M, ih (fun e he => h e (by simp [he]))]

end Verif
