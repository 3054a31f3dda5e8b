import Verif.Lemmas.Sim
import Verif.Lemmas.Throws
import Verif.Lemmas.ForestHistory
import Verif.Spec.AbsGraphViews
set_option linter.unusedSectionVars false
set_option linter.unusedSimpArgs false
/-! Simulation with subscribed views. -/

namespace Verif
variable {F E : Type} [FrameProp F] [EdgeProp E]

/-- the graph without its views -/
def GS.bare (s : GS F E) : GS F E := { s with subs := [] }

/-- the graph `s` represents the abstract graph `A` with the subscribed views `S` -/
structure SimV (s : GS F E) (A : AGraph E) (S : Finset Nat) : Prop where
  sim : Sim s.bare A
  inv : GS.SubsInv s
  subs : ∀ p, p ∈ s.subs ↔ p ∈ S

theorem Sim.of_g {s t : GS F E} {A : AGraph E} (h : Sim t A) (hg : s.g = t.g) : Sim s.bare A := by
  have hg' : s.bare.g = t.g := hg
  exact ⟨hg' ▸ h.wf, hg' ▸ h.paired, rfl, hg' ▸ h.frames, hg' ▸ h.edges⟩

namespace GS

theorem removeEdgeFromTreeViews_throw_subs {o t : VId} (l : List Nat) : ∀ {vs vs' : Nat → TreeView} {x : Exn},
    removeEdgeFromTreeViews o t l vs = .throw x vs' → l ≠ [] ∧ ∃ m, x = .runtimeError m := by
  induction l with
  | nil => intro vs vs' x h; cases h
  | cons p l ih =>
    intro vs vs' x h
    refine ⟨by simp, ?_⟩
    unfold removeEdgeFromTreeViews at h
    split at h
    · cases h
    · exact (ih h).2
    · split at h
      · exact (ih h).2
      · rename_i hh
        simp only [Res.throw.injEq] at h
        obtain ⟨rfl, rfl⟩ := h
        exact TreeView.removeEdge_throw hh
      · cases h

end GS

namespace SimV
open GS
variable {s : GS F E} {A : AGraph E} {S : Finset Nat}

theorem init : SimV (F := F) (E := E) GS.init AGraph.empty ∅ := ⟨Sim.init, init_subsInv, by simp [GS.init]⟩

theorem wf (h : SimV s A S) : WF s.g := h.sim.wf
theorem paired (h : SimV s A S) : Paired s.g := h.sim.paired

theorem nonempty (h : SimV s A S) (hn : s.subs ≠ []) : S.Nonempty := by
  obtain ⟨p, hp⟩ := List.exists_mem_of_ne_nil _ hn
  exact ⟨p, (h.subs p).1 hp⟩

/-- removal of one existing connection -/
theorem removeEdgeBoth (h : Sim s.bare A) {a b : FrameId} {u v : VId} (hu : s.g.vertexOf a = some u) (hv : s.g.vertexOf b = some v)
    (he : (s.g.edge u v).isSome) :
    (∀ s', removeEdgeBoth a b u v s = .ok () s' → Sim s'.bare (A.disconnect a b) ∧ s'.subs = s.subs ∧ s'.g = s.g.cut u v) ∧
    (∀ x s', GS.removeEdgeBoth a b u v s = .throw x s' →
      Sim s'.bare (A.disconnect a b) ∧ s'.subs = s.subs ∧ s.subs ≠ [] ∧ ∃ m, x = .runtimeError m) := by
  obtain ⟨e, he⟩ := Option.isSome_iff_exists.1 he
  have hw : WF s.g := h.wf
  have hp : Paired s.g := h.paired
  have hsim : ∀ s' : GS F E, s'.g = s.g.cut u v → Sim s'.bare (A.disconnect a b) := by
    intro s' hg
    have hg' : s'.bare.g = s.g.cut u v := hg
    refine ⟨hg' ▸ cut_wf hw _ _, hg' ▸ cut_paired hp _ _, rfl, ?_, ?_⟩
    · rw [hg']; exact h.frames
    · intro x y
      rw [hg']
      refine (absEdge_cut hw hu hv x y).trans ?_
      have : absEdge s.g x y = A.edges x y := h.edges x y
      simp [AGraph.disconnect, this]
  rw [removeEdgeBoth_eq hw hp a b he]
  constructor
  · intro s' hs
    split at hs
    · cases hs; exact ⟨hsim _ rfl, rfl, rfl⟩
    · cases hs
    · cases hs
  · intro x s' hs
    split at hs
    · cases hs
    · rename_i hh
      simp only [Res.throw.injEq] at hs
      obtain ⟨rfl, rfl⟩ := hs
      obtain ⟨h1, h2⟩ := removeEdgeFromTreeViews_throw_subs _ hh
      exact ⟨hsim _ rfl, rfl, h1, h2⟩
    · cases hs

theorem edge_isSome (h : Sim s.bare A) {a b : FrameId} {u v : VId} (hu : s.g.vertexOf a = some u) (hv : s.g.vertexOf b = some v) :
    (s.g.edge u v).isSome = (A.edges a b).isSome := by
  have : absEdge s.g a b = A.edges a b := h.edges a b
  rw [← this, absEdge_of hu hv]; simp

theorem cutFrom_disconnect (A : AGraph E) (f b : FrameId) (N : Finset FrameId) :
    (A.disconnect f b).cutFrom f N = A.cutFrom f (insert b N) := by
  simp only [AGraph.cutFrom, AGraph.disconnect, AGraph.mk.injEq, true_and, Finset.mem_insert]
  funext x y
  by_cases h1 : (x = f ∧ y ∈ N) ∨ (y = f ∧ x ∈ N)
  · rw [if_pos h1, if_pos]
    rcases h1 with h | h
    · exact .inl ⟨h.1, .inr h.2⟩
    · exact .inr ⟨h.1, .inr h.2⟩
  · rw [if_neg h1]
    by_cases h2 : (x = f ∧ y = b) ∨ (x = b ∧ y = f)
    · rw [if_pos h2, if_pos]
      rcases h2 with h | h
      · exact .inl ⟨h.1, .inl h.2⟩
      · exact .inr ⟨h.2, .inl h.1⟩
    · rw [if_neg h2, if_neg]
      rintro (⟨a1, a2 | a2⟩ | ⟨a1, a2 | a2⟩)
      · exact h2 (.inl ⟨a1, a2⟩)
      · exact h1 (.inl ⟨a1, a2⟩)
      · exact h2 (.inr ⟨a2, a1⟩)
      · exact h1 (.inr ⟨a1, a2⟩)

theorem isolate_disconnect (A : AGraph E) (f b : FrameId) : (A.disconnect f b).isolate f = A.isolate f := by
  simp only [AGraph.isolate, AGraph.disconnect, AGraph.mk.injEq, true_and]
  funext x y
  by_cases h1 : x = f ∨ y = f
  · rw [if_pos h1, if_pos h1]
  · rw [if_neg h1, if_neg h1, if_neg]
    rintro (⟨a1, -⟩ | ⟨-, a1⟩)
    · exact h1 (.inl a1)
    · exact h1 (.inr a1)

theorem cutFrom_single (A : AGraph E) (f b : FrameId) : A.disconnect f b = A.cutFrom f {b} := by
  simp only [AGraph.cutFrom, AGraph.disconnect, AGraph.mk.injEq, true_and, Finset.mem_singleton]
  funext x y
  congr 1
  apply propext
  constructor
  · rintro (h | h)
    · exact .inl h
    · exact .inr ⟨h.2, h.1⟩
  · rintro (h | h)
    · exact .inl h
    · exact .inr ⟨h.2, h.1⟩

/-- the loop of `disconnectFrame` -/
theorem disconnectLoop {f : FrameId} {v : VId} (n : Nat) : ∀ {s : GS F E} {A : AGraph E}, Sim s.bare A → s.g.vertexOf f = some v →
    (∀ s', disconnectLoop v n s = .ok () s' → Sim s'.bare (A.isolate f) ∧ s'.subs = s.subs) ∧
    (∀ x s', GS.disconnectLoop v n s = .throw x s' → s'.subs = s.subs ∧ s.subs ≠ [] ∧ (∃ m, x = .runtimeError m) ∧
      ∃ N : Finset FrameId, N.Nonempty ∧ (∀ b ∈ N, (A.edges f b).isSome) ∧ Sim s'.bare (A.cutFrom f N)) := by
  have done : ∀ {s : GS F E} {A : AGraph E}, Sim s.bare A → s.g.vertexOf f = some v → s.g.outEdges v = [] → Sim s.bare (A.isolate f) := by
    intro s A h hv h0
    have hi := isolate_of_outEdges_nil (g := s.g) h.paired h0
    refine ⟨h.wf, h.paired, rfl, h.frames, ?_⟩
    intro x y
    have h1 := absEdge_isolate (g := s.g) h.wf hv x y
    rw [hi] at h1
    have h2 : absEdge s.g x y = A.edges x y := h.edges x y
    show absEdge s.g x y = _
    rw [h1, h2]
    rfl
  induction n with
  | zero =>
    intro s A h hv
    unfold GS.disconnectLoop
    cases hes : s.g.outEdges v with
    | nil =>
      refine ⟨?_, ?_⟩
      · intro s' hs; cases hs; exact ⟨done h hv hes, rfl⟩
      · intro x s' hs; cases hs
    | cons e es => exact ⟨fun s' hs => (by cases hs), fun x s' hs => (by cases hs)⟩
  | succ n ih =>
    intro s A h hv
    unfold GS.disconnectLoop
    cases hes : s.g.outEdges v with
    | nil =>
      refine ⟨?_, ?_⟩
      · intro s' hs; cases hs; exact ⟨done h hv hes, rfl⟩
      · intro x s' hs; cases hs
    | cons e es =>
      simp only
      have hw : WF s.g := h.wf
      have hem : e ∈ s.g.edges ∧ e.src = v := by
        have : e ∈ s.g.outEdges v := by rw [hes]; simp
        simpa [G.outEdges] using this
      have hb : s.g.vertexOf (nameOf s.g e.tgt) = some e.tgt := vertexOf_nameOf hw (hw.etgt e hem.1)
      have he : (s.g.edge v e.tgt).isSome := G.edge_isSome.2 ⟨e, hem.1, hem.2, rfl⟩
      obtain ⟨r, hr, hrf⟩ := hw.live_of_vertexOf hv
      obtain ⟨rt, hrt, hrtf⟩ := hw.live_of_vertexOf hb
      have hrm : removeEdgeD v e.tgt s = GS.removeEdgeBoth f (nameOf s.g e.tgt) v e.tgt s := by
        unfold removeEdgeD
        simp only [hr, hrt, hrf, hrtf]
      have hA : (A.edges f (nameOf s.g e.tgt)).isSome := by rw [← edge_isSome h hv hb]; exact he
      obtain ⟨k1, k2⟩ := SimV.removeEdgeBoth h hv hb he
      rw [hrm]
      cases hx : GS.removeEdgeBoth f (nameOf s.g e.tgt) v e.tgt s with
      | ok a s1 =>
        obtain ⟨j1, j2, j3⟩ := k1 s1 hx
        have hv1 : s1.g.vertexOf f = some v := by rw [j3]; exact hv
        obtain ⟨i1, i2⟩ := ih j1 hv1
        refine ⟨?_, ?_⟩
        · intro s' hs
          obtain ⟨a1, a2⟩ := i1 s' hs
          exact ⟨isolate_disconnect A f _ ▸ a1, a2.trans j2⟩
        · intro x s' hs
          obtain ⟨a1, a2, a3, N, a4, a5, a6⟩ := i2 x s' hs
          refine ⟨a1.trans j2, j2 ▸ a2, a3, insert (nameOf s.g e.tgt) N, ⟨_, Finset.mem_insert_self _ _⟩, ?_, ?_⟩
          · intro b hbN
            rcases Finset.mem_insert.1 hbN with rfl | hbN
            · exact hA
            · have := a5 b hbN
              simp only [AGraph.disconnect] at this
              split at this
              · cases this
              · exact this
          · rw [← cutFrom_disconnect]; exact a6
      | throw x s1 =>
        obtain ⟨j1, j2, j3, j4⟩ := k2 x s1 hx
        refine ⟨fun s' hs => (by cases hs), ?_⟩
        intro x' s' hs
        simp only [Res.throw.injEq] at hs
        obtain ⟨rfl, rfl⟩ := hs
        exact ⟨j2, j3, j4, {nameOf s.g e.tgt}, ⟨_, Finset.mem_singleton_self _⟩,
          by intro b hbN; rw [Finset.mem_singleton.1 hbN]; exact hA, cutFrom_single A f _ ▸ j1⟩
      | ub r => exact ⟨fun s' hs => (by cases hs), fun x s' hs => (by cases hs)⟩

/-- the connections between `v` and the vertices `ws` are gone in `s'`, an event was published for each, all else is as in `s` -/
structure CutTo (s s' : GS F E) (f : FrameId) (v : VId) (ws : List VId) : Prop where
  nodup : ws.Nodup
  conn : ∀ w ∈ ws, (s.g.edge v w).isSome
  edge : ∀ x y, s'.g.edge x y = if (x = v ∧ y ∈ ws) ∨ (y = v ∧ x ∈ ws) then none else s.g.edge x y
  verts : s'.g.verts = s.g.verts
  label : ∀ x, s'.g.vertexOf x = s.g.vertexOf x
  trace : s'.trace.map Prod.fst = s.trace.map Prod.fst ++ ws.map (fun w => Event.edgeRemoved f (nameOf s.g w))

theorem CutTo.nil (s : GS F E) (f : FrameId) (v : VId) : CutTo s s f v [] :=
  ⟨List.nodup_nil, by simp, by simp, rfl, fun _ => rfl, by simp⟩

theorem CutTo.cons {s s1 s' : GS F E} {f : FrameId} {v w : VId} {ws : List VId} (hc : (s.g.edge v w).isSome)
    (hg : s1.g = s.g.cut v w) (ht : s1.trace.map Prod.fst = s.trace.map Prod.fst ++ [.edgeRemoved f (nameOf s.g w)])
    (h : CutTo s1 s' f v ws) : CutTo s s' f v (w :: ws) := by
  refine ⟨List.nodup_cons.2 ⟨fun hm => ?_, h.nodup⟩, ?_, ?_, ?_, ?_, ?_⟩
  · have := h.conn w hm
    rw [hg, G.edge_cut] at this
    simp at this
  · intro z hz
    rcases List.mem_cons.1 hz with rfl | hz
    · exact hc
    · have := h.conn z hz
      rw [hg, G.edge_cut] at this
      split at this
      · cases this
      · exact this
  · intro x y
    rw [h.edge, hg, G.edge_cut]
    by_cases h1 : (x = v ∧ y ∈ ws) ∨ (y = v ∧ x ∈ ws)
    · rw [if_pos h1, if_pos]
      rcases h1 with h1 | h1
      · exact .inl ⟨h1.1, List.mem_cons_of_mem _ h1.2⟩
      · exact .inr ⟨h1.1, List.mem_cons_of_mem _ h1.2⟩
    · rw [if_neg h1]
      congr 1
      simp only [List.mem_cons, eq_iff_iff]
      tauto
  · rw [h.verts, hg]; rfl
  · intro x; rw [h.label, hg]; rfl
  · rw [h.trace, ht, hg]; simp; intro a _; rfl

theorem disconnectLoop_cut {f : FrameId} {v : VId} (n : Nat) : ∀ {s : GS F E}, WF s.g → Paired s.g → s.g.vertexOf f = some v →
    (∀ s', GS.disconnectLoop v n s = .ok () s' → ∃ ws, CutTo s s' f v ws ∧ s'.g.outEdges v = []) ∧
    (∀ x s', GS.disconnectLoop v n s = .throw x s' → s.subs ≠ [] ∧ (∃ m, x = .runtimeError m) ∧
      ∃ ws, ws ≠ [] ∧ CutTo s s' f v ws) := by
  induction n with
  | zero =>
    intro s hw hp hv
    unfold GS.disconnectLoop
    cases hes : s.g.outEdges v with
    | nil => exact ⟨fun s' hs => (by cases hs; exact ⟨[], .nil s f v, hes⟩), fun x s' hs => (by cases hs)⟩
    | cons e es => exact ⟨fun s' hs => (by cases hs), fun x s' hs => (by cases hs)⟩
  | succ n ih =>
    intro s hw hp hv
    unfold GS.disconnectLoop
    cases hes : s.g.outEdges v with
    | nil => exact ⟨fun s' hs => (by cases hs; exact ⟨[], .nil s f v, hes⟩), fun x s' hs => (by cases hs)⟩
    | cons e es =>
      simp only
      have hem : e ∈ s.g.edges ∧ e.src = v := by
        have : e ∈ s.g.outEdges v := by rw [hes]; simp
        simpa [G.outEdges] using this
      have hb : s.g.vertexOf (nameOf s.g e.tgt) = some e.tgt := vertexOf_nameOf hw (hw.etgt e hem.1)
      have he : (s.g.edge v e.tgt).isSome := G.edge_isSome.2 ⟨e, hem.1, hem.2, rfl⟩
      obtain ⟨r, hr, hrf⟩ := hw.live_of_vertexOf hv
      obtain ⟨rt, hrt, hrtf⟩ := hw.live_of_vertexOf hb
      have hrm : removeEdgeD v e.tgt s = GS.removeEdgeBoth f (nameOf s.g e.tgt) v e.tgt s := by
        unfold removeEdgeD
        simp only [hr, hrt, hrf, hrtf]
      obtain ⟨e1, he1⟩ := Option.isSome_iff_exists.1 he
      rw [hrm, removeEdgeBoth_eq hw hp _ _ he1]
      cases hx : removeEdgeFromTreeViews v e.tgt s.subs s.views with
      | ok a vs =>
        simp only
        obtain ⟨i1, i2⟩ := ih (s := { s with
          g := s.g.cut v e.tgt, views := vs,
          trace := s.trace ++ [(.edgeRemoved f (nameOf s.g e.tgt), { s.g with edges := s.g.edges.filter (fun r => r.id ≠ e1.id) })] })
          (cut_wf hw _ _) (cut_paired hp _ _) hv
        refine ⟨fun s' hs => ?_, fun x s' hs => ?_⟩
        · obtain ⟨ws, a1, a2⟩ := i1 s' hs
          exact ⟨_, a1.cons he rfl (by simp), a2⟩
        · obtain ⟨a1, a2, ws, a3, a4⟩ := i2 x s' hs
          exact ⟨a1, a2, _, by simp, a4.cons he rfl (by simp)⟩
      | throw x vs =>
        refine ⟨fun s' hs => (by cases hs), fun x' s' hs => ?_⟩
        simp only [Res.throw.injEq] at hs
        obtain ⟨rfl, rfl⟩ := hs
        obtain ⟨b1, b2⟩ := removeEdgeFromTreeViews_throw_subs _ hx
        exact ⟨b1, b2, [e.tgt], by simp, (CutTo.nil _ f v).cons he rfl (by simp)⟩
      | ub r => exact ⟨fun s' hs => (by cases hs), fun x s' hs => (by cases hs)⟩

/-- calls that do not look at the views -/
def _root_.Verif.GS.Cmd.blind : Cmd F E → Prop
  | .addFrame _ | .emplaceFrame _ _ | .removeFrame _ | .setEdge _ _ _ | .addEdge _ _ _ => True
  | _ => False

theorem orCreate_bare (f : FrameId) (v : Option VId) (s : GS F E) :
    GS.orCreate f v s.bare = ((GS.orCreate f v s).1.bare, (GS.orCreate f v s).2) := by
  cases v <;> rfl

theorem orCreate_subs (f : FrameId) (v : Option VId) (s : GS F E) : (GS.orCreate f v s).1.subs = s.subs := by
  cases v <;> rfl

theorem addEdgeD_bare {u v : VId} {p : E} {s : GS F E} :
    (∀ s', GS.addEdgeD u v p s = .ok () s' → ∃ t, GS.addEdgeD u v p s.bare = .ok () t ∧ s'.g = t.g ∧ s'.subs = s.subs) ∧
    (∀ x s', GS.addEdgeD u v p s = .throw x s' → ∃ t, GS.addEdgeD u v p s.bare = .throw x t ∧ s'.g = t.g ∧ s'.subs = s.subs) := by
  unfold GS.addEdgeD
  simp only [GS.bare]
  cases hu : s.g.findV u with
  | none => exact ⟨fun s' hs => (by cases hs), fun x s' hs => (by cases hs)⟩
  | some ru =>
    cases hv : s.g.findV v with
    | none => exact ⟨fun s' hs => (by cases hs), fun x s' hs => (by cases hs)⟩
    | some rv =>
      simp only
      cases he : s.g.edge u v with
      | some e =>
        refine ⟨fun s' hs => (by cases hs), fun x s' hs => ?_⟩
        cases hs; exact ⟨_, rfl, rfl, rfl⟩
      | none =>
        simp only
        cases hx : addEdgeToTreeViews ((s.g.addEdge u v p).1.addEdge v u (EdgeProp.inverse p)).1 (s.g.addEdge u v p).2 s.subs s.views with
        | ok a vs =>
          refine ⟨fun s' hs => ?_, fun x s' hs => (by cases hs)⟩
          cases hs; exact ⟨_, rfl, rfl, rfl⟩
        | throw x vs =>
          exact absurd hx (addEdgeToTreeViews_not_throw (e := ⟨s.g.nextE, u, v, p⟩) edge_addPair_fst edge_addPair_snd)
        | ub r => exact ⟨fun s' hs => (by cases hs), fun x s' hs => (by cases hs)⟩

theorem exec_bare {c : Cmd F E} (hc : c.blind) (s : GS F E) :
    (∀ s', GS.exec c s = .ok () s' → ∃ t, GS.exec c s.bare = .ok () t ∧ s'.g = t.g ∧ s'.subs = s.subs) ∧
    (∀ x s', GS.exec c s = .throw x s' → ∃ t, GS.exec c s.bare = .throw x t ∧ s'.g = t.g ∧ s'.subs = s.subs) := by
  have hb : ∀ f, s.bare.g.vertexOf f = s.g.vertexOf f := fun _ => rfl
  cases c with
  | addFrame f =>
    simp only [GS.exec, addFrame, hb]
    cases s.g.vertexOf f with
    | none => exact ⟨fun s' hs => (by cases hs; exact ⟨_, rfl, rfl, rfl⟩), fun x s' hs => (by cases hs)⟩
    | some v => exact ⟨fun s' hs => (by cases hs), fun x s' hs => (by cases hs; exact ⟨_, rfl, rfl, rfl⟩)⟩
  | emplaceFrame f p =>
    simp only [GS.exec, emplaceFrame, hb]
    cases s.g.vertexOf f with
    | none => exact ⟨fun s' hs => (by cases hs; exact ⟨_, rfl, rfl, rfl⟩), fun x s' hs => (by cases hs)⟩
    | some v => exact ⟨fun s' hs => (by cases hs), fun x s' hs => (by cases hs; exact ⟨_, rfl, rfl, rfl⟩)⟩
  | removeFrame f =>
    simp only [GS.exec, GS.removeFrame, hb]
    cases s.g.vertexOf f with
    | none => exact ⟨fun s' hs => (by cases hs), fun x s' hs => (by cases hs; exact ⟨_, rfl, rfl, rfl⟩)⟩
    | some v =>
      have hd : s.bare.g.degree v = s.g.degree v := rfl
      simp only [hd]
      by_cases h0 : s.g.degree v > 0
      · simp only [if_pos h0]
        exact ⟨fun s' hs => (by cases hs), fun x s' hs => (by cases hs; exact ⟨_, rfl, rfl, rfl⟩)⟩
      · simp only [if_neg h0]
        exact ⟨fun s' hs => (by cases hs; exact ⟨_, rfl, rfl, rfl⟩), fun x s' hs => (by cases hs)⟩
  | setEdge a b p =>
    simp only [GS.exec, setEdgeProperty, hb]
    cases s.g.vertexOf a with
    | none => exact ⟨fun s' hs => (by cases hs), fun x s' hs => (by cases hs; exact ⟨_, rfl, rfl, rfl⟩)⟩
    | some u =>
      cases s.g.vertexOf b with
      | none => exact ⟨fun s' hs => (by cases hs), fun x s' hs => (by cases hs; exact ⟨_, rfl, rfl, rfl⟩)⟩
      | some v =>
        have he : s.bare.g.edge u v = s.g.edge u v := rfl
        simp only [he]
        cases s.g.edge u v with
        | none => exact ⟨fun s' hs => (by cases hs), fun x s' hs => (by cases hs; exact ⟨_, rfl, rfl, rfl⟩)⟩
        | some e =>
          have h2 : ∀ i p, (s.bare.g.setProp i p).edge v u = (s.g.setProp i p).edge v u := fun _ _ => rfl
          simp only [h2]
          cases (s.g.setProp e.id p).edge v u with
          | none => exact ⟨fun s' hs => (by cases hs), fun x s' hs => (by cases hs)⟩
          | some e2 => exact ⟨fun s' hs => (by cases hs; exact ⟨_, rfl, rfl, rfl⟩), fun x s' hs => (by cases hs)⟩
  | addEdge a b p =>
    simp only [GS.exec, GS.addEdge, hb, orCreate_bare]
    obtain ⟨h1, h2⟩ := addEdgeD_bare (u := (GS.orCreate a (s.g.vertexOf a) s).2)
      (v := (GS.orCreate b (s.g.vertexOf b) (GS.orCreate a (s.g.vertexOf a) s).1).2) (p := p)
      (s := (GS.orCreate b (s.g.vertexOf b) (GS.orCreate a (s.g.vertexOf a) s).1).1)
    simp only [orCreate_subs] at h1 h2
    exact ⟨h1, h2⟩
  | removeEdge _ _ => cases hc
  | disconnectFrame _ => cases hc
  | getTree _ _ _ => cases hc
  | unsubscribeView _ => cases hc

/-- no self edge is added -/
def _root_.Verif.GS.Cmd.noLoop : Cmd F E → Prop
  | .addEdge a b _ => a ≠ b
  | _ => True

theorem exec_blind (h : SimV s A S) {c : Cmd F E} (hb : c.blind) (hc : c.noLoop) :
    (∀ s', GS.exec c s = .ok () s' → ∃ A', A.StepV S c none A' ∧ Sim s'.bare A' ∧ s'.subs = s.subs) ∧
    (∀ x s', GS.exec c s = .throw x s' → ∃ A', A.StepV S c (some x) A' ∧ Sim s'.bare A' ∧ s'.subs = s.subs) := by
  have hp : c.plain := by cases c <;> first | exact hc | trivial
  obtain ⟨h1, h2⟩ := exec_bare hb s
  have h3 := h.sim.exec hp
  constructor
  · intro s' hs
    obtain ⟨t, ht, hg, hsub⟩ := h1 s' hs
    rcases h3 with ⟨a1, t', a2, a3⟩ | ⟨x, -, -, a2⟩
    · rw [ht] at a2
      cases a2
      exact ⟨_, a1 ▸ AGraph.StepV.same c, a3.of_g hg, hsub⟩
    · rw [ht] at a2; cases a2
  · intro x s' hs
    obtain ⟨t, ht, hg, hsub⟩ := h2 x s' hs
    rcases h3 with ⟨-, t', a2, -⟩ | ⟨x', a1, a3, a2⟩
    · rw [ht] at a2; cases a2
    · rw [ht] at a2
      cases a2
      exact ⟨_, a1 ▸ AGraph.StepV.same c, a3.symm ▸ h.sim.of_g hg, hsub⟩

theorem exec_removals (h : SimV s A S) {c : Cmd F E} (hb : (∃ a b, c = .removeEdge a b) ∨ ∃ f, c = .disconnectFrame f) :
    (∀ s', GS.exec c s = .ok () s' → ∃ A', A.StepV S c none A' ∧ Sim s'.bare A' ∧ s'.subs = s.subs) ∧
    (∀ x s', GS.exec c s = .throw x s' → ∃ A', A.StepV S c (some x) A' ∧ Sim s'.bare A' ∧ s'.subs = s.subs) := by
  have hbv : ∀ f, s.bare.g.vertexOf f = s.g.vertexOf f := fun _ => rfl
  have same : ∀ {x : Exn}, (A.step c).1 = some x → (A.step c).2 = A →
      ∃ A', A.StepV S c (some x) A' ∧ Sim s.bare A' ∧ s.subs = s.subs := by
    intro x h1 h2
    exact ⟨_, h1 ▸ AGraph.StepV.same c, h2.symm ▸ h.sim, rfl⟩
  rcases hb with ⟨a, b, rfl⟩ | ⟨f, rfl⟩
  · simp only [GS.exec, GS.removeEdge]
    cases hu : s.g.vertexOf a with
    | none =>
      refine ⟨fun s' hs => (by cases hs), fun x s' hs => ?_⟩
      cases hs
      have ha : a ∉ A.frames := by rw [← h.sim.frames, hbv, hu]; simp
      exact same (by simp only [AGraph.step, ha, not_false_eq_true, if_true]) (by simp only [AGraph.step, ha, not_false_eq_true, if_true])
    | some u =>
      have ha : a ∈ A.frames := by rw [← h.sim.frames, hbv, hu]; simp
      cases hv : s.g.vertexOf b with
      | none =>
        refine ⟨fun s' hs => (by cases hs), fun x s' hs => ?_⟩
        cases hs
        have hb : b ∉ A.frames := by rw [← h.sim.frames, hbv, hv]; simp
        exact same (by simp only [AGraph.step, ha, hb, not_true_eq_false, if_false, not_false_eq_true, if_true])
          (by simp only [AGraph.step, ha, hb, not_true_eq_false, if_false, not_false_eq_true, if_true])
      | some v =>
        have hb : b ∈ A.frames := by rw [← h.sim.frames, hbv, hv]; simp
        simp only
        have hes := edge_isSome h.sim hu hv
        cases he : s.g.edge u v with
        | none =>
          rw [he] at hes
          have he' : ¬ (A.edges a b).isSome := by rw [← hes]; simp
          have : GS.removeEdgeBoth a b u v s = .throw (.unknownEdge a b) s := by simp [GS.removeEdgeBoth, he]
          rw [this]
          refine ⟨fun s' hs => (by cases hs), fun x s' hs => ?_⟩
          cases hs
          exact same (by simp only [AGraph.step, ha, hb, he', not_true_eq_false, if_false]; rfl)
            (by simp only [AGraph.step, ha, hb, he', not_true_eq_false, if_false]; rfl)
        | some e =>
          rw [he] at hes
          have he' : (A.edges a b).isSome := by rw [← hes]; simp
          obtain ⟨k1, k2⟩ := SimV.removeEdgeBoth h.sim hu hv (by rw [he]; simp)
          constructor
          · intro s' hs
            obtain ⟨j1, j2, -⟩ := k1 s' hs
            have e1 : A.step (Cmd.removeEdge a b : Cmd F E) = (none, A.disconnect a b) := by
              simp only [AGraph.step, ha, hb, he', not_true_eq_false, if_false, if_true]
            have := AGraph.StepV.same (S := S) (A := A) (Cmd.removeEdge a b : Cmd F E)
            rw [e1] at this
            exact ⟨_, this, j1, j2⟩
          · intro x s' hs
            obtain ⟨j1, j2, j3, m, rfl⟩ := k2 x s' hs
            exact ⟨_, .removeEdge a b m (h.nonempty j3) he', j1, j2⟩
  · simp only [GS.exec, GS.disconnectFrame]
    cases hv : s.g.vertexOf f with
    | none =>
      refine ⟨fun s' hs => (by cases hs), fun x s' hs => ?_⟩
      cases hs
      have hf : f ∉ A.frames := by rw [← h.sim.frames, hbv, hv]; simp
      exact same (by simp only [AGraph.step, hf, not_false_eq_true, if_true]) (by simp only [AGraph.step, hf, not_false_eq_true, if_true])
    | some v =>
      have hf : f ∈ A.frames := by rw [← h.sim.frames, hbv, hv]; simp
      obtain ⟨k1, k2⟩ := SimV.disconnectLoop s.g.edges.length h.sim hv
      constructor
      · intro s' hs
        obtain ⟨j1, j2⟩ := k1 s' hs
        have e1 : A.step (Cmd.disconnectFrame f : Cmd F E) = (none, A.isolate f) := by
          simp only [AGraph.step, hf, not_true_eq_false, if_false]
        have := AGraph.StepV.same (S := S) (A := A) (Cmd.disconnectFrame f : Cmd F E)
        rw [e1] at this
        exact ⟨_, this, j1, j2⟩
      · intro x s' hs
        obtain ⟨j1, j2, ⟨m, rfl⟩, N, j4, j5, j6⟩ := k2 x s' hs
        exact ⟨_, .disconnectFrame f N m (h.nonempty j2) j4 j5, j6, j1⟩

theorem exec (h : SimV s A S) {c : Cmd F E} (hc : c.noLoop) :
    (∀ s', GS.exec c s = .ok () s' → ∃ A', A.StepV S c none A' ∧ SimV s' A' (AGraph.subsAfter S true c)) ∧
    (∀ x s', GS.exec c s = .throw x s' → ∃ A', A.StepV S c (some x) A' ∧ SimV s' A' (AGraph.subsAfter S false c)) := by
  have inv1 : ∀ {s'}, GS.exec c s = .ok () s' → GS.SubsInv s' := fun hs => exec_subsInv h.inv (by rw [hs]; rfl)
  have inv2 : ∀ {x s'}, GS.exec c s = .throw x s' → GS.SubsInv s' := fun hs => exec_subsInv h.inv (by rw [hs]; rfl)
  have lift : (AGraph.subsAfter S true c = S) → (AGraph.subsAfter S false c = S) →
      ((∀ s', GS.exec c s = .ok () s' → ∃ A', A.StepV S c none A' ∧ Sim s'.bare A' ∧ s'.subs = s.subs) ∧
       (∀ x s', GS.exec c s = .throw x s' → ∃ A', A.StepV S c (some x) A' ∧ Sim s'.bare A' ∧ s'.subs = s.subs)) →
      (∀ s', GS.exec c s = .ok () s' → ∃ A', A.StepV S c none A' ∧ SimV s' A' (AGraph.subsAfter S true c)) ∧
      (∀ x s', GS.exec c s = .throw x s' → ∃ A', A.StepV S c (some x) A' ∧ SimV s' A' (AGraph.subsAfter S false c)) := by
    rintro e1 e2 ⟨h1, h2⟩
    rw [e1, e2]
    constructor
    · intro s' hs
      obtain ⟨A', a1, a2, a3⟩ := h1 s' hs
      exact ⟨A', a1, a2, inv1 hs, by rw [a3]; exact h.subs⟩
    · intro x s' hs
      obtain ⟨A', a1, a2, a3⟩ := h2 x s' hs
      exact ⟨A', a1, a2, inv2 hs, by rw [a3]; exact h.subs⟩
  cases c with
  | addFrame f => exact lift rfl rfl (h.exec_blind trivial hc)
  | emplaceFrame f p => exact lift rfl rfl (h.exec_blind trivial hc)
  | removeFrame f => exact lift rfl rfl (h.exec_blind trivial hc)
  | setEdge a b p => exact lift rfl rfl (h.exec_blind trivial hc)
  | addEdge a b p => exact lift rfl rfl (h.exec_blind trivial hc)
  | removeEdge a b => exact lift rfl rfl (h.exec_removals (.inl ⟨a, b, rfl⟩))
  | disconnectFrame f => exact lift rfl rfl (h.exec_removals (.inr ⟨f, rfl⟩))
  | unsubscribeView p =>
    refine ⟨fun s' hs => ?_, fun x s' hs => (by cases hs)⟩
    have hinv := inv1 hs
    cases hs
    refine ⟨_, AGraph.StepV.same _, h.sim.of_g (unsubscribeView_same p s).1, hinv, ?_⟩
    intro q
    have hs := (h.inv.2 p)
    simp only [AGraph.subsAfter, Finset.mem_erase, ← h.subs, GS.unsubscribeView]
    split
    · simp [and_comm]
    · rename_i hn
      constructor
      · intro hq
        refine ⟨?_, hq⟩
        rintro rfl
        exact hn (hs.1 hq)
      · exact fun hq => hq.2
  | getTree f k p =>
    cases hv : s.g.vertexOf f with
    | none =>
      have hf : f ∉ A.frames := by
        rw [← h.sim.frames]
        have : s.bare.g.vertexOf f = none := hv
        rw [this]; simp
      have e : GS.exec (Cmd.getTree f k p : Cmd F E) s = .throw (.unknownFrame f) s := by simp [GS.exec, getTree, hv]
      rw [e]
      refine ⟨fun s' hs => (by cases hs), fun x s' hs => ?_⟩
      cases hs
      have e1 : A.step (Cmd.getTree f k p : Cmd F E) = (some (.unknownFrame f), A) := by
        simp only [AGraph.step, hf, not_false_eq_true, if_true]
      have := AGraph.StepV.same (S := S) (A := A) (Cmd.getTree f k p : Cmd F E)
      rw [e1] at this
      exact ⟨_, this, h.sim, h.inv, by cases k <;> exact h.subs⟩
    | some v =>
      have hf : f ∈ A.frames := by
        rw [← h.sim.frames]
        have : s.bare.g.vertexOf f = some v := hv
        rw [this]; simp
      have e1 : A.step (Cmd.getTree f k p : Cmd F E) = (none, A) := by
        simp only [AGraph.step, hf, not_true_eq_false, if_false]
      have st := AGraph.StepV.same (S := S) (A := A) (Cmd.getTree f k p : Cmd F E)
      rw [e1] at st
      obtain ⟨evs, lvl, h1, -⟩ := searchEvents_done (g := s.g) h.wf (h.wf.live hv)
      have hex : GS.exec (Cmd.getTree f k p : Cmd F E) s =
          (if k then subscribeTreeView p { s with views := setView s.views p (((s.views p).addRoot v).build evs) }
            else .ok () { s with views := setView s.views p (((s.views p).addRoot v).build evs) }) := by
        simp [GS.exec, getTree, hv, getTreeInto, h1]
      cases k with
      | false =>
        have hex' := hex
        simp only [Bool.false_eq_true, if_false] at hex'
        refine ⟨fun s' hs => ?_, fun x s' hs => ?_⟩
        · have hinv := inv1 hs
          rw [hex'] at hs
          cases hs
          exact ⟨_, st, h.sim.of_g rfl, hinv, h.subs⟩
        · rw [hex'] at hs; cases hs
      | true =>
        have hex' := hex
        simp only [if_true, subscribeTreeView] at hex'
        refine ⟨fun s' hs => ?_, fun x s' hs => ?_⟩
        · have hinv := inv1 hs
          rw [hex'] at hs
          split at hs
          · cases hs
          · cases hs
            refine ⟨_, st, h.sim.of_g rfl, hinv, ?_⟩
            intro q
            simp only [AGraph.subsAfter, if_true, Finset.mem_insert, List.mem_append, List.mem_singleton, h.subs]
            exact or_comm
        · rw [hex'] at hs
          split at hs <;> cases hs

/-- histories -/
theorem outcomes {cs : List (Cmd F E)} (hcs : ∀ c ∈ cs, c.noLoop) : ∀ {s s' : GS F E} {A : AGraph E} {S : Finset Nat} {xs : List (Option Exn)},
    SimV s A S → GS.outcomes cs s = some (xs, s') → ∃ A' S', A.RunV S cs xs A' S' ∧ SimV s' A' S' := by
  induction cs with
  | nil =>
    intro s s' A S xs h ho
    simp only [GS.outcomes, Option.some.injEq, Prod.mk.injEq] at ho
    obtain ⟨rfl, rfl⟩ := ho
    exact ⟨A, S, .nil A S, h⟩
  | cons c cs ih =>
    intro s s' A S xs h ho
    obtain ⟨h1, h2⟩ := h.exec (hcs c (by simp))
    unfold GS.outcomes at ho
    cases hx : GS.exec c s with
    | ok a s1 =>
      simp only [hx, Option.map_eq_some_iff, Prod.mk.injEq] at ho
      obtain ⟨⟨xs1, s2⟩, ho, rfl, rfl⟩ := ho
      obtain ⟨A1, a1, a2⟩ := h1 s1 hx
      obtain ⟨A', S', b1, b2⟩ := ih (fun c hc => hcs c (by simp [hc])) a2 ho
      exact ⟨A', S', .cons a1 b1, b2⟩
    | throw x s1 =>
      simp only [hx, Option.map_eq_some_iff, Prod.mk.injEq] at ho
      obtain ⟨⟨xs1, s2⟩, ho, rfl, rfl⟩ := ho
      obtain ⟨A1, a1, a2⟩ := h2 x s1 hx
      obtain ⟨A', S', b1, b2⟩ := ih (fun c hc => hcs c (by simp [hc])) a2 ho
      exact ⟨A', S', .cons a1 b1, b2⟩
    | ub r => simp [hx] at ho

/-- in a graph without cycles no removal throws a `runtime_error` -/
theorem tree_throw {c : Cmd F E} {s s' : GS F E} {x : Exn} (h : TreeInv s) (hb : (∃ a b, c = .removeEdge a b) ∨ ∃ f, c = .disconnectFrame f)
    (hx : GS.exec c s = .throw x s') (m : String) : x ≠ .runtimeError m := by
  rintro rfl
  rcases hb with ⟨a, b, rfl⟩ | ⟨f, rfl⟩
  · simp only [GS.exec, GS.removeEdge] at hx
    cases hu : s.g.vertexOf a with
    | none => simp [hu] at hx
    | some u =>
      cases hv : s.g.vertexOf b with
      | none => simp [hu, hv] at hx
      | some v =>
        simp only [hu, hv] at hx
        cases he : s.g.edge u v with
        | none => simp [GS.removeEdgeBoth, he] at hx
        | some e =>
          obtain ⟨s1, h1, -, -⟩ := removeEdgeBoth_follows h.wf h.paired h.views a b he (h.views.clean h.paired h.forest _ _)
          rw [h1] at hx; cases hx
  · simp only [GS.exec, GS.disconnectFrame] at hx
    cases hv : s.g.vertexOf f with
    | none => simp [hv] at hx
    | some v =>
      obtain ⟨s1, h1, -, -⟩ := disconnectLoop_follows s.g.edges.length h.wf h.paired h.forest h.views (h.wf.live hv)
        (List.length_filter_le _ _)
      simp only [hv] at hx
      rw [h1] at hx; cases hx

theorem stepV_eq {A A' : AGraph E} {S : Finset Nat} {c : Cmd F E} {x : Option Exn} (h : A.StepV S c x A')
    (hn : (∃ a b, c = .removeEdge a b) ∨ (∃ f, c = .disconnectFrame f) → ∀ m, x ≠ some (.runtimeError m)) :
    x = (A.step c).1 ∧ A' = (A.step c).2 := by
  cases h with
  | same => exact ⟨rfl, rfl⟩
  | removeEdge a b m => exact absurd rfl (hn (.inl ⟨a, b, rfl⟩) m)
  | disconnectFrame f N m => exact absurd rfl (hn (.inr ⟨f, rfl⟩) m)

/-- histories without cycles: exactly the abstract machine, with any views -/
theorem tree_outcomes {cs : List (Cmd F E)} : ∀ {s : GS F E} {A : AGraph E} {S : Finset Nat}, TreeInv s → SimV s A S → TreeHistory cs s →
    ∃ s' S', GS.outcomes cs s = some ((A.run cs).1, s') ∧ GS.run cs s = some s' ∧ SimV s' (A.run cs).2 S' := by
  induction cs with
  | nil => intro s A S _ h _; exact ⟨s, S, rfl, rfl, h⟩
  | cons c cs ih =>
    intro s A S hi h ht
    have hl : c.noLoop := by
      have := ht.1
      cases c <;> first | exact this.1 | trivial
    obtain ⟨h1, h2⟩ := h.exec hl
    obtain ⟨s1, g1, g2⟩ := hi.exec ht.1
    have ht1 := ht.cons g1
    cases hx : GS.exec c s with
    | ok a t =>
      rw [hx] at g1; cases g1
      obtain ⟨A1, a1, a2⟩ := h1 _ hx
      obtain ⟨b1, rfl⟩ := stepV_eq a1 (fun _ m => by simp)
      obtain ⟨s2, S2, c1, c2, c3⟩ := ih g2 a2 ht1
      refine ⟨s2, S2, ?_, ?_, c3⟩
      · simp [GS.outcomes, hx, c1, AGraph.run, ← b1]
      · simp [GS.run, hx, c2]
    | throw x t =>
      rw [hx] at g1; cases g1
      obtain ⟨A1, a1, a2⟩ := h2 _ _ hx
      obtain ⟨b1, rfl⟩ := stepV_eq a1 (fun hb m he => tree_throw hi hb hx m (Option.some.inj he))
      obtain ⟨s2, S2, c1, c2, c3⟩ := ih g2 a2 ht1
      refine ⟨s2, S2, ?_, ?_, c3⟩
      · simp [GS.outcomes, hx, c1, AGraph.run, ← b1]
      · simp [GS.run, hx, c2]
    | ub r => rw [hx] at g1; cases g1

end SimV
end Verif
