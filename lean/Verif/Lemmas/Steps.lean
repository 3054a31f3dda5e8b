import Verif.Lemmas.WF

set_option linter.unusedSectionVars false
set_option linter.unusedSimpArgs false
/-! Every call of the graph API is a sequence of labelled elementary steps; invariants are proved per step. -/

namespace Verif
variable {F E : Type} [FrameProp F] [EdgeProp E]

theorem G.edge_setProp (g : G F E) (e : EId) (p : E) (u v : VId) :
    (g.setProp e p).edge u v = (g.edge u v).map (fun r => if r.id = e then { r with prop := p } else r) := by
  simp only [G.edge, G.outEdges, G.setProp, List.filter_map, List.find?_map]
  have h1 : ((fun e : ERec E => decide (e.src = u)) ∘ fun r => if r.id = e then { r with prop := p } else r)
      = fun e : ERec E => decide (e.src = u) := by
    funext r; simp only [Function.comp]; split <;> rfl
  have h2 : ((fun e : ERec E => decide (e.tgt = v)) ∘ fun r => if r.id = e then { r with prop := p } else r)
      = fun e : ERec E => decide (e.tgt = v) := by
    funext r; simp only [Function.comp]; split <;> rfl
  rw [h1, h2]

/-- One elementary change of the graph together with the event it publishes and the graph seen by the handlers. -/
inductive GStep : G F E → Event × G F E → G F E → Prop
  | addV {g : G F E} {f : FrameId} {p : F} (hn : g.vertexOf f = none) (hp : FrameProp.getId p = f) :
      GStep g (.frameAdded f, (g.addVertex f p).1) (g.addVertex f p).1
  | dupV {g : G F E} {f : FrameId} {v : VId} (hv : g.vertexOf f = some v) : GStep g (.frameAdded f, g) g
  | addE {g : G F E} {a b : FrameId} {u v : VId} {p : E} (ha : g.vertexOf a = some u) (hb : g.vertexOf b = some v)
      (hn : g.edge u v = none) :
      GStep g (.edgeAdded a b g.nextE, ((g.addEdge u v p).1.addEdge v u (EdgeProp.inverse p)).1)
        ((g.addEdge u v p).1.addEdge v u (EdgeProp.inverse p)).1
  | rmE {g g1 g2 : G F E} {a b : FrameId} {u v : VId} {e1 e2 : ERec E} (ha : g.vertexOf a = some u)
      (hb : g.vertexOf b = some v) (h1 : g.edge u v = some e1) (h2 : g.edge v u = some e2)
      (hg1 : g.removeEdge e1.id = some g1) (hg2 : g1.removeEdge e2.id = some g2) :
      GStep g (.edgeRemoved a b, g1) g2
  | setP {g : G F E} {a b : FrameId} {u v : VId} {e1 e2 : ERec E} {p : E} (ha : g.vertexOf a = some u)
      (hb : g.vertexOf b = some v) (h1 : g.edge u v = some e1) (h2 : (g.setProp e1.id p).edge v u = some e2) :
      GStep g (.edgeModified a b e1.id e2.id, (g.setProp e1.id p).setProp e2.id (EdgeProp.inverse p))
        ((g.setProp e1.id p).setProp e2.id (EdgeProp.inverse p))
  | rmV {g : G F E} {f : FrameId} {v : VId} (hv : g.vertexOf f = some v) (hd : g.degree v = 0) :
      GStep g (.frameRemoved f, g.removeVertex v f) (g.removeVertex v f)

/-- A sequence of elementary steps with its labels; `P` holds for the graph before each step and its event. -/
inductive GSteps (P : G F E → Event → Prop) : G F E → List (Event × G F E) → G F E → Prop
  | nil (g : G F E) : GSteps P g [] g
  | cons {g g' g'' : G F E} {x : Event × G F E} {l : List (Event × G F E)} (h : GStep g x g') (hx : P g x.1)
      (t : GSteps P g' l g'') : GSteps P g (x :: l) g''

theorem GSteps.append {P : G F E → Event → Prop} {g g' g'' : G F E} {l l' : List (Event × G F E)} (h : GSteps P g l g')
    (h' : GSteps P g' l' g'') : GSteps P g (l ++ l') g'' := by
  induction h with
  | nil => exact h'
  | cons h hx _ ih => exact .cons h hx (ih h')

theorem GSteps.mono {P Q : G F E → Event → Prop} {g g' : G F E} {l : List (Event × G F E)} (h : GSteps P g l g')
    (hPQ : ∀ g e, P g e → Q g e) : GSteps Q g l g' := by
  induction h with
  | nil => exact .nil _
  | cons h hx _ ih => exact .cons h (hPQ _ _ hx) ih

theorem WF.live {g : G F E} (h : WF g) {f : FrameId} {v : VId} (hv : g.vertexOf f = some v) :
    ∃ r ∈ g.verts, r.id = v := by
  obtain ⟨r, hr, h1, -⟩ := h.vertexOf_iff.1 hv
  exact ⟨r, hr, h1⟩

theorem GStep.wf {g g' : G F E} {x : Event × G F E} (hs : GStep g x g') (h : WF g) : WF g' := by
  cases hs with
  | addV hn hp => exact h.addVertex hp
  | dupV => exact h
  | addE ha hb hn => exact (h.addEdge (h.live ha) (h.live hb)).addEdge (h.live hb) (h.live ha)
  | rmE ha hb h1 h2 hg1 hg2 => exact (h.removeEdge hg1).removeEdge hg2
  | setP ha hb h1 h2 => exact (h.setProp _ _).setProp _ _
  | rmV hv hd => exact h.removeVertex hv hd

theorem GSteps.wf {P : G F E → Event → Prop} {g g' : G F E} {l : List (Event × G F E)} (hs : GSteps P g l g') (h : WF g) :
    WF g' := by
  induction hs with
  | nil => exact h
  | cons hs _ _ ih => exact ih (hs.wf h)

/-- is the event the addition of a self edge -/
def Event.isSelfAdd : Event → Prop
  | .edgeAdded a b _ => a = b
  | _ => False

theorem Paired.setPair {g : G F E} (h : Paired g) (hw : (g.edges.map ERec.id).Nodup) {u v : VId} {e1 e2 : ERec E} {p : E}
    (h1 : g.edge u v = some e1) (h2 : (g.setProp e1.id p).edge v u = some e2) :
    Paired ((g.setProp e1.id p).setProp e2.id (EdgeProp.inverse p)) := by
  obtain ⟨m1, s1, t1⟩ := G.edge_some h1
  rw [G.edge_setProp] at h2
  obtain ⟨e2', h2', hee⟩ := Option.map_eq_some_iff.1 h2
  obtain ⟨m2, s2, t2⟩ := G.edge_some h2'
  have hid : e2.id = e2'.id := by rw [← hee]; split <;> rfl
  have huv : u ≠ v := by rw [← s1, ← t1]; exact h.noself e1 m1
  have hne : e1.id ≠ e2'.id := by
    intro hh
    have := map_inj_of_nodup hw m1 m2 hh
    subst this
    exact huv (s1.symm.trans s2)
  rw [hid]
  have key : ∀ r ∈ ((g.setProp e1.id p).setProp e2'.id (EdgeProp.inverse p)).edges, ∃ r' ∈ g.edges,
      r.id = r'.id ∧ r.src = r'.src ∧ r.tgt = r'.tgt ∧
      r.prop = if r'.id = e2'.id then EdgeProp.inverse p else if r'.id = e1.id then p else r'.prop := by
    intro r hr
    obtain ⟨r1, hr1, a1, a2, a3, a4⟩ := G.mem_setProp hr
    obtain ⟨r2, hr2, b1, b2, b3, b4⟩ := G.mem_setProp hr1
    refine ⟨r2, hr2, a1.trans b1, a2.trans b2, a3.trans b3, ?_⟩
    rw [a4, b4, b1]
  constructor
  · intro r hr
    obtain ⟨r', hr', -, a2, a3, -⟩ := key r hr
    rw [a2, a3]; exact h.noself r' hr'
  · intro r hr r' hr' c1 c2
    obtain ⟨q, hq, a1, a2, a3, a4⟩ := key r hr
    obtain ⟨q', hq', b1, b2, b3, b4⟩ := key r' hr'
    have : q = q' := h.uniq q hq q' hq' (by rw [← a2, ← b2, c1]) (by rw [← a3, ← b3, c2])
    subst this
    cases r; cases r'; simp_all
  · intro r hr
    obtain ⟨q, hq, a1, a2, a3, a4⟩ := key r hr
    obtain ⟨q', hq', b1, b2, b3⟩ := h.inv q hq
    refine ⟨_, G.mem_setProp_of (G.mem_setProp_of hq'), ?_, ?_, ?_⟩
    · have : ∀ (x : ERec E) (e : EId) (p : E), (if x.id = e then { x with prop := p } else x).src = x.src := by
        intro x e p; split <;> rfl
      rw [this, this, b1, a3]
    · have : ∀ (x : ERec E) (e : EId) (p : E), (if x.id = e then { x with prop := p } else x).tgt = x.tgt := by
        intro x e p; split <;> rfl
      rw [this, this, b2, a2]
    · have hi : ∀ (x : ERec E) (e : EId) (p : E), (if x.id = e then { x with prop := p } else x).id = x.id := by
        intro x e p; split <;> rfl
      have hp : ∀ (x : ERec E) (e : EId) (p : E),
          (if x.id = e then { x with prop := p } else x).prop = if x.id = e then p else x.prop := by
        intro x e p; split <;> rfl
      rw [hp, hp, hi, a4]
      by_cases c1 : q.id = e1.id
      · have := map_inj_of_nodup hw hq m1 c1
        subst this
        have : q' = e2' := h.uniq q' hq' e2' m2 (by rw [b1, s2, t1]) (by rw [b2, t2, s1])
        subst this
        rw [if_pos rfl, if_neg hne, if_pos rfl]; exact Or.inl rfl
      · by_cases c2 : q.id = e2'.id
        · have := map_inj_of_nodup hw hq m2 c2
          subst this
          have : q' = e1 := h.uniq q' hq' e1 m1 (by rw [b1, s1, t2]) (by rw [b2, t1, s2])
          subst this
          rw [if_neg hne, if_pos rfl, if_pos rfl]; exact Or.inr rfl
        · have c3 : q'.id ≠ e1.id := by
            intro hh
            have := map_inj_of_nodup hw hq' m1 hh
            subst this
            exact c2 (congrArg ERec.id (h.uniq q hq e2' m2 (by rw [← b2, s2, t1]) (by rw [← b1, t2, s1])))
          have c4 : q'.id ≠ e2'.id := by
            intro hh
            have := map_inj_of_nodup hw hq' m2 hh
            subst this
            exact c1 (congrArg ERec.id (h.uniq q hq e1 m1 (by rw [← b2, s1, t2]) (by rw [← b1, t1, s2])))
          rw [if_neg c4, if_neg c3, if_neg c2, if_neg c1]; exact b3

theorem GStep.paired {g g' : G F E} {x : Event × G F E} (hs : GStep g x g') (h : WF g) (hp : Paired g)
    (hx : ¬ x.1.isSelfAdd) : Paired g' := by
  cases hs with
  | addV hn hp' =>
    refine hp.of_edges ?_
    unfold G.addVertex; split <;> rfl
  | dupV => exact hp
  | addE ha hb hn =>
    refine hp.addPair ?_ hn
    rintro rfl
    exact hx (h.vertexOf_inj ha hb)
  | rmE ha hb h1 h2 hg1 hg2 => exact hp.removePair h1 h2 hg1 hg2 h.enodup
  | setP ha hb h1 h2 => exact hp.setPair h.enodup h1 h2
  | rmV hv hd => exact hp.of_edges rfl

theorem GSteps.paired {P : G F E → Event → Prop} {g g' : G F E} {l : List (Event × G F E)} (hs : GSteps P g l g') (h : WF g)
    (hp : Paired g) (hx : ∀ g e, P g e → ¬ e.isSelfAdd) : Paired g' := by
  induction hs with
  | nil => exact hp
  | cons hs hP _ ih => exact ih (hs.wf h) (hs.paired h hp (hx _ _ hP))

/-- The state after a call, also if it threw. -/
def Res.st? {σ α : Type} : Res σ α → Option σ
  | .ok _ s => some s
  | .throw _ s => some s
  | .ub _ => none

/-- `s'` results from `s` by elementary steps whose labels were appended to the trace. `P` holds for the graph before each step
and its event. -/
def Advances (P : G F E → Event → Prop) (s s' : GS F E) : Prop :=
  ∃ l, GSteps P s.g l s'.g ∧ s'.trace = s.trace ++ l

theorem Advances.refl {P : G F E → Event → Prop} {s s' : GS F E} (hg : s'.g = s.g) (ht : s'.trace = s.trace) :
    Advances P s s' :=
  ⟨[], by rw [hg]; exact .nil _, by rw [ht]; simp⟩

theorem Advances.trans {P : G F E → Event → Prop} {s s' s'' : GS F E} (h : Advances P s s') (h' : Advances P s' s'') :
    Advances P s s'' := by
  obtain ⟨l, a1, a2⟩ := h
  obtain ⟨l', b1, b2⟩ := h'
  exact ⟨l ++ l', a1.append b1, by rw [b2, a2, List.append_assoc]⟩

theorem Advances.mono {P Q : G F E → Event → Prop} {s s' : GS F E} (h : Advances P s s') (hPQ : ∀ g e, P g e → Q g e) :
    Advances Q s s' := by
  obtain ⟨l, a1, a2⟩ := h
  exact ⟨l, a1.mono hPQ, a2⟩

theorem Advances.of_step {P : G F E → Event → Prop} {s s' : GS F E} {x : Event × G F E} (h : GStep s.g x s'.g)
    (ht : s'.trace = s.trace ++ [x]) (hx : P s.g x.1) : Advances P s s' :=
  ⟨[x], .cons h hx (.nil _), ht⟩

theorem Advances.wf {P : G F E → Event → Prop} {s s' : GS F E} (h : Advances P s s') (hw : WF s.g) : WF s'.g := by
  obtain ⟨l, a1, -⟩ := h
  exact a1.wf hw

/-- the event announces a frame that was there before -/
def Event.isDup (g : G F E) : Event → Prop
  | .frameAdded f => (g.vertexOf f).isSome
  | _ => False

namespace GS

theorem addVertexN_advances {f : FrameId} {p : F} {s : GS F E} (hp : FrameProp.getId p = f) :
    Advances (fun g e => e = .frameAdded f ∧ g.vertexOf f = s.g.vertexOf f) s (addVertexN f p s).1 := by
  cases hv : s.g.vertexOf f with
  | none => exact .of_step (GStep.addV hv hp) rfl ⟨rfl, hv⟩
  | some v =>
    have : s.g.addVertex f p = (s.g, v) := by
      unfold G.addVertex
      have hv' : s.g.labels.get f = some v := hv
      rw [hv']
    refine .of_step (x := (.frameAdded f, s.g)) ?_ ?_ ⟨rfl, hv⟩
    · simp only [addVertexN, notify, this]; exact GStep.dupV hv
    · simp only [addVertexN, notify, this]

theorem addVertexN_vertexOf {f : FrameId} {p : F} {s : GS F E} :
    (addVertexN f p s).1.g.vertexOf f = some (addVertexN f p s).2 := by
  simp only [addVertexN, notify, G.addVertex, G.vertexOf]
  split
  · rename_i v hv; simpa using hv
  · rename_i hv; simp [AMap.get_append, hv, AMap.get_cons]

theorem addVertexN_vertexOf_mono {f f' : FrameId} {p : F} {s : GS F E} {v : VId} (h : s.g.vertexOf f' = some v) :
    (addVertexN f p s).1.g.vertexOf f' = some v := by
  simp only [addVertexN, notify, G.addVertex]
  split
  · exact h
  · simp only [G.vertexOf] at h ⊢
    simp [AMap.get_append, h]

theorem addFrame_advances {f : FrameId} {s s' : GS F E} (h : (addFrame f s).st? = some s') :
    Advances (fun g e => e = .frameAdded f ∧ g.vertexOf f = none) s s' := by
  unfold addFrame at h
  split at h
  · rename_i hn
    simp only [Res.st?, Option.some.injEq] at h
    subst h
    exact (addVertexN_advances (FrameProp.getId_setId _ _)).mono (fun g e he => ⟨he.1, he.2.trans hn⟩)
  · simp only [Res.st?, Option.some.injEq] at h
    subst h
    exact .refl rfl rfl

theorem emplaceFrame_advances {f : FrameId} {p : F} {s s' : GS F E} (h : (emplaceFrame f p s).st? = some s') :
    Advances (fun g e => e = .frameAdded f ∧ g.vertexOf f = none) s s' := by
  unfold emplaceFrame at h
  split at h
  · rename_i hn
    simp only [Res.st?, Option.some.injEq] at h
    subst h
    exact (addVertexN_advances (FrameProp.getId_setId _ _)).mono (fun g e he => ⟨he.1, he.2.trans hn⟩)
  · simp only [Res.st?, Option.some.injEq] at h
    subst h
    exact .refl rfl rfl

theorem addEdgeToTreeView_not_throw {g : G F E} {e : ERec E} {w : TreeView} (h1 : (g.edge e.src e.tgt).isSome)
    (h2 : (g.edge e.tgt e.src).isSome) {x : Exn} {w' : TreeView} : addEdgeToTreeView g e w ≠ .throw x w' := by
  obtain ⟨e1, h1⟩ := Option.isSome_iff_exists.1 h1
  obtain ⟨e2, h2⟩ := Option.isSome_iff_exists.1 h2
  unfold addEdgeToTreeView
  simp only
  split
  · split <;> simp
  · split
    · unfold addEdgeToTreeView.attach
      simp only [h1, h2]
      split
      · split <;> simp
      · simp
    · split
      · unfold addEdgeToTreeView.attach
        simp only [h1, h2]
        split
        · split <;> simp
        · simp
      · simp

theorem addEdgeToTreeViews_not_throw {g : G F E} {e : ERec E} (h1 : (g.edge e.src e.tgt).isSome)
    (h2 : (g.edge e.tgt e.src).isSome) {x : Exn} {ps : List Nat} : ∀ {vs vs' : Nat → TreeView},
    addEdgeToTreeViews g e ps vs ≠ .throw x vs' := by
  induction ps with
  | nil => intro vs vs'; simp [addEdgeToTreeViews]
  | cons p ps ih =>
    intro vs vs'
    unfold addEdgeToTreeViews
    split
    · exact ih
    · rename_i h; exact absurd h (addEdgeToTreeView_not_throw h1 h2)
    · simp

theorem edge_addPair_fst {g : G F E} {u v : VId} {p q : E} :
    (((g.addEdge u v p).1.addEdge v u q).1.edge u v).isSome := by
  rw [G.edge_isSome]
  exact ⟨⟨g.nextE, u, v, p⟩, by simp [G.addEdge], rfl, rfl⟩

theorem edge_addPair_snd {g : G F E} {u v : VId} {p q : E} :
    (((g.addEdge u v p).1.addEdge v u q).1.edge v u).isSome := by
  rw [G.edge_isSome]
  exact ⟨⟨g.nextE + 1, v, u, q⟩, by simp [G.addEdge], rfl, rfl⟩

theorem addEdgeD_advances {a b : FrameId} {u v : VId} {p : E} {s s' : GS F E} (hw : WF s.g)
    (ha : s.g.vertexOf a = some u) (hb : s.g.vertexOf b = some v)
    (h : (addEdgeD u v p s).st? = some s') :
    Advances (fun _ e => e = .edgeAdded a b s.g.nextE) s s' := by
  obtain ⟨ru, hu, hua⟩ := hw.live_of_vertexOf ha
  obtain ⟨rv, hv, hvb⟩ := hw.live_of_vertexOf hb
  unfold addEdgeD at h
  simp only [hu, hv] at h
  split at h
  · simp only [Res.st?, Option.some.injEq] at h
    subst h
    exact .refl rfl rfl
  · rename_i hn
    split at h
    · simp only [Res.st?, Option.some.injEq] at h
      subst h
      refine .of_step (GStep.addE (p := p) ha hb hn) ?_ rfl
      simp [notify, hua, hvb, G.addEdge]
    · rename_i hh
      exact absurd hh (addEdgeToTreeViews_not_throw (e := ⟨s.g.nextE, u, v, p⟩) edge_addPair_fst edge_addPair_snd)
    · simp [Res.st?] at h

theorem orCreate_spec {f : FrameId} {s s0 : GS F E} (hmono : ∀ f v, s0.g.vertexOf f = some v → s.g.vertexOf f = some v) :
    Advances (fun g e => e = .frameAdded f ∧ g.vertexOf f = s.g.vertexOf f ∧ s0.g.vertexOf f = none) s
      (orCreate f (s0.g.vertexOf f) s).1 ∧
    (orCreate f (s0.g.vertexOf f) s).1.g.vertexOf f = some (orCreate f (s0.g.vertexOf f) s).2 ∧
    ∀ f' v, s.g.vertexOf f' = some v → (orCreate f (s0.g.vertexOf f) s).1.g.vertexOf f' = some v := by
  unfold orCreate
  split
  · rename_i hn
    exact ⟨(addVertexN_advances (FrameProp.getId_setId _ _)).mono (fun g e he => ⟨he.1, he.2, hn⟩), addVertexN_vertexOf, fun f v hf => addVertexN_vertexOf_mono hf⟩
  · rename_i v hv
    exact ⟨.refl rfl rfl, hmono _ _ hv, fun f v hf => hf⟩

/-- what `add_edge` may publish -/
def addEdgeEv (o t : FrameId) (g : G F E) (e : Event) : Prop :=
  (e = .frameAdded o ∧ g.vertexOf o = none) ∨ (e = .frameAdded t ∧ (o ≠ t → g.vertexOf t = none)) ∨ ∃ i, e = .edgeAdded o t i

theorem orCreate_vertexOf_ne {f f' : FrameId} {v : Option VId} {s : GS F E} (hne : f ≠ f') :
    (orCreate f v s).1.g.vertexOf f' = s.g.vertexOf f' := by
  unfold orCreate
  split
  · simp only [addVertexN, notify, G.addVertex]
    split
    · rfl
    · simp [G.vertexOf, AMap.get_append, AMap.get_cons, hne]
      cases AMap.get s.g.labels f' <;> rfl
  · rfl

theorem addEdge_advances {o t : FrameId} {p : E} {s s' : GS F E} (hw : WF s.g) (h : (addEdge o t p s).st? = some s') :
    Advances (addEdgeEv o t) s s' := by
  unfold addEdge at h
  simp only at h
  obtain ⟨a1, b1, c1⟩ := orCreate_spec (s := s) (s0 := s) (f := o) (fun f v h => h)
  obtain ⟨a2, b2, c2⟩ := orCreate_spec (s := (orCreate o (s.g.vertexOf o) s).1) (s0 := s) (f := t) c1
  have a3 := addEdgeD_advances ((a2.wf (a1.wf hw))) (c2 _ _ b1) b2 h
  refine ((a1.mono (fun g e he => Or.inl ⟨he.1, he.2.1.trans he.2.2⟩)).trans
    (a2.mono (fun g e he => Or.inr (Or.inl ⟨he.1, fun hne => ?_⟩)))).trans
    (a3.mono (fun _ e he => Or.inr (Or.inr ⟨_, he⟩)))
  rw [he.2.1, orCreate_vertexOf_ne hne]
  exact he.2.2

theorem removeEdgeBoth_advances {a b : FrameId} {u v : VId} {s s' : GS F E}
    (ha : s.g.vertexOf a = some u) (hb : s.g.vertexOf b = some v)
    (h : (removeEdgeBoth a b u v s).st? = some s') : Advances (fun _ e => e = .edgeRemoved a b) s s' := by
  unfold removeEdgeBoth at h
  split at h
  · rename_i e1 e2 h1 h2
    split at h
    · simp [Res.st?] at h
    · rename_i g1 hg1
      simp only at h
      split at h
      · simp [Res.st?] at h
      · rename_i g2 hg2
        have hs := GStep.rmE ha hb h1 h2 hg1 hg2
        split at h
        · simp only [Res.st?, Option.some.injEq] at h
          subst h
          exact .of_step hs rfl rfl
        · simp only [Res.st?, Option.some.injEq] at h
          subst h
          exact .of_step hs rfl rfl
        · simp [Res.st?] at h
  · simp only [Res.st?, Option.some.injEq] at h
    subst h
    exact .refl rfl rfl

theorem removeEdge_advances {a b : FrameId} {s s' : GS F E}
    (h : (removeEdge a b s).st? = some s') : Advances (fun _ e => e = .edgeRemoved a b) s s' := by
  unfold removeEdge at h
  split at h
  · simp only [Res.st?, Option.some.injEq] at h
    subst h; exact .refl rfl rfl
  · rename_i vo ha
    split at h
    · simp only [Res.st?, Option.some.injEq] at h
      subst h; exact .refl rfl rfl
    · rename_i vt hb
      exact removeEdgeBoth_advances ha hb h

theorem removeEdgeD_advances {u v : VId} {r : VRec F} {s s' : GS F E} (hw : WF s.g) (hr : s.g.findV u = some r)
    (h : (removeEdgeD u v s).st? = some s') :
    Advances (fun _ e => ∃ b, e = .edgeRemoved (FrameProp.getId r.prop) b) s s' := by
  unfold removeEdgeD at h
  split at h
  · rename_i ro rt hro hrt
    rw [hr] at hro
    cases hro
    obtain ⟨m1, i1⟩ := G.findV_some hr
    obtain ⟨m2, i2⟩ := G.findV_some hrt
    exact (removeEdgeBoth_advances (hw.vertexOf_iff.2 ⟨r, m1, i1, rfl⟩) (hw.vertexOf_iff.2 ⟨rt, m2, i2, rfl⟩) h).mono
      (fun _ e he => ⟨_, he⟩)
  · simp [Res.st?] at h

/-- vertices are not changed by removing edges -/
theorem removeEdgeD_verts {u v : VId} {s s' : GS F E} (h : (removeEdgeD u v s).st? = some s') :
    s'.g.verts = s.g.verts := by
  unfold removeEdgeD at h
  split at h
  · unfold removeEdgeBoth at h
    split at h
    · split at h
      · simp [Res.st?] at h
      · rename_i g1 hg1
        simp only at h
        split at h
        · simp [Res.st?] at h
        · rename_i g2 hg2
          obtain ⟨-, rfl⟩ := G.removeEdge_some hg1
          obtain ⟨-, rfl⟩ := G.removeEdge_some hg2
          split at h
          · simp only [Res.st?, Option.some.injEq] at h
            subst h; rfl
          · simp only [Res.st?, Option.some.injEq] at h
            subst h; rfl
          · simp [Res.st?] at h
    · simp only [Res.st?, Option.some.injEq] at h
      subst h; rfl
  · simp [Res.st?] at h

theorem disconnectLoop_advances {v : VId} {r : VRec F} (n : Nat) : ∀ {s s' : GS F E}, WF s.g → s.g.findV v = some r →
    (disconnectLoop v n s).st? = some s' →
    Advances (fun _ e => ∃ b, e = .edgeRemoved (FrameProp.getId r.prop) b) s s' := by
  induction n with
  | zero =>
    intro s s' hw hr h
    unfold disconnectLoop at h
    split at h
    · simp only [Res.st?, Option.some.injEq] at h
      subst h; exact .refl rfl rfl
    · simp [Res.st?] at h
  | succ n ih =>
    intro s s' hw hr h
    unfold disconnectLoop at h
    split at h
    · simp only [Res.st?, Option.some.injEq] at h
      subst h; exact .refl rfl rfl
    · simp only at h
      split at h
      · rename_i e _ _ _ a s1 hs1
        have h1 : (removeEdgeD v e.tgt s).st? = some s1 := by rw [hs1]; rfl
        have a1 := removeEdgeD_advances hw hr h1
        refine a1.trans (ih (a1.wf hw) ?_ h)
        rw [G.findV, removeEdgeD_verts h1]; exact hr
      · rename_i e _ _ _ x s1 hs1
        have h1 : (removeEdgeD v e.tgt s).st? = some s1 := by rw [hs1]; rfl
        simp only [Res.st?, Option.some.injEq] at h
        subst h
        exact removeEdgeD_advances hw hr h1
      · simp [Res.st?] at h

theorem disconnectFrame_advances {f : FrameId} {s s' : GS F E} (hw : WF s.g)
    (h : (disconnectFrame f s).st? = some s') : Advances (fun _ e => ∃ b, e = .edgeRemoved f b) s s' := by
  unfold disconnectFrame at h
  split at h
  · simp only [Res.st?, Option.some.injEq] at h
    subst h; exact .refl rfl rfl
  · rename_i v hv
    obtain ⟨r, hr, hf⟩ := hw.live_of_vertexOf hv
    have := disconnectLoop_advances _ hw hr h
    rw [hf] at this
    exact this

theorem removeFrame_advances {f : FrameId} {s s' : GS F E} (h : (removeFrame f s).st? = some s') :
    Advances (fun _ e => e = .frameRemoved f) s s' := by
  unfold removeFrame at h
  split at h
  · simp only [Res.st?, Option.some.injEq] at h
    subst h; exact .refl rfl rfl
  · rename_i v hv
    split at h
    · simp only [Res.st?, Option.some.injEq] at h
      subst h; exact .refl rfl rfl
    · rename_i hd
      simp only [Res.st?, Option.some.injEq] at h
      subst h
      exact .of_step (GStep.rmV hv (by omega)) rfl rfl

theorem setEdgeProperty_advances {o t : FrameId} {p : E} {s s' : GS F E}
    (h : (setEdgeProperty o t p s).st? = some s') :
    Advances (fun _ e => ∃ i j, e = .edgeModified o t i j) s s' := by
  unfold setEdgeProperty at h
  split at h
  · simp only [Res.st?, Option.some.injEq] at h
    subst h; exact .refl rfl rfl
  · rename_i vo ha
    split at h
    · simp only [Res.st?, Option.some.injEq] at h
      subst h; exact .refl rfl rfl
    · rename_i vt hb
      split at h
      · simp only [Res.st?, Option.some.injEq] at h
        subst h; exact .refl rfl rfl
      · rename_i e1 h1
        simp only at h
        split at h
        · simp [Res.st?] at h
        · rename_i e2 h2
          simp only [Res.st?, Option.some.injEq] at h
          subst h
          exact .of_step (GStep.setP ha hb h1 h2) rfl ⟨_, _, rfl⟩

theorem getTree_same {f : FrameId} {k : Bool} {p : Nat} {s s' : GS F E} (h : (getTree f k p s).st? = some s') :
    s'.g = s.g ∧ s'.trace = s.trace := by
  unfold getTree at h
  split at h
  · simp only [Res.st?, Option.some.injEq] at h
    subst h; exact ⟨rfl, rfl⟩
  · split at h
    · simp [Res.st?] at h
    · simp only [Res.st?, Option.some.injEq] at h
      subst h; exact ⟨rfl, rfl⟩
    · simp only at h
      split at h
      · unfold subscribeTreeView at h
        split at h
        · simp [Res.st?] at h
        · simp only [Res.st?, Option.some.injEq] at h
          subst h; exact ⟨rfl, rfl⟩
      · simp only [Res.st?, Option.some.injEq] at h
        subst h; exact ⟨rfl, rfl⟩

theorem unsubscribeView_same (p : Nat) (s : GS F E) :
    (unsubscribeView p s).g = s.g ∧ (unsubscribeView p s).trace = s.trace := by
  unfold unsubscribeView; split <;> exact ⟨rfl, rfl⟩

theorem st?_discard {σ α : Type} (r : Res σ α) : (discard r).st? = r.st? := by cases r <;> rfl

/-- The call does not add an edge from a frame to itself. -/
def Cmd.noSelf : Cmd F E → Prop
  | .addEdge o t _ => o ≠ t
  | _ => True

/-- neither the addition of a self edge nor a repeated announcement of a frame -/
def cleanEv (g : G F E) (e : Event) : Prop := ¬ e.isSelfAdd ∧ ¬ e.isDup g

/-- Every call advances the graph by elementary steps; without self edges all of them are clean. -/
theorem exec_advances {c : Cmd F E} {s s' : GS F E} (hw : WF s.g) (h : (exec c s).st? = some s') :
    Advances (fun g e => c.noSelf → cleanEv g e) s s' := by
  cases c with
  | addFrame f =>
    simp only [exec, st?_discard] at h
    exact (addFrame_advances h).mono (by rintro g e ⟨rfl, hn⟩ -; simp [cleanEv, Event.isSelfAdd, Event.isDup, hn])
  | emplaceFrame f p =>
    simp only [exec, st?_discard] at h
    exact (emplaceFrame_advances h).mono (by rintro g e ⟨rfl, hn⟩ -; simp [cleanEv, Event.isSelfAdd, Event.isDup, hn])
  | removeFrame f =>
    exact (removeFrame_advances h).mono (by rintro _ e rfl -; simp [cleanEv, Event.isSelfAdd, Event.isDup])
  | disconnectFrame f =>
    exact (disconnectFrame_advances hw h).mono (by rintro _ e ⟨b, rfl⟩ -; simp [cleanEv, Event.isSelfAdd, Event.isDup])
  | addEdge o t p =>
    refine (addEdge_advances hw h).mono ?_
    rintro g e (⟨rfl, hn⟩ | ⟨rfl, hn⟩ | ⟨i, rfl⟩) hne
    · simp [cleanEv, Event.isSelfAdd, Event.isDup, hn]
    · simp [cleanEv, Event.isSelfAdd, Event.isDup, hn hne]
    · exact ⟨hne, id⟩
  | removeEdge o t =>
    exact (removeEdge_advances h).mono (by rintro _ e rfl -; simp [cleanEv, Event.isSelfAdd, Event.isDup])
  | setEdge o t p =>
    exact (setEdgeProperty_advances h).mono (by rintro _ e ⟨i, j, rfl⟩ -; simp [cleanEv, Event.isSelfAdd, Event.isDup])
  | getTree f k p => exact .refl (getTree_same h).1 (getTree_same h).2
  | unsubscribeView p =>
    simp only [exec, Res.st?, Option.some.injEq] at h
    subst h
    exact .refl (unsubscribeView_same p s).1 (unsubscribeView_same p s).2

theorem run_cons {c : Cmd F E} {cs : List (Cmd F E)} {s s' : GS F E} (h : run (c :: cs) s = some s') :
    ∃ s1, (exec c s).st? = some s1 ∧ run cs s1 = some s' := by
  unfold run at h
  split at h
  · rename_i s1 h1; exact ⟨s1, by rw [h1]; rfl, h⟩
  · rename_i s1 h1; exact ⟨s1, by rw [h1]; rfl, h⟩
  · cases h

theorem run_advances {cs : List (Cmd F E)} : ∀ {s s' : GS F E}, WF s.g → run cs s = some s' →
    Advances (fun g e => (∀ c ∈ cs, c.noSelf) → cleanEv g e) s s' := by
  induction cs with
  | nil =>
    intro s s' hw h
    simp only [run, Option.some.injEq] at h
    subst h; exact .refl rfl rfl
  | cons c cs ih =>
    intro s s' hw h
    obtain ⟨s1, h1, h2⟩ := run_cons h
    have a1 := exec_advances hw h1
    have a2 := ih (a1.wf hw) h2
    exact (a1.mono (fun _ e he hall => he (hall c (by simp)))).trans
      (a2.mono (fun _ e he hall => he (fun c' hc' => hall c' (List.mem_cons_of_mem _ hc'))))

theorem run_wf {cs : List (Cmd F E)} {s s' : GS F E} (hw : WF s.g) (h : run cs s = some s') : WF s'.g :=
  (run_advances hw h).wf hw

theorem run_paired {cs : List (Cmd F E)} {s s' : GS F E} (hw : WF s.g) (hp : Paired s.g) (h : run cs s = some s')
    (hns : ∀ c ∈ cs, c.noSelf) : Paired s'.g := by
  obtain ⟨l, a1, -⟩ := run_advances hw h
  exact a1.paired hw hp (fun g e he => (he hns).1)

end GS
end Verif
