import Verif.Lemmas.Descriptors
import Verif.Spec.Reuse
import Verif.Model.TransformOps

set_option linter.unusedSectionVars false
set_option linter.unusedSimpArgs false
/-! Descriptors along histories with an arbitrary allocator. -/

namespace Verif
variable {F E : Type} [FrameProp F] [EdgeProp E]

/-- other counters; no query looks at them -/
def G.cnt (g : G F E) (n m : Nat) : G F E := { g with nextV := n, nextE := m }

/-- well-formed, the counters apart -/
def WFA (g : G F E) : Prop := ∃ n m, WF (g.cnt n m)

theorem WFA.empty : WFA (G.empty : G F E) := ⟨0, 0, WF.empty⟩

theorem WF.toA {g : G F E} (h : WF g) : WFA g := ⟨g.nextV, g.nextE, h⟩

theorem WFA.live {g : G F E} (h : WFA g) {f : FrameId} {v : VId} (hv : g.vertexOf f = some v) :
    ∃ r, g.findV v = some r ∧ FrameProp.getId r.prop = f := by
  obtain ⟨n, m, h⟩ := h
  exact h.live_of_vertexOf (f := f) (v := v) hv

theorem WFA.findE {g : G F E} (h : WFA g) {r : ERec E} (hr : r ∈ g.edges) : GS.findE g r.id = some r := by
  obtain ⟨n, m, h⟩ := h
  exact find?_eq_some_of_unique hr (by simp) (fun b hb hbr => map_inj_of_nodup h.enodup hb hr (by simpa using hbr))

theorem WFA.vertexOf_iff {g : G F E} (h : WFA g) {f : FrameId} {v : VId} :
    g.vertexOf f = some v ↔ ∃ r ∈ g.verts, r.id = v ∧ FrameProp.getId r.prop = f := by
  obtain ⟨n, m, h⟩ := h
  exact h.vertexOf_iff (f := f) (v := v)

theorem WFA.addVertexA {g : G F E} (h : WFA g) {al : Alloc F E} (hal : al.Sound) {f : FrameId} {p : F} (hp : FrameProp.getId p = f) :
    WFA (g.addVertexA al f p).1 := by
  unfold G.addVertexA
  split
  · exact h
  · rename_i hn
    obtain ⟨n, m, h⟩ := h
    have hn' : ∀ r ∈ g.verts, FrameProp.getId r.prop ≠ f := (h.vertexOf_none (f := f)).1 hn
    refine ⟨max n ((al.v g : Nat) + 1), m, ?_⟩
    constructor
    · simp only [G.cnt, List.map_append, List.map_cons, List.map_nil]
      refine List.nodup_append.2 ⟨h.vnodup, by simp, ?_⟩
      intro a ha b hb
      simp only [List.mem_singleton] at hb
      rintro rfl
      exact (hal g).1 (hb ▸ ha)
    · intro r hr
      simp only [G.cnt, List.mem_append, List.mem_singleton] at hr
      rcases hr with hr | rfl
      · exact Nat.lt_of_lt_of_le (h.vlt r hr) (Nat.le_max_left _ _)
      · exact Nat.lt_of_lt_of_le (Nat.lt_succ_self _) (Nat.le_max_right _ _)
    · simp only [G.cnt, List.map_append, List.map_cons, List.map_nil]
      refine List.nodup_append.2 ⟨h.inodup, by simp, ?_⟩
      intro a ha b hb
      simp only [List.mem_singleton] at hb
      obtain ⟨r, hr, rfl⟩ := List.mem_map.1 ha
      have := h.ilt r hr
      simp only [G.cnt] at this
      omega
    · intro r hr
      simp only [G.cnt, List.mem_append, List.mem_singleton] at hr ⊢
      rcases hr with hr | rfl
      · have := h.ilt r hr; simp only [G.cnt] at this; omega
      · simp
    · simp only [G.cnt, AMap.keys, List.map_append, List.map_cons, List.map_nil]
      refine List.nodup_append.2 ⟨h.lnodup, by simp, ?_⟩
      intro a ha b hb
      simp only [List.mem_singleton] at hb
      rintro rfl
      subst hb
      exact AMap.get_eq_none_iff.1 hn ha
    · intro f' v
      have hl := h.lab f' v
      simp only [G.cnt] at hl
      simp only [G.cnt, List.mem_append, List.mem_singleton, Prod.mk.injEq, hl]
      constructor
      · rintro (⟨r, hr, h1, h2⟩ | ⟨rfl, rfl⟩)
        · exact ⟨r, Or.inl hr, h1, h2⟩
        · exact ⟨_, Or.inr rfl, rfl, hp⟩
      · rintro ⟨r, hr | rfl, h1, h2⟩
        · exact Or.inl ⟨r, hr, h1, h2⟩
        · exact Or.inr ⟨by rw [← h2]; exact hp, h1.symm⟩
    · exact h.enodup
    · exact h.elt
    · intro e he
      obtain ⟨r, hr, h1⟩ := h.esrc e he
      exact ⟨r, List.mem_append_left _ hr, h1⟩
    · intro e he
      obtain ⟨r, hr, h1⟩ := h.etgt e he
      exact ⟨r, List.mem_append_left _ hr, h1⟩

theorem WFA.addEdgeA {g : G F E} (h : WFA g) {al : Alloc F E} (hal : al.Sound) {u v : VId} {p : E} (hu : ∃ r ∈ g.verts, r.id = u)
    (hv : ∃ r ∈ g.verts, r.id = v) : WFA (g.addEdgeA al u v p).1 := by
  obtain ⟨n, m, h⟩ := h
  refine ⟨n, max m ((al.e g : Nat) + 1), h.vnodup, h.vlt, h.inodup, h.ilt, h.lnodup, h.lab, ?_, ?_, ?_, ?_⟩
  · simp only [G.cnt, G.addEdgeA, List.map_append, List.map_cons, List.map_nil]
    refine List.nodup_append.2 ⟨h.enodup, by simp, ?_⟩
    intro a ha b hb
    simp only [List.mem_singleton] at hb
    rintro rfl
    exact (hal g).2 (hb ▸ ha)
  · intro e he
    simp only [G.cnt, G.addEdgeA, List.mem_append, List.mem_singleton] at he ⊢
    rcases he with he | rfl
    · exact Nat.lt_of_lt_of_le (h.elt e he) (Nat.le_max_left _ _)
    · exact Nat.lt_of_lt_of_le (Nat.lt_succ_self _) (Nat.le_max_right _ _)
  · intro e he
    simp only [G.cnt, G.addEdgeA, List.mem_append, List.mem_singleton] at he ⊢
    rcases he with he | rfl
    · exact h.esrc e he
    · exact hu
  · intro e he
    simp only [G.cnt, G.addEdgeA, List.mem_append, List.mem_singleton] at he ⊢
    rcases he with he | rfl
    · exact h.etgt e he
    · exact hv

/-- the event announces nothing new -/
def Event.notNew : Event → Prop
  | .frameAdded _ | .edgeAdded .. => False
  | _ => True

/-- elementary steps with an arbitrary allocator -/
inductive GStepA : G F E → Event × G F E → G F E → Prop
  | old {g g' : G F E} {x : Event × G F E} (h : GStep g x g') (hx : x.1.notNew) : GStepA g x g'
  | addV {g : G F E} {al : Alloc F E} {f : FrameId} {p : F} (hal : al.Sound) (hp : FrameProp.getId p = f) :
      GStepA g (.frameAdded f, (g.addVertexA al f p).1) (g.addVertexA al f p).1
  | addE {g : G F E} {al : Alloc F E} {a b : FrameId} {u v : VId} {p : E} (hal : al.Sound) (ha : g.vertexOf a = some u)
      (hb : g.vertexOf b = some v) (hn : g.edge u v = none) :
      GStepA g (.edgeAdded a b (al.e g), ((g.addEdgeA al u v p).1.addEdgeA al v u (EdgeProp.inverse p)).1)
        ((g.addEdgeA al u v p).1.addEdgeA al v u (EdgeProp.inverse p)).1

theorem GStep.cnt {g g' : G F E} {x : Event × G F E} (h : GStep g x g') (hx : x.1.notNew) (n m : Nat) :
    GStep (g.cnt n m) (x.1, x.2.cnt n m) (g'.cnt n m) := by
  have rm : ∀ {g g1 : G F E} {i : EId}, g.removeEdge i = some g1 → (g.cnt n m).removeEdge i = some (g1.cnt n m) := by
    intro g g1 i h
    obtain ⟨q, rfl⟩ := G.removeEdge_some h
    unfold G.removeEdge at h ⊢
    split at h
    · rename_i hh
      rw [if_pos (show (g.cnt n m).edges.any (fun r => r.id = i) = true from hh)]; rfl
    · cases h
  cases h with
  | addV => exact hx.elim
  | dupV => exact hx.elim
  | addE => exact hx.elim
  | rmE ha hb h1 h2 hg1 hg2 => exact GStep.rmE (g := g.cnt n m) ha hb h1 h2 (rm hg1) (rm hg2)
  | setP ha hb h1 h2 => exact GStep.setP (g := g.cnt n m) ha hb h1 h2
  | rmV hv hd => exact GStep.rmV (g := g.cnt n m) hv hd

theorem GStepA.wf {g g' : G F E} {x : Event × G F E} (hs : GStepA g x g') (h : WFA g) : WFA g' := by
  cases hs with
  | old hs hx =>
    obtain ⟨n, m, h⟩ := h
    exact ⟨n, m, (hs.cnt hx n m).wf h⟩
  | addV hal hp => exact h.addVertexA hal hp
  | addE hal ha hb hn =>
    obtain ⟨ra, ma, ia, -⟩ := h.vertexOf_iff.1 ha
    obtain ⟨rb, mb, ib, -⟩ := h.vertexOf_iff.1 hb
    exact (h.addEdgeA hal ⟨ra, ma, ia⟩ ⟨rb, mb, ib⟩).addEdgeA hal ⟨rb, mb, ib⟩ ⟨ra, ma, ia⟩

omit [FrameProp F] [EdgeProp E] in
theorem G.vertexOf_addVertexA {g : G F E} {al : Alloc F E} {f f' : FrameId} {p : F} {v : VId} (h : g.vertexOf f' = some v) :
    (g.addVertexA al f p).1.vertexOf f' = some v := by
  unfold G.addVertexA
  split
  · exact h
  · simp only [G.vertexOf] at h ⊢
    simp [AMap.get_append, h]

omit [FrameProp F] [EdgeProp E] in
theorem G.edge_addEdgeA {g : G F E} {al : Alloc F E} {u v u' v' : VId} {p : E} {e : ERec E} (h : g.edge u' v' = some e) :
    (g.addEdgeA al u v p).1.edge u' v' = some e := by
  simp only [G.edge, G.outEdges, G.addEdgeA, List.filter_append, List.find?_append] at h ⊢
  rw [h]; rfl

theorem GStepA.vertex_kept {g g' : G F E} {x : Event × G F E} (hs : GStepA g x g') {f : FrameId} {v : VId}
    (hv : g.vertexOf f = some v) (hx : x.1 ≠ .frameRemoved f) : g'.vertexOf f = some v := by
  cases hs with
  | old hs _ => exact hs.vertex_kept hv hx
  | addV => exact G.vertexOf_addVertexA hv
  | addE => exact hv

theorem GStepA.edge_kept {g g' : G F E} {x : Event × G F E} (hs : GStepA g x g') (hw : WFA g) {a b : FrameId} {u v : VId} {e : ERec E}
    (ha : g.vertexOf a = some u) (hb : g.vertexOf b = some v) (he : g.edge u v = some e)
    (hx : x.1 ≠ .edgeRemoved a b) (hx' : x.1 ≠ .edgeRemoved b a) :
    g'.vertexOf a = some u ∧ g'.vertexOf b = some v ∧ ∃ e', g'.edge u v = some e' ∧ e'.id = e.id := by
  cases hs with
  | old hs hn =>
    obtain ⟨n, m, hw⟩ := hw
    exact (hs.cnt hn n m).edge_kept hw (a := a) (b := b) (u := u) (v := v) (e := e) ha hb he hx hx'
  | addV =>
    refine ⟨G.vertexOf_addVertexA ha, G.vertexOf_addVertexA hb, e, ?_, rfl⟩
    unfold G.addVertexA
    split <;> exact he
  | addE => exact ⟨ha, hb, e, G.edge_addEdgeA (G.edge_addEdgeA he), rfl⟩

/-- `s'` results from `s` by elementary steps whose labels were appended to the trace -/
inductive AdvA : GS F E → GS F E → List Event → Prop
  | refl {s s' : GS F E} (hg : s'.g = s.g) (ht : s'.trace = s.trace) : AdvA s s' []
  | step {s s' : GS F E} {x : Event × G F E} (h : GStepA s.g x s'.g) (ht : s'.trace = s.trace ++ [x]) : AdvA s s' [x.1]
  | trans {s s' s'' : GS F E} {l l' : List Event} (h : AdvA s s' l) (h' : AdvA s' s'' l') : AdvA s s'' (l ++ l')

theorem AdvA.wf {s s' : GS F E} {l : List Event} (h : AdvA s s' l) : WFA s.g → WFA s'.g := by
  induction h with
  | refl hg ht => rw [hg]; exact id
  | step h ht => exact h.wf
  | trans _ _ i j => exact fun hw => j (i hw)

theorem AdvA.trace {s s' : GS F E} {l : List Event} (h : AdvA s s' l) : s'.trace.map Prod.fst = s.trace.map Prod.fst ++ l := by
  induction h with
  | refl hg ht => rw [ht]; simp
  | step h ht => rw [ht]; simp
  | trans _ _ i j => rw [j, i, List.append_assoc]

theorem AdvA.vertex_kept {s s' : GS F E} {l : List Event} (h : AdvA s s' l) {f : FrameId} {v : VId} :
    s.g.vertexOf f = some v → .frameRemoved f ∉ l → s'.g.vertexOf f = some v := by
  induction h with
  | refl hg ht => rw [hg]; exact fun hv _ => hv
  | step h ht => exact fun hv hx => h.vertex_kept hv (fun hh => hx (by simp [hh]))
  | trans _ _ i j => exact fun hv hx => j (i hv (fun hh => hx (List.mem_append_left _ hh))) (fun hh => hx (List.mem_append_right _ hh))

theorem AdvA.edge_kept {s s' : GS F E} {l : List Event} (h : AdvA s s' l) {a b : FrameId} {u v : VId} : ∀ {e : ERec E}, WFA s.g →
    s.g.vertexOf a = some u → s.g.vertexOf b = some v → s.g.edge u v = some e → .edgeRemoved a b ∉ l → .edgeRemoved b a ∉ l →
    s'.g.vertexOf a = some u ∧ s'.g.vertexOf b = some v ∧ ∃ e', s'.g.edge u v = some e' ∧ e'.id = e.id := by
  induction h with
  | refl hg ht => intro e _ ha hb he _ _; rw [hg]; exact ⟨ha, hb, e, he, rfl⟩
  | step h ht => intro e hw ha hb he hx hx'; exact h.edge_kept hw ha hb he (fun hh => hx (by simp [hh])) (fun hh => hx' (by simp [hh]))
  | trans h1 _ i j =>
    intro e hw ha hb he hx hx'
    simp only [List.mem_append, not_or] at hx hx'
    obtain ⟨ha, hb, e', he', hid⟩ := i hw ha hb he hx.1 hx'.1
    obtain ⟨ha, hb, e2, he2, hid2⟩ := j (h1.wf hw) ha hb he' hx.2 hx'.2
    exact ⟨ha, hb, e2, he2, hid2.trans hid⟩

theorem Advances.toA {P : G F E → Event → Prop} {s s' : GS F E} (h : Advances P s s') (hP : ∀ g e, P g e → e.notNew) :
    ∃ l, AdvA s s' l := by
  obtain ⟨l, h1, h2⟩ := h
  have key : ∀ {g g' : G F E} {l : List (Event × G F E)}, GSteps P g l g' → ∀ s s' : GS F E, s.g = g → s'.g = g' →
      s'.trace = s.trace ++ l → ∃ l, AdvA s s' l := by
    intro g g' l h
    induction h with
    | nil => intro s s' e1 e2 ht; exact ⟨_, .refl (by rw [e1, e2]) (by simpa using ht)⟩
    | @cons g g1 g2 x l h hx t ih =>
      intro s s' e1 e2 ht
      obtain ⟨l', hl⟩ := ih { s with g := g1, trace := s.trace ++ [x] } s' rfl e2 (by simp [ht])
      exact ⟨_, .trans (.step (x := x) (GStepA.old (by rw [e1]; exact h) (hP _ _ hx)) rfl) hl⟩
  exact key h1 s s' rfl rfl h2

namespace GS

theorem addVertexA_adv {al : Alloc F E} (hal : al.Sound) {f : FrameId} {p : F} {s : GS F E} (hp : FrameProp.getId p = f) :
    AdvA s (addVertexA al f p s).1 [.frameAdded f] := .step (x := (.frameAdded f, _)) (GStepA.addV hal hp) rfl

theorem addVertexA_vertexOf {al : Alloc F E} {f : FrameId} {p : F} {s : GS F E} :
    (addVertexA al f p s).1.g.vertexOf f = some (addVertexA al f p s).2 := by
  simp only [addVertexA, notify, G.addVertexA, G.vertexOf]
  split
  · rename_i v hv; simpa using hv
  · rename_i hv; simp [AMap.get_append, hv, AMap.get_cons]

theorem orCreateA_spec {al : Alloc F E} (hal : al.Sound) {f : FrameId} {s s0 : GS F E}
    (hmono : ∀ f v, s0.g.vertexOf f = some v → s.g.vertexOf f = some v) :
    (∃ l, AdvA s (orCreateA al f (s0.g.vertexOf f) s).1 l) ∧
    (orCreateA al f (s0.g.vertexOf f) s).1.g.vertexOf f = some (orCreateA al f (s0.g.vertexOf f) s).2 ∧
    ∀ f' v, s.g.vertexOf f' = some v → (orCreateA al f (s0.g.vertexOf f) s).1.g.vertexOf f' = some v := by
  unfold orCreateA
  split
  · exact ⟨⟨_, addVertexA_adv hal (FrameProp.getId_setId _ _)⟩, addVertexA_vertexOf, fun f v hf => G.vertexOf_addVertexA hf⟩
  · rename_i v hv
    exact ⟨⟨_, .refl rfl rfl⟩, hmono _ _ hv, fun f v hf => hf⟩

theorem addEdgeDA_adv {al : Alloc F E} (hal : al.Sound) {a b : FrameId} {u v : VId} {p : E} {s s' : GS F E} (hw : WFA s.g)
    (ha : s.g.vertexOf a = some u) (hb : s.g.vertexOf b = some v) (h : (addEdgeDA al u v p s).st? = some s') : ∃ l, AdvA s s' l := by
  obtain ⟨ru, hu, hua⟩ := hw.live ha
  obtain ⟨rv, hv, hvb⟩ := hw.live hb
  unfold addEdgeDA at h
  simp only [hu, hv] at h
  split at h
  · simp only [Res.st?, Option.some.injEq] at h
    subst h
    exact ⟨_, .refl rfl rfl⟩
  · rename_i hn
    split at h
    · simp only [Res.st?, Option.some.injEq] at h
      subst h
      refine ⟨_, .step (GStepA.addE (p := p) hal ha hb hn) ?_⟩
      simp [notify, hua, hvb, G.addEdgeA]
    · rename_i hh
      refine absurd hh (addEdgeToTreeViews_not_throw (e := ⟨al.e s.g, u, v, p⟩) ?_ ?_)
      · exact G.edge_isSome.2 ⟨⟨al.e s.g, u, v, p⟩, by simp [G.addEdgeA], rfl, rfl⟩
      · exact G.edge_isSome.2 ⟨⟨_, v, u, EdgeProp.inverse p⟩, List.mem_append_right _ (List.mem_singleton.2 rfl), rfl, rfl⟩
    · simp [Res.st?] at h

theorem removeEdgeD_adv {u v : VId} {s s' : GS F E} (hw : WFA s.g) (h : (removeEdgeD u v s).st? = some s') : ∃ l, AdvA s s' l := by
  unfold removeEdgeD at h
  split at h
  · rename_i ro rt hro hrt
    obtain ⟨m1, i1⟩ := G.findV_some hro
    obtain ⟨m2, i2⟩ := G.findV_some hrt
    exact (removeEdgeBoth_advances (hw.vertexOf_iff.2 ⟨ro, m1, i1, rfl⟩) (hw.vertexOf_iff.2 ⟨rt, m2, i2, rfl⟩) h).toA
      (fun g e he => by rw [he]; trivial)
  · simp [Res.st?] at h

theorem disconnectLoop_adv {v : VId} (n : Nat) : ∀ {s s' : GS F E}, WFA s.g → (disconnectLoop v n s).st? = some s' → ∃ l, AdvA s s' l := by
  induction n with
  | zero =>
    intro s s' hw h
    unfold disconnectLoop at h
    split at h
    · simp only [Res.st?, Option.some.injEq] at h
      subst h; exact ⟨_, .refl rfl rfl⟩
    · simp [Res.st?] at h
  | succ n ih =>
    intro s s' hw h
    unfold disconnectLoop at h
    split at h
    · simp only [Res.st?, Option.some.injEq] at h
      subst h; exact ⟨_, .refl rfl rfl⟩
    · simp only at h
      split at h
      · rename_i e _ _ _ a s1 hs1
        have h1 : (removeEdgeD v e.tgt s).st? = some s1 := by rw [hs1]; rfl
        obtain ⟨l, a1⟩ := removeEdgeD_adv hw h1
        obtain ⟨l', a2⟩ := ih (a1.wf hw) h
        exact ⟨_, a1.trans a2⟩
      · rename_i e _ _ _ x s1 hs1
        have h1 : (removeEdgeD v e.tgt s).st? = some s1 := by rw [hs1]; rfl
        simp only [Res.st?, Option.some.injEq] at h
        subst h
        exact removeEdgeD_adv hw h1
      · simp [Res.st?] at h

theorem execA_adv {al : Alloc F E} (hal : al.Sound) {c : Cmd F E} {s s' : GS F E} (hw : WFA s.g) (h : (execA al c s).st? = some s') :
    ∃ l, AdvA s s' l := by
  cases c with
  | addFrame f =>
    simp only [execA, st?_discard, addFrameA] at h
    split at h <;> simp only [Res.st?, Option.some.injEq] at h <;> subst h
    · exact ⟨_, addVertexA_adv hal (FrameProp.getId_setId _ _)⟩
    · exact ⟨_, .refl rfl rfl⟩
  | emplaceFrame f p =>
    simp only [execA, st?_discard, emplaceFrameA] at h
    split at h <;> simp only [Res.st?, Option.some.injEq] at h <;> subst h
    · exact ⟨_, addVertexA_adv hal (FrameProp.getId_setId _ _)⟩
    · exact ⟨_, .refl rfl rfl⟩
  | removeFrame f => exact (removeFrame_advances h).toA (fun g e he => by rw [he]; trivial)
  | disconnectFrame f =>
    simp only [execA, exec, disconnectFrame] at h
    split at h
    · simp only [Res.st?, Option.some.injEq] at h
      subst h; exact ⟨_, .refl rfl rfl⟩
    · exact disconnectLoop_adv _ hw h
  | addEdge a b p =>
    simp only [execA, addEdgeA] at h
    obtain ⟨⟨l1, a1⟩, b1, c1⟩ := orCreateA_spec hal (s := s) (s0 := s) (f := a) (fun f v h => h)
    obtain ⟨⟨l2, a2⟩, b2, c2⟩ := orCreateA_spec hal (s := (orCreateA al a (s.g.vertexOf a) s).1) (s0 := s) (f := b) c1
    obtain ⟨l3, a3⟩ := addEdgeDA_adv hal (a2.wf (a1.wf hw)) (c2 _ _ b1) b2 h
    exact ⟨_, (a1.trans a2).trans a3⟩
  | removeEdge a b => exact (removeEdge_advances h).toA (fun g e he => by rw [he]; trivial)
  | setEdge a b p => exact (setEdgeProperty_advances h).toA (fun g e he => by obtain ⟨i, j, rfl⟩ := he; trivial)
  | getTree f k p => obtain ⟨h1, h2⟩ := getTree_same h; exact ⟨_, .refl h1 h2⟩
  | unsubscribeView p =>
    simp only [execA, exec, Res.st?, Option.some.injEq] at h
    subst h
    exact ⟨_, .refl (unsubscribeView_same p s).1 (unsubscribeView_same p s).2⟩

theorem runA_adv {cs : List (Alloc F E × Cmd F E)} : ∀ {s s' : GS F E}, (∀ x ∈ cs, x.1.Sound) → WFA s.g → runA cs s = some s' →
    ∃ l, AdvA s s' l := by
  induction cs with
  | nil => intro s s' _ _ h; simp only [runA, Option.some.injEq] at h; subst h; exact ⟨_, .refl rfl rfl⟩
  | cons x cs ih =>
    intro s s' hal hw h
    obtain ⟨al, c⟩ := x
    have : ∃ s1, (execA al c s).st? = some s1 ∧ runA cs s1 = some s' := by
      simp only [runA] at h
      split at h
      · rename_i s1 hs1; exact ⟨s1, by rw [hs1]; rfl, h⟩
      · rename_i s1 hs1; exact ⟨s1, by rw [hs1]; rfl, h⟩
      · cases h
    obtain ⟨s1, h1, h2⟩ := this
    obtain ⟨l1, a1⟩ := execA_adv (hal _ List.mem_cons_self) hw h1
    obtain ⟨l2, a2⟩ := ih (fun x hx => hal x (List.mem_cons_of_mem _ hx)) (a1.wf hw) h2
    exact ⟨_, a1.trans a2⟩

end GS
end Verif
