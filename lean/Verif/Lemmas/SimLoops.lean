import Verif.Lemmas.PairKept
import Verif.Lemmas.PublishSelf
import Verif.Spec.AbsGraphLoops
import Mathlib.Algebra.BigOperators.Group.Finset.Basic
set_option linter.unusedSectionVars false
set_option linter.unusedSimpArgs false
/-! Simulation with self edges and subscribed views. -/

namespace Verif
variable {F E : Type} [FrameProp F] [EdgeProp E]

theorem absEdge_addPair_any {g : G F E} (hw : WF g) (hp : Paired g.ns) {a b : FrameId} {u v : VId} {p : E}
    (ha : g.vertexOf a = some u) (hb : g.vertexOf b = some v) (hn : g.edge u v = none) (x y : FrameId) :
    absEdge ((g.addEdge u v p).1.addEdge v u (EdgeProp.inverse p)).1 x y =
      if x = a ∧ y = b then some p else if x = b ∧ y = a then some (EdgeProp.inverse p) else absEdge g x y := by
  by_cases hxy : x = y
  swap
  · exact absEdge_addPair_ns hw hp ha hb hn x y hxy
  subst hxy
  have hl : ∀ z, ((g.addEdge u v p).1.addEdge v u (EdgeProp.inverse p)).1.vertexOf z = g.vertexOf z := fun z => rfl
  simp only [absEdge, hl]
  cases hx : g.vertexOf x with
  | none =>
    have c1 : ¬ (x = a ∧ x = b) := by rintro ⟨rfl, -⟩; rw [hx] at ha; cases ha
    have c2 : ¬ (x = b ∧ x = a) := by rintro ⟨rfl, -⟩; rw [hx] at hb; cases hb
    simp [c1, c2]
  | some w =>
    have e1 : (x = a ∧ x = b) ↔ (u = w ∧ v = w) := by
      constructor
      · rintro ⟨rfl, rfl⟩
        rw [hx] at ha hb
        exact ⟨(Option.some.inj ha).symm, (Option.some.inj hb).symm⟩
      · rintro ⟨rfl, rfl⟩
        exact ⟨hw.vertexOf_inj hx ha, hw.vertexOf_inj hx hb⟩
    have e2 : (x = b ∧ x = a) ↔ (u = w ∧ v = w) := by rw [← e1, and_comm]
    simp only [Option.bind_some, G.edge_addEdge, e1, e2]
    by_cases c1 : u = w ∧ v = w
    · obtain ⟨rfl, rfl⟩ := c1
      simp [hn]
    · have c2 : ¬ (v = w ∧ u = w) := fun h => c1 h.symm
      simp [c1, c2]

/-- a self edge stays for ever -/
theorem GStep.self_kept {g g' : G F E} {x : Event × G F E} (hs : GStep g x g') (hw : WF g) {w : VId} (h : (g.edge w w).isSome) :
    (g'.edge w w).isSome := by
  obtain ⟨r, hr, hr1, hr2⟩ := G.edge_isSome.1 h
  cases hs with
  | @addV f p hn hp =>
    rw [G.addVertex_new p hn]
    exact h
  | dupV => exact h
  | addE ha hb hn => exact G.edge_isSome.2 ⟨r, by simp [G.addEdge, hr], hr1, hr2⟩
  | @rmE g1 _ a b u v e1 e2 ha hb h1 h2 hg1 hg2 =>
    obtain ⟨m1, s1, t1⟩ := G.edge_some h1
    obtain ⟨m2, s2, t2⟩ := G.edge_some h2
    have huv : u ≠ v := by
      rintro rfl
      rw [h1] at h2
      obtain rfl := Option.some.inj h2
      obtain ⟨-, rfl⟩ := G.removeEdge_some hg1
      obtain ⟨⟨r, hr, hri⟩, -⟩ := G.removeEdge_some hg2
      simp [hri] at hr
    obtain ⟨-, rfl⟩ := G.removeEdge_some hg1
    obtain ⟨-, rfl⟩ := G.removeEdge_some hg2
    refine G.edge_isSome.2 ⟨r, ?_, hr1, hr2⟩
    simp only [List.mem_filter, decide_eq_true_eq]
    refine ⟨⟨hr, fun hh => ?_⟩, fun hh => ?_⟩
    · obtain rfl := map_inj_of_nodup hw.enodup hr m1 hh
      exact huv (s1.symm.trans (hr1.trans (hr2.symm.trans t1)))
    · obtain rfl := map_inj_of_nodup hw.enodup hr m2 hh
      exact huv (t2.symm.trans (hr2.trans (hr1.symm.trans s2)))
  | setP ha hb h1 h2 =>
    rw [G.edge_setProp, G.edge_setProp]
    simpa using h
  | rmV hv hd => exact h

theorem Advances.self_kept {P : G F E → Event → Prop} {s s' : GS F E} (h : Advances P s s') (hw : WF s.g) {w : VId}
    (hs : (s.g.edge w w).isSome) : (s'.g.edge w w).isSome := by
  obtain ⟨l, h, -⟩ := h
  generalize s.g = g at *
  generalize s'.g = g' at *
  induction h with
  | nil => exact hs
  | cons h1 _ _ ih => exact ih (h1.wf hw) (h1.self_kept hw hs)

theorem Advances.selfTwo {P : G F E → Event → Prop} {s s' : GS F E} (h : Advances P s s') (hw : WF s.g)
    (hs : SelfTwo s.g) : SelfTwo s'.g := by
  obtain ⟨l, h, -⟩ := h
  generalize s.g = g at *
  generalize s'.g = g' at *
  induction h with
  | nil => exact hs
  | cons h1 _ _ ih => exact ih (h1.wf hw) (h1.selfTwo hw hs)

/-- frames and connections of `s` are those of `A` -/
structure Rep (s : GS F E) (A : AGraph E) : Prop where
  frames : ∀ f, (s.g.vertexOf f).isSome ↔ f ∈ A.frames
  edges : ∀ a b, absEdge s.g a b = A.edges a b

namespace Rep
open GS
variable {s : GS F E} {A : AGraph E}

theorem of_g {t : GS F E} (h : Rep t A) (hg : s.g = t.g) : Rep s A := ⟨hg ▸ h.frames, hg ▸ h.edges⟩

theorem vertex_some (h : Rep s A) {f : FrameId} (hf : f ∈ A.frames) : ∃ v, s.g.vertexOf f = some v :=
  Option.isSome_iff_exists.1 ((h.frames f).2 hf)

theorem vertex_none (h : Rep s A) {f : FrameId} (hf : f ∉ A.frames) : s.g.vertexOf f = none := by
  have := mt (h.frames f).1 hf
  simpa using this

theorem mem (h : Rep s A) {f : FrameId} {v : VId} (hv : s.g.vertexOf f = some v) : f ∈ A.frames := (h.frames f).1 (by simp [hv])

theorem not_mem (h : Rep s A) {f : FrameId} (hv : s.g.vertexOf f = none) : f ∉ A.frames := by
  rw [← h.frames, hv]; simp

theorem addVertexN (h : Rep s A) (hw : WF s.g) (f : FrameId) (p : F) :
    Rep (GS.addVertexN f p s).1 { A with frames := insert f A.frames } := by
  cases hn : s.g.vertexOf f with
  | some v =>
    have hg : (GS.addVertexN f p s).1.g = s.g := by
      have hn' : s.g.labels.get f = some v := hn
      simp [GS.addVertexN, notify, G.addVertex, hn']
    refine Rep.of_g (t := s) ?_ hg
    rw [Finset.insert_eq_of_mem (h.mem hn)]
    exact h
  | none =>
    refine ⟨?_, ?_⟩
    · intro f'
      simp only [GS.addVertexN, notify, G.vertexOf_addVertex p hn, Finset.mem_insert]
      by_cases hff : f = f'
      · simp [hff]
      · rw [if_neg hff, h.frames]
        exact ⟨Or.inr, fun h => h.resolve_left (Ne.symm hff)⟩
    · intro a b
      simp only [GS.addVertexN, notify]
      rw [absEdge_addVertex hw p hn, h.edges]

theorem orCreate (h : Rep s A) (hw : WF s.g) (f : FrameId) {o : Option VId} (ho : o.isSome → f ∈ A.frames) :
    Rep (GS.orCreate f o s).1 { A with frames := insert f A.frames } := by
  cases o with
  | some v =>
    rw [Finset.insert_eq_of_mem (ho rfl)]
    exact h
  | none => exact h.addVertexN hw f _

theorem edge_isSome (h : Rep s A) {a b : FrameId} {u v : VId} (hu : s.g.vertexOf a = some u) (hv : s.g.vertexOf b = some v) :
    (s.g.edge u v).isSome = (A.edges a b).isSome := by
  rw [← h.edges, absEdge_of hu hv]; simp

theorem addEdgeD (h : Rep s A) (hw : WF s.g) (hp : Paired s.g.ns) (hsub : s.subs = []) {a b : FrameId} {u v : VId}
    (ha : s.g.vertexOf a = some u) (hb : s.g.vertexOf b = some v) (p : E) :
    (∀ s', addEdgeD u v p s = .ok () s' → ¬ (A.edges a b).isSome ∧ Rep s' (A.connect a b p)) ∧
    (∀ x s', GS.addEdgeD u v p s = .throw x s' → (A.edges a b).isSome ∧ x = .edgeAlreadyExists a b ∧ s' = s) := by
  obtain ⟨ru, hu, hua⟩ := hw.live_of_vertexOf ha
  obtain ⟨rv, hv, hvb⟩ := hw.live_of_vertexOf hb
  have he : A.edges a b = (s.g.edge u v).map ERec.prop := by rw [← h.edges, absEdge_of ha hb]
  unfold GS.addEdgeD
  cases hed : s.g.edge u v with
  | some e =>
    simp only [hu, hv, hed, hua, hvb]
    refine ⟨fun s' hs => (by cases hs), fun x s' hs => ?_⟩
    cases hs
    exact ⟨by simp [he, hed], rfl, rfl⟩
  | none =>
    simp only [hu, hv, hed, hsub]
    refine ⟨fun s' hs => ?_, fun x s' hs => (by cases hs)⟩
    cases hs
    refine ⟨by simp [he, hed], ⟨?_, ?_⟩⟩
    · intro f
      simp only [AGraph.connect, Finset.insert_eq_of_mem (h.mem hb), Finset.insert_eq_of_mem (h.mem ha)]
      exact h.frames f
    · intro x y
      exact (absEdge_addPair_any hw hp ha hb hed x y).trans (by simp [AGraph.connect, h.edges])

theorem addEdge (h : Rep s A) (hw : WF s.g) (hp : Paired s.g.ns) (hsub : s.subs = []) (a b : FrameId) (p : E) :
    (∀ s', addEdge a b p s = .ok () s' → ¬ (A.edges a b).isSome ∧ Rep s' (A.connect a b p)) ∧
    (∀ x s', GS.addEdge a b p s = .throw x s' → (A.edges a b).isSome ∧ x = .edgeAlreadyExists a b ∧ s' = s) := by
  unfold GS.addEdge
  simp only
  obtain ⟨a1, b1, c1⟩ := orCreate_spec (s := s) (s0 := s) (f := a) (fun f v h => h)
  obtain ⟨a2, b2, c2⟩ := orCreate_spec (s := (GS.orCreate a (s.g.vertexOf a) s).1) (s0 := s) (f := b) c1
  have w1 := a1.wf hw
  have p1 := a1.paired_ns hw hp
  have w2 := a2.wf w1
  have p2 := a2.paired_ns w1 p1
  have s1 := h.orCreate hw a (o := s.g.vertexOf a) (h.frames a).1
  have s2 := s1.orCreate w1 b (o := s.g.vertexOf b) (fun hh => Finset.mem_insert_of_mem ((h.frames b).1 hh))
  have hs2 : (GS.orCreate b (s.g.vertexOf b) (GS.orCreate a (s.g.vertexOf a) s).1).1.subs = [] := by
    rw [SimV.orCreate_subs, SimV.orCreate_subs, hsub]
  obtain ⟨k1, k2⟩ := s2.addEdgeD w2 p2 hs2 (c2 _ _ b1) b2 p
  refine ⟨fun s' hs => ?_, fun x s' hs => ?_⟩
  · obtain ⟨j1, j2⟩ := k1 s' hs
    refine ⟨j1, ?_⟩
    have : (AGraph.connect { A with frames := insert b (insert a A.frames) } a b p) = A.connect a b p := by
      simp [AGraph.connect, Finset.insert_comm]
    rwa [this] at j2
  · obtain ⟨j1, j2, j3⟩ := k2 x s' hs
    refine ⟨j1, j2, ?_⟩
    rw [j3]
    have hab : (absEdge s.g a b).isSome := by rw [h.edges]; exact j1
    obtain ⟨u, v, e, hu, hv, -⟩ := absEdge_isSome hab
    simp only [hu, hv, GS.orCreate]

theorem setEdge_self (hw : WF s.g) (h : Rep s A) {a : FrameId} {u : VId} (ha : s.g.vertexOf a = some u) {e e2 : ERec E} {p : E}
    (h1 : s.g.edge u u = some e) (h2 : (s.g.setProp e.id p).edge u u = some e2) (x y : FrameId) :
    absEdge ((s.g.setProp e.id p).setProp e2.id (EdgeProp.inverse p)) x y = (A.connect a a (EdgeProp.inverse p)).edges x y := by
  obtain ⟨m1, s1, t1⟩ := G.edge_some h1
  have h2' := h2
  rw [G.edge_setProp, h1] at h2'
  simp only [Option.map_some, Option.some.injEq] at h2'
  have hid : e2.id = e.id := by rw [← h2']; split <;> rfl
  have key : ∀ {x y : VId}, ¬ (x = u ∧ y = u) → ∀ (g : G F E) (q : E), WF g → (∃ r ∈ g.edges, r.id = e.id ∧ r.src = u ∧ r.tgt = u) →
      (g.setProp e.id q).edge x y = g.edge x y := by
    intro x y hxy g q hw hr
    rw [G.edge_setProp]
    cases hg : g.edge x y with
    | none => rfl
    | some d =>
      obtain ⟨r, hr, hri, hrs, hrt⟩ := hr
      obtain ⟨md, sd, td⟩ := G.edge_some hg
      simp only [Option.map_some, Option.some.injEq]
      rw [if_neg]
      intro hh
      obtain rfl := map_inj_of_nodup hw.enodup md hr (hh.trans hri.symm)
      exact hxy ⟨sd.symm.trans hrs, td.symm.trans hrt⟩
  have hl : ∀ z, ((s.g.setProp e.id p).setProp e2.id (EdgeProp.inverse p)).vertexOf z = s.g.vertexOf z := fun z => rfl
  simp only [AGraph.connect]
  by_cases hc : x = a ∧ y = a
  · obtain ⟨rfl, rfl⟩ := hc
    simp only [and_self, if_true]
    rw [absEdge_of (g := (s.g.setProp e.id p).setProp e2.id (EdgeProp.inverse p)) (u := u) (v := u) ha ha, G.edge_setProp, h2]
    simp
  · rw [if_neg hc, if_neg hc, ← h.edges]
    simp only [absEdge, hl]
    cases hx : s.g.vertexOf x with
    | none => rfl
    | some x' =>
      cases hy : s.g.vertexOf y with
      | none => rfl
      | some y' =>
        have hn : ¬ (x' = u ∧ y' = u) := by
          rintro ⟨rfl, rfl⟩
          exact hc ⟨hw.vertexOf_inj hx ha, hw.vertexOf_inj hy ha⟩
        simp only [Option.bind_some]
        rw [hid, key hn _ _ (hw.setProp _ _) ?_, key hn _ _ hw ⟨e, m1, rfl, s1, t1⟩]
        exact ⟨{ e with prop := p }, by simp only [G.setProp, List.mem_map]; exact ⟨e, m1, by simp⟩, rfl, s1, t1⟩

/-- calls that do not look at the views -/
theorem exec_blind (h : Rep s A) (hw : WF s.g) (hp : Paired s.g.ns) (hsub : s.subs = []) (S : Finset Nat) {c : Cmd F E} (hc : c.blind) :
    (∀ s', GS.exec c s = .ok () s' → ∃ A', A.StepL S c none A' ∧ Rep s' A') ∧
    (∀ x s', GS.exec c s = .throw x s' → ∃ A', A.StepL S c (some x) A' ∧ Rep s' A') := by
  have fin : ∀ {A' : AGraph E} {x : Option Exn} {s' : GS F E}, A.sparesLoops c → A.step c = (x, A') → Rep s' A' →
      ∃ A', A.StepL S c x A' ∧ Rep s' A' := by
    intro A' x s' h1 h2 h3
    have := AGraph.StepL.same (S := S) c h1
    rw [h2] at this
    exact ⟨_, this, h3⟩
  cases c with
  | addFrame f =>
    simp only [GS.exec, addFrame]
    cases hv : s.g.vertexOf f with
    | none =>
      refine ⟨fun s' hs => ?_, fun x s' hs => (by cases hs)⟩
      cases hs
      exact fin trivial (by simp only [AGraph.step, h.not_mem hv, if_false]) (h.addVertexN hw f _)
    | some v =>
      refine ⟨fun s' hs => (by cases hs), fun x s' hs => ?_⟩
      cases hs
      exact fin trivial (by simp only [AGraph.step, h.mem hv, if_true]) h
  | emplaceFrame f p =>
    simp only [GS.exec, emplaceFrame]
    cases hv : s.g.vertexOf f with
    | none =>
      refine ⟨fun s' hs => ?_, fun x s' hs => (by cases hs)⟩
      cases hs
      exact fin trivial (by simp only [AGraph.step, h.not_mem hv, if_false]) (h.addVertexN hw f _)
    | some v =>
      refine ⟨fun s' hs => (by cases hs), fun x s' hs => ?_⟩
      cases hs
      exact fin trivial (by simp only [AGraph.step, h.mem hv, if_true]) h
  | removeFrame f =>
    simp only [GS.exec, GS.removeFrame]
    cases hv : s.g.vertexOf f with
    | none =>
      refine ⟨fun s' hs => (by cases hs), fun x s' hs => ?_⟩
      cases hs
      exact fin trivial (by simp only [AGraph.step, h.not_mem hv, not_false_eq_true, if_true]) h
    | some v =>
      have hf := h.mem hv
      have hd := degree_zero_iff hw hv
      have hcn : A.connected f ↔ s.g.degree v ≠ 0 := by
        rw [ne_eq, hd]
        simp only [AGraph.connected, h.edges]
        constructor
        · rintro ⟨x, hx | hx⟩ hall
          · rw [(hall x).1] at hx; cases hx
          · rw [(hall x).2] at hx; cases hx
        · intro hall
          by_contra hno
          apply hall
          intro x
          constructor
          · by_contra hx
            exact hno ⟨x, Or.inl (Option.isSome_iff_ne_none.2 hx)⟩
          · by_contra hx
            exact hno ⟨x, Or.inr (Option.isSome_iff_ne_none.2 hx)⟩
      simp only
      by_cases h0 : s.g.degree v = 0
      · rw [if_neg (by omega)]
        refine ⟨fun s' hs => ?_, fun x s' hs => (by cases hs)⟩
        cases hs
        have hcc : ¬ A.connected f := fun hh => hcn.1 hh h0
        refine fin (A' := { A with frames := A.frames.erase f }) trivial
          (by simp only [AGraph.step, hf, hcc, not_true_eq_false, if_false]) ⟨?_, ?_⟩
        · intro f'
          simp only [notify, G.vertexOf_removeVertex, Finset.mem_erase]
          by_cases hff : f = f'
          · simp [hff]
          · rw [if_neg hff, h.frames]
            exact ⟨fun h => ⟨Ne.symm hff, h⟩, fun h => h.2⟩
        · intro a b
          simp only [notify]
          rw [absEdge_removeVertex hv h0, h.edges]
      · rw [if_pos (Nat.pos_of_ne_zero h0)]
        refine ⟨fun s' hs => (by cases hs), fun x s' hs => ?_⟩
        cases hs
        exact fin trivial (by simp only [AGraph.step, hf, hcn.2 h0, not_true_eq_false, if_false, if_true]) h
  | addEdge a b p =>
    obtain ⟨k1, k2⟩ := h.addEdge hw hp hsub a b p
    refine ⟨fun s' hs => ?_, fun x s' hs => ?_⟩
    · obtain ⟨j1, j2⟩ := k1 s' hs
      exact fin trivial (by simp only [AGraph.step, j1]; rfl) j2
    · obtain ⟨j1, rfl, rfl⟩ := k2 x s' hs
      exact fin trivial (by simp only [AGraph.step, j1, if_true]) h
  | setEdge a b p =>
    simp only [GS.exec, setEdgeProperty]
    cases hu : s.g.vertexOf a with
    | none =>
      refine ⟨fun s' hs => (by cases hs), fun x s' hs => ?_⟩
      cases hs
      refine fin ?_ (by simp only [AGraph.step, h.not_mem hu, not_false_eq_true, if_true]) h
      intro _
      rw [← h.edges]
      exact absEdge_none_left hu
    | some u =>
      have ha := h.mem hu
      cases hv : s.g.vertexOf b with
      | none =>
        refine ⟨fun s' hs => (by cases hs), fun x s' hs => ?_⟩
        cases hs
        refine fin ?_ (by simp only [AGraph.step, ha, h.not_mem hv, not_true_eq_false, if_false, not_false_eq_true, if_true]) h
        rintro rfl
        rw [← h.edges]
        exact absEdge_none_left hv
      | some v =>
        have hb := h.mem hv
        have hes := h.edge_isSome hu hv
        simp only
        cases hed : s.g.edge u v with
        | none =>
          refine ⟨fun s' hs => (by cases hs), fun x s' hs => ?_⟩
          cases hs
          rw [hed] at hes
          have he' : ¬ (A.edges a b).isSome := by rw [← hes]; simp
          refine fin ?_ (by simp only [AGraph.step, ha, hb, he', not_true_eq_false, if_false]; rfl) h
          rintro rfl
          simpa using he'
        | some e =>
          rw [hed] at hes
          have he' : (A.edges a b).isSome := by rw [← hes]; simp
          simp only
          cases hed2 : (s.g.setProp e.id p).edge v u with
          | none => exact ⟨fun s' hs => (by cases hs), fun x s' hs => (by cases hs)⟩
          | some e2 =>
            refine ⟨fun s' hs => ?_, fun x s' hs => (by cases hs)⟩
            cases hs
            by_cases hab : a = b
            · subst hab
              rw [hu] at hv
              obtain rfl := Option.some.inj hv
              refine ⟨_, .setSelf a p he', ?_, ?_⟩
              · intro f
                simp only [AGraph.connect, Finset.insert_eq_of_mem ha]
                exact h.frames f
              · exact setEdge_self hw h hu hed hed2
            · have huv : u ≠ v := by rintro rfl; exact hab (hw.vertexOf_inj hu hv)
              refine fin (fun hh => absurd hh hab)
                (by simp only [AGraph.step, ha, hb, he', not_true_eq_false, if_false, if_true]; rfl) ⟨?_, ?_⟩
              · intro f
                simp only [AGraph.connect, Finset.insert_eq_of_mem hb, Finset.insert_eq_of_mem ha]
                exact h.frames f
              · intro x y
                exact (absEdge_setPair_ne hw huv hu hv hed hed2 x y).trans (by simp [AGraph.connect, h.edges])
  | removeEdge _ _ => cases hc
  | disconnectFrame _ => cases hc
  | getTree _ _ _ => cases hc
  | unsubscribeView _ => cases hc

/-- the calls that remove edges -/
theorem exec_removals (h : Rep s A) (hw : WF s.g) (hp : Paired s.g.ns) {S : Finset Nat} (hS : s.subs ≠ [] → S.Nonempty) {c : Cmd F E}
    (hb : (∃ a b, c = .removeEdge a b) ∨ ∃ f, c = .disconnectFrame f) :
    (∀ s', GS.exec c s = .ok () s' → ∃ A', A.StepL S c none A' ∧ Rep s' A') ∧
    (∀ x s', GS.exec c s = .throw x s' → ∃ A', A.StepL S c (some x) A' ∧ Rep s' A') := by
  have fin : ∀ {A' : AGraph E} {x : Option Exn} {s' : GS F E}, A.sparesLoops c → A.step c = (x, A') → Rep s' A' →
      ∃ A', A.StepL S c x A' ∧ Rep s' A' := by
    intro A' x s' h1 h2 h3
    have := AGraph.StepL.same (S := S) c h1
    rw [h2] at this
    exact ⟨_, this, h3⟩
  have adv : ∀ {s'}, (GS.exec c s).st? = some s' → Advances (fun g e => c.noSelf → cleanEv g e) s s' := fun hs => exec_advances hw hs
  rcases hb with ⟨a, b, rfl⟩ | ⟨f, rfl⟩
  · simp only [GS.exec, GS.removeEdge]
    cases hu : s.g.vertexOf a with
    | none =>
      refine ⟨fun s' hs => (by cases hs), fun x s' hs => ?_⟩
      cases hs
      refine fin ?_ (by simp only [AGraph.step, h.not_mem hu, not_false_eq_true, if_true]) h
      intro _
      rw [← h.edges]
      exact absEdge_none_left hu
    | some u =>
      have ha := h.mem hu
      cases hv : s.g.vertexOf b with
      | none =>
        refine ⟨fun s' hs => (by cases hs), fun x s' hs => ?_⟩
        cases hs
        refine fin ?_ (by simp only [AGraph.step, ha, h.not_mem hv, not_true_eq_false, if_false, not_false_eq_true, if_true]) h
        rintro rfl
        rw [← h.edges]
        exact absEdge_none_left hv
      | some v =>
        have hb := h.mem hv
        have hes := h.edge_isSome hu hv
        simp only
        cases he : s.g.edge u v with
        | none =>
          rw [he] at hes
          have he' : ¬ (A.edges a b).isSome := by rw [← hes]; simp
          have : GS.removeEdgeBoth a b u v s = .throw (.unknownEdge a b) s := by simp [GS.removeEdgeBoth, he]
          rw [this]
          refine ⟨fun s' hs => (by cases hs), fun x s' hs => ?_⟩
          cases hs
          refine fin ?_ (by simp only [AGraph.step, ha, hb, he', not_true_eq_false, if_false]; rfl) h
          rintro rfl
          simpa using he'
        | some e =>
          rw [he] at hes
          have he' : (A.edges a b).isSome := by rw [← hes]; simp
          by_cases hab : a = b
          · subst hab
            rw [hu] at hv
            obtain rfl := Option.some.inj hv
            obtain ⟨m, hm⟩ := removeEdgeBoth_self a a he
            rw [hm]
            exact ⟨fun s' hs => (by cases hs), fun x s' hs => (by cases hs)⟩
          · have huv : u ≠ v := by rintro rfl; exact hab (hw.vertexOf_inj hu hv)
            have hrep : ∀ s' : GS F E, s'.g = s.g.cut u v → Rep s' (A.disconnect a b) := by
              intro s' hg
              refine ⟨?_, ?_⟩
              · rw [hg]; exact h.frames
              · intro x y
                rw [hg]
                exact (absEdge_cut hw hu hv x y).trans (by simp [AGraph.disconnect, h.edges])
            rw [removeEdgeBoth_eq_ns hw hp a b huv he]
            constructor
            · intro s' hs
              split at hs
              · cases hs
                exact fin (fun hh => absurd hh hab)
                  (by simp only [AGraph.step, ha, hb, he', not_true_eq_false, if_false, if_true]) (hrep _ rfl)
              · cases hs
              · cases hs
            · intro x s' hs
              split at hs
              · cases hs
              · rename_i hh
                simp only [Res.throw.injEq] at hs
                obtain ⟨rfl, rfl⟩ := hs
                obtain ⟨h1, m, rfl⟩ := removeEdgeFromTreeViews_throw_subs _ hh
                exact ⟨_, .removeEdge a b m (hS h1) hab he', hrep _ rfl⟩
              · cases hs
  · cases hv : s.g.vertexOf f with
    | none =>
      simp only [GS.exec, GS.disconnectFrame, hv]
      refine ⟨fun s' hs => (by cases hs), fun x s' hs => ?_⟩
      cases hs
      refine fin ?_ (by simp only [AGraph.step, h.not_mem hv, not_false_eq_true, if_true]) h
      show A.edges f f = none
      rw [← h.edges]
      exact absEdge_none_left hv
    | some v =>
      have hf := h.mem hv
      have hex : GS.exec (Cmd.disconnectFrame f : Cmd F E) s = disconnectLoop v s.g.edges.length s := by
        simp only [GS.exec, GS.disconnectFrame, hv]
      obtain ⟨k1, k2⟩ := disconnectLoop_cut_ns s.g.edges.length hw hp hv
      have hfin : ∀ {s' : GS F E} {ws : List VId}, Advances (fun g e => (Cmd.disconnectFrame f : Cmd F E).noSelf → cleanEv g e) s s' →
          SimV.CutTo s s' f v ws → v ∉ ws := by
        intro s' ws ha hc hm
        have h1 := ha.self_kept hw (hc.conn v hm)
        rw [hc.edge v v, if_pos (.inl ⟨rfl, hm⟩)] at h1
        cases h1
      constructor
      · intro s' hs
        have ha := adv (by rw [hs]; rfl)
        rw [hex] at hs
        obtain ⟨ws, j1, j2⟩ := k1 s' hs
        have hw' := ha.wf hw
        have hp' := ha.paired_ns hw hp
        have hout : ∀ w, s'.g.edge v w = none := by
          intro w
          simp [G.edge, j2]
        have hv' : s'.g.vertexOf f = some v := by rw [j1.label]; exact hv
        have hff : A.edges f f = none := by
          rw [← h.edges, absEdge_of hv hv]
          cases hc : s.g.edge v v with
          | none => rfl
          | some e =>
            have := ha.self_kept hw (w := v) (by rw [hc]; rfl)
            rw [hout] at this
            cases this
        refine fin (A' := A.isolate f) hff (by simp only [AGraph.step, hf, not_true_eq_false, if_false]) ⟨?_, ?_⟩
        · intro x
          rw [j1.label]
          exact h.frames x
        · have hl : ∀ y, absEdge s'.g f y = none := by
            intro y
            cases hy : s'.g.vertexOf y with
            | none => exact absEdge_none_right hy
            | some w => rw [absEdge_of hv' hy, hout]; rfl
          intro x y
          simp only [AGraph.isolate]
          by_cases hx : x = f
          · subst hx
            rw [if_pos (.inl rfl)]
            exact hl y
          · by_cases hy : y = f
            · subst hy
              rw [if_pos (.inr rfl)]
              by_contra hne
              have := absEdge_symm_ns hw' hp' hx (Option.isSome_iff_ne_none.2 hne)
              rw [hl] at this
              cases this
            · rw [if_neg (by tauto), ← h.edges]
              simp only [absEdge, j1.label]
              cases hx' : s.g.vertexOf x with
              | none => rfl
              | some x' =>
                cases hy' : s.g.vertexOf y with
                | none => rfl
                | some y' =>
                  simp only [Option.bind_some]
                  rw [j1.edge, if_neg]
                  rintro (⟨rfl, -⟩ | ⟨rfl, -⟩)
                  · exact hx (hw.vertexOf_inj hx' hv)
                  · exact hy (hw.vertexOf_inj hy' hv)
      · intro x s' hs
        have ha := adv (by rw [hs]; rfl)
        rw [hex] at hs
        obtain ⟨j0, ⟨m, rfl⟩, ws, j1, j2⟩ := k2 x s' hs
        have hvw := hfin ha j2
        have hlive : ∀ w ∈ ws, s.g.vertexOf (nameOf s.g w) = some w := by
          intro w hwm
          obtain ⟨r, hr, -, hrt⟩ := G.edge_isSome.1 (j2.conn w hwm)
          exact vertexOf_nameOf hw (hrt ▸ hw.etgt r hr)
        have hN : ∀ {y : FrameId} {w : VId}, s.g.vertexOf y = some w → (y ∈ (ws.map (nameOf s.g)).toFinset ↔ w ∈ ws) := by
          intro y w hy
          simp only [List.mem_toFinset, List.mem_map]
          constructor
          · rintro ⟨w', hw', rfl⟩
            rw [hlive w' hw'] at hy
            obtain rfl := Option.some.inj hy
            exact hw'
          · intro hm
            exact ⟨w, hm, nameOf_eq hw hy⟩
        refine ⟨_, .disconnectFrame f (ws.map (nameOf s.g)).toFinset m (hS j0) ?_ ?_ ?_, ?_, ?_⟩
        · obtain ⟨w, hwm⟩ := List.exists_mem_of_ne_nil _ j1
          exact ⟨nameOf s.g w, by simp only [List.mem_toFinset, List.mem_map]; exact ⟨w, hwm, rfl⟩⟩
        · rw [hN hv]; exact hvw
        · intro y hy
          simp only [List.mem_toFinset, List.mem_map] at hy
          obtain ⟨w, hwm, rfl⟩ := hy
          rw [← h.edge_isSome hv (hlive w hwm)]
          exact j2.conn w hwm
        · intro y
          rw [j2.label]
          exact h.frames y
        · intro x y
          simp only [AGraph.cutFrom]
          rw [← h.edges]
          simp only [absEdge, j2.label]
          cases hx' : s.g.vertexOf x with
          | none => simp
          | some x' =>
            cases hy' : s.g.vertexOf y with
            | none => simp
            | some y' =>
              simp only [Option.bind_some]
              have e1 : ∀ {z : FrameId} {z' : VId}, s.g.vertexOf z = some z' → (z' = v ↔ z = f) := by
                intro z z' hz
                constructor
                · rintro rfl; exact hw.vertexOf_inj hz hv
                · rintro rfl; rw [hz] at hv; exact Option.some.inj hv
              rw [j2.edge]
              simp only [hN hx', hN hy', e1 hx', e1 hy']
              split <;> rfl

/-- Without subscribed views a call is undefined behaviour exactly if it removes a self edge. -/
theorem exec_ub_iff (h : Rep s A) (hw : WF s.g) (hp : Paired s.g.ns) (hsub : s.subs = []) {c : Cmd F E} (hc : ∀ f p, c ≠ .getTree f true p) :
    (∃ m, GS.exec c s = .ub m) ↔ A.removesLoop c := by
  have no : ∀ {r : Res (GS F E) Unit}, (∃ s', r = .ok () s') ∨ (∃ x s', r = .throw x s') → ((∃ m, r = .ub m) ↔ False) := by
    rintro r (⟨s', rfl⟩ | ⟨x, s', rfl⟩)
    · exact ⟨fun ⟨m, hm⟩ => (by cases hm), False.elim⟩
    · exact ⟨fun ⟨m, hm⟩ => (by cases hm), False.elim⟩
  cases c with
  | addFrame f =>
    refine no ?_
    simp only [GS.exec, addFrame]
    cases s.g.vertexOf f with
    | none => exact .inl ⟨_, rfl⟩
    | some v => exact .inr ⟨_, _, rfl⟩
  | emplaceFrame f p =>
    refine no ?_
    simp only [GS.exec, emplaceFrame]
    cases s.g.vertexOf f with
    | none => exact .inl ⟨_, rfl⟩
    | some v => exact .inr ⟨_, _, rfl⟩
  | removeFrame f =>
    refine no ?_
    simp only [GS.exec, GS.removeFrame]
    cases s.g.vertexOf f with
    | none => exact .inr ⟨_, _, rfl⟩
    | some v =>
      simp only
      split
      · exact .inr ⟨_, _, rfl⟩
      · exact .inl ⟨_, rfl⟩
  | addEdge a b p =>
    refine no ?_
    simp only [GS.exec, GS.addEdge]
    obtain ⟨a1, b1, c1⟩ := orCreate_spec (s := s) (s0 := s) (f := a) (fun f v h => h)
    obtain ⟨a2, b2, c2⟩ := orCreate_spec (s := (GS.orCreate a (s.g.vertexOf a) s).1) (s0 := s) (f := b) c1
    have w2 := a2.wf (a1.wf hw)
    have hs2 : (GS.orCreate b (s.g.vertexOf b) (GS.orCreate a (s.g.vertexOf a) s).1).1.subs = [] := by
      rw [SimV.orCreate_subs, SimV.orCreate_subs, hsub]
    obtain ⟨ru, hu, -⟩ := w2.live_of_vertexOf (c2 _ _ b1)
    obtain ⟨rv, hv, -⟩ := w2.live_of_vertexOf b2
    unfold GS.addEdgeD
    simp only [hu, hv, hs2]
    split
    · exact .inr ⟨_, _, rfl⟩
    · exact .inl ⟨_, rfl⟩
  | setEdge a b p =>
    refine no ?_
    simp only [GS.exec, setEdgeProperty]
    cases hu : s.g.vertexOf a with
    | none => exact .inr ⟨_, _, rfl⟩
    | some u =>
      cases hv : s.g.vertexOf b with
      | none => exact .inr ⟨_, _, rfl⟩
      | some v =>
        simp only
        cases hed : s.g.edge u v with
        | none => exact .inr ⟨_, _, rfl⟩
        | some e =>
          have h2 : ∃ e2, s.g.edge v u = some e2 := by
            by_cases huv : u = v
            · subst huv; exact ⟨e, hed⟩
            · obtain ⟨e2, h2, -⟩ := hp.inverse (show s.g.ns.edge u v = some e by rw [G.edge_ns _ huv]; exact hed)
              rw [G.edge_ns _ (Ne.symm huv)] at h2
              exact ⟨e2, h2⟩
          obtain ⟨e2, h2⟩ := h2
          have h2' : ∃ e2', (s.g.setProp e.id p).edge v u = some e2' := by rw [G.edge_setProp, h2]; exact ⟨_, rfl⟩
          obtain ⟨e2', h2'⟩ := h2'
          simp only [h2']
          exact .inl ⟨_, rfl⟩
  | removeEdge a b =>
    simp only [GS.exec, GS.removeEdge, AGraph.removesLoop]
    cases hu : s.g.vertexOf a with
    | none =>
      have : A.edges a a = none := by rw [← h.edges]; exact absEdge_none_left hu
      simp only [this, Option.isSome_none, Bool.false_eq_true, and_false]
      exact no (.inr ⟨_, _, rfl⟩)
    | some u =>
      cases hv : s.g.vertexOf b with
      | none =>
        have : ¬ a = b := by rintro rfl; rw [hu] at hv; cases hv
        simp only [this, false_and]
        exact no (.inr ⟨_, _, rfl⟩)
      | some v =>
        simp only
        by_cases hab : a = b
        · subst hab
          rw [hu] at hv
          obtain rfl := Option.some.inj hv
          rw [← h.edge_isSome hu hu]
          cases he : s.g.edge u u with
          | none =>
            simp only [Option.isSome_none, Bool.false_eq_true, and_false]
            exact no (.inr ⟨.unknownEdge a a, s, by simp [GS.removeEdgeBoth, he]⟩)
          | some e => exact ⟨fun _ => ⟨rfl, rfl⟩, fun _ => removeEdgeBoth_self a a he⟩
        · simp only [hab, false_and]
          have huv : u ≠ v := by rintro rfl; exact hab (hw.vertexOf_inj hu hv)
          cases he : s.g.edge u v with
          | none => exact no (.inr ⟨.unknownEdge a b, s, by simp [GS.removeEdgeBoth, he]⟩)
          | some e =>
            rw [removeEdgeBoth_eq_ns hw hp a b huv he, hsub]
            exact no (.inl ⟨_, rfl⟩)
  | disconnectFrame f =>
    have hadv : ∀ {s'}, (GS.exec (Cmd.disconnectFrame f : Cmd F E) s).st? = some s' → _ := fun {s'} hs => exec_advances (s' := s') hw hs
    simp only [GS.exec, GS.disconnectFrame, AGraph.removesLoop] at hadv ⊢
    cases hv : s.g.vertexOf f with
    | none =>
      have : A.edges f f = none := by rw [← h.edges]; exact absEdge_none_left hv
      simp only [this, Option.isSome_none, Bool.false_eq_true]
      exact no (.inr ⟨_, _, rfl⟩)
    | some v =>
      simp only [hv] at hadv ⊢
      rw [← h.edge_isSome hv hv]
      cases he : s.g.edge v v with
      | none =>
        obtain ⟨s', hs⟩ := disconnectLoop_ends_ns s.g.edges.length hw hp hv hsub he (List.length_filter_le _ _)
        simp only [Option.isSome_none, Bool.false_eq_true]
        exact no (.inl ⟨_, hs⟩)
      | some e =>
        refine ⟨fun _ => rfl, fun _ => ?_⟩
        obtain ⟨k1, k2⟩ := disconnectLoop_cut_ns s.g.edges.length hw hp hv
        cases hx : disconnectLoop v s.g.edges.length s with
        | ub m => exact ⟨m, rfl⟩
        | throw x s' => exact absurd hsub (k2 x s' hx).1
        | ok a s' =>
          obtain ⟨ws, -, j2⟩ := k1 s' hx
          have := (hadv (s' := s') (by rw [hx]; rfl)).self_kept hw (w := v) (by rw [he]; rfl)
          simp [G.edge, j2] at this
  | getTree f k p =>
    refine no ?_
    have hk : k = false := by
      cases k with
      | false => rfl
      | true => exact absurd rfl (hc f p)
    subst hk
    cases hv : s.g.vertexOf f with
    | none => exact .inr ⟨.unknownFrame f, s, by simp [GS.exec, getTree, hv]⟩
    | some v =>
      obtain ⟨evs, lvl, h1, -⟩ := searchEvents_done (g := s.g) hw (hw.live hv)
      exact .inl ⟨_, by simp only [GS.exec, getTree, hv, getTreeInto, h1, Bool.false_eq_true, if_false]; rfl⟩
  | unsubscribeView p => exact no (.inl ⟨_, rfl⟩)

theorem numVertices (h : Rep s A) (hw : WF s.g) : numVertices s = A.frames.card := by
  have hnd : (s.g.verts.map (fun r => FrameProp.getId r.prop)).Nodup := by
    have h1 : s.g.verts.Nodup := List.Nodup.of_map _ hw.vnodup
    exact (List.nodup_map_iff_inj_on h1).2 (fun r hr r' hr' he => hw.name_inj hr hr' he)
  have : A.frames = (s.g.verts.map (fun r => FrameProp.getId r.prop)).toFinset := by
    ext f
    rw [← h.frames, Option.isSome_iff_exists]
    simp only [hw.vertexOf_iff, List.mem_toFinset, List.mem_map]
    constructor
    · rintro ⟨v, r, hr, h1, h2⟩; exact ⟨r, hr, h2⟩
    · rintro ⟨r, hr, h2⟩; exact ⟨r.id, r, hr, rfl, h2⟩
  rw [this, List.toFinset_card_of_nodup hnd]
  simp [GS.numVertices]

open Classical in
theorem numEdges (h : Rep s A) (hw : WF s.g) (hp : Paired s.g.ns) (h2 : SelfTwo s.g) : numEdges s = A.pairs.card + A.loops.card := by
  have hlive : ∀ e ∈ s.g.edges, s.g.vertexOf (nameOf s.g e.src) = some e.src ∧ s.g.vertexOf (nameOf s.g e.tgt) = some e.tgt :=
    fun e he => ⟨vertexOf_nameOf hw (hw.esrc e he), vertexOf_nameOf hw (hw.etgt e he)⟩
  have hend : s.g.edges.Nodup := List.Nodup.of_map _ hw.enodup
  -- all edges between different frames
  have hns : s.g.ns.edges.length = (A.pairs.filter (fun x => x.1 ≠ x.2)).card := by
    have hnd : (s.g.ns.edges.map (fun e => (nameOf s.g e.src, nameOf s.g e.tgt))).Nodup := by
      refine (List.nodup_map_iff_inj_on (hend.filter _)).2 (fun r hr r' hr' he => ?_)
      simp only [Prod.mk.injEq] at he
      have a1 := hlive r (List.mem_of_mem_filter hr)
      have a2 := hlive r' (List.mem_of_mem_filter hr')
      rw [he.1, he.2] at a1
      refine hp.uniq r hr r' hr' ?_ ?_
      · exact Option.some.inj (a1.1.symm.trans a2.1)
      · exact Option.some.inj (a1.2.symm.trans a2.2)
    have : A.pairs.filter (fun x => x.1 ≠ x.2) = (s.g.ns.edges.map (fun e => (nameOf s.g e.src, nameOf s.g e.tgt))).toFinset := by
      ext ⟨a, b⟩
      simp only [AGraph.pairs, Finset.mem_filter, Finset.mem_product, ← h.edges, ← h.frames, List.mem_toFinset, List.mem_map,
        Prod.mk.injEq, G.mem_ns]
      constructor
      · rintro ⟨⟨-, h1⟩, hab⟩
        obtain ⟨u, v, e, hu, hv, he⟩ := absEdge_isSome h1
        obtain ⟨m, hs, ht⟩ := G.edge_some he
        refine ⟨e, ⟨m, ?_⟩, ?_, ?_⟩
        · rw [hs, ht]; rintro rfl; exact hab (hw.vertexOf_inj hu hv)
        · rw [hs]; exact nameOf_eq hw hu
        · rw [ht]; exact nameOf_eq hw hv
      · rintro ⟨e, ⟨he, hne⟩, rfl, rfl⟩
        obtain ⟨a1, a2⟩ := hlive e he
        refine ⟨⟨⟨by simp [a1], by simp [a2]⟩, ?_⟩, ?_⟩
        · rw [absEdge_of a1 a2]
          have : (s.g.edge e.src e.tgt).isSome := G.edge_isSome.2 ⟨e, he, rfl, rfl⟩
          simpa using this
        · intro hh
          rw [hh] at a1
          exact hne (Option.some.inj (a1.symm.trans a2))
    rw [this, List.toFinset_card_of_nodup hnd, List.length_map]
  -- two edges for each self edge
  have hself : (s.g.edges.filter (fun r => r.src = r.tgt)).length = 2 * A.loops.card := by
    have hn2 : (s.g.edges.filter (fun r => decide (r.src = r.tgt))).Nodup := hend.filter _
    rw [← List.toFinset_card_of_nodup hn2,
      Finset.card_eq_sum_card_fiberwise (f := fun e => nameOf s.g e.src) (t := A.loops), Finset.sum_const_nat (m := 2), Nat.mul_comm]
    · intro f hf
      simp only [AGraph.loops, Finset.mem_filter, ← h.frames, ← h.edges] at hf
      obtain ⟨u, v, e, hu, hv, he⟩ := absEdge_isSome hf.2
      rw [hu] at hv
      obtain rfl := Option.some.inj hv
      have hl : (s.g.selfs u).length = 2 := by
        refine (h2 u).resolve_left (fun h0 => ?_)
        obtain ⟨m, hs, ht⟩ := G.edge_some he
        have : e ∈ s.g.selfs u := by simp [G.selfs, m, hs, ht]
        rw [List.length_eq_zero_iff.1 h0] at this
        cases this
      have hnd : (s.g.selfs u).Nodup := hend.filter _
      rw [← hl, ← List.toFinset_card_of_nodup hnd]
      congr 1
      ext r
      simp only [Finset.mem_filter, List.mem_toFinset, List.mem_filter, decide_eq_true_eq, G.selfs]
      constructor
      · rintro ⟨⟨hr, hr1⟩, hr2⟩
        have a1 := (hlive r hr).1
        rw [hr2, hu] at a1
        have := Option.some.inj a1
        exact ⟨hr, this.symm, hr1.symm.trans this.symm⟩
      · rintro ⟨hr, hr1, hr2⟩
        exact ⟨⟨hr, hr1.trans hr2.symm⟩, by rw [hr1]; exact nameOf_eq hw hu⟩
    · intro e he
      simp only [List.coe_toFinset, Set.mem_ofPred_eq, List.mem_filter, decide_eq_true_eq] at he
      have a1 := (hlive e he.1).1
      simp only [AGraph.loops, Finset.coe_filter, Set.mem_ofPred_eq, ← h.frames, ← h.edges]
      refine ⟨by rw [a1]; rfl, ?_⟩
      rw [absEdge_of a1 a1]
      have : (s.g.edge e.src e.src).isSome := G.edge_isSome.2 ⟨e, he.1, rfl, he.2.symm⟩
      simpa using this
  have hdiag : (A.pairs.filter (fun x => ¬ x.1 ≠ x.2)).card = A.loops.card := by
    symm
    refine Finset.card_bij (fun f _ => (f, f)) ?_ ?_ ?_
    · intro f hf
      simp only [AGraph.loops, Finset.mem_filter] at hf
      simp [AGraph.pairs, hf.1, hf.2]
    · intro f _ f' _ he
      exact (Prod.mk.inj he).1
    · rintro ⟨a, b⟩ hm
      simp only [AGraph.pairs, Finset.mem_filter, Finset.mem_product, ne_eq, not_not] at hm
      obtain ⟨⟨⟨h1, -⟩, h3⟩, rfl⟩ := hm
      exact ⟨a, by simp [AGraph.loops, h1, h3], rfl⟩
  have hsplit : s.g.edges.length = s.g.ns.edges.length + (s.g.edges.filter (fun r => r.src = r.tgt)).length := by
    have := List.length_eq_length_filter_add (l := s.g.edges) (fun r => decide (r.src ≠ r.tgt))
    rw [this]
    congr 2
    apply List.filter_congr
    intro r _
    simp
  have hp2 := Finset.card_filter_add_card_filter_not (s := A.pairs) (fun x => x.1 ≠ x.2)
  unfold GS.numEdges
  rw [hsplit, hns, hself]
  omega

end Rep

/-- the graph `s` represents the abstract graph `A` with the subscribed views `S` -/
structure SimL (s : GS F E) (A : AGraph E) (S : Finset Nat) : Prop where
  wf : WF s.g
  paired : Paired s.g.ns
  two : SelfTwo s.g
  inv : GS.SubsInv s
  subs : ∀ p, p ∈ s.subs ↔ p ∈ S
  rep : Rep s A

namespace SimL
open GS
variable {s : GS F E} {A : AGraph E} {S : Finset Nat}

theorem init : SimL (F := F) (E := E) GS.init AGraph.empty ∅ := by
  refine ⟨WF.empty, Paired.empty, fun u => Or.inl rfl, init_subsInv, by simp [GS.init], ⟨?_, fun a b => rfl⟩⟩
  intro f; simp [GS.init, G.empty, G.vertexOf, AMap.get_nil, AGraph.empty]

theorem nonempty (h : SimL s A S) (hn : s.subs ≠ []) : S.Nonempty := by
  obtain ⟨p, hp⟩ := List.exists_mem_of_ne_nil _ hn
  exact ⟨p, (h.subs p).1 hp⟩

theorem exec (h : SimL s A S) (c : Cmd F E) :
    (∀ s', GS.exec c s = .ok () s' → ∃ A', A.StepL S c none A' ∧ SimL s' A' (AGraph.subsAfter S true c)) ∧
    (∀ x s', GS.exec c s = .throw x s' → ∃ A', A.StepL S c (some x) A' ∧ SimL s' A' (AGraph.subsAfter S false c)) := by
  have fin : ∀ {s'}, (GS.exec c s).st? = some s' → ∀ {A'} {S' : Finset Nat}, Rep s' A' → (∀ p, p ∈ s'.subs ↔ p ∈ S') → SimL s' A' S' := by
    intro s' hs A' S' hr hsub
    have ha := exec_advances h.wf hs
    exact ⟨ha.wf h.wf, ha.paired_ns h.wf h.paired, ha.selfTwo h.wf h.two, exec_subsInv h.inv hs, hsub, hr⟩
  have blind : c.blind → (AGraph.subsAfter S true c = S) → (AGraph.subsAfter S false c = S) →
      (∀ s', GS.exec c s = .ok () s' → ∃ A', A.StepL S c none A' ∧ SimL s' A' (AGraph.subsAfter S true c)) ∧
      (∀ x s', GS.exec c s = .throw x s' → ∃ A', A.StepL S c (some x) A' ∧ SimL s' A' (AGraph.subsAfter S false c)) := by
    intro hb e1 e2
    rw [e1, e2]
    obtain ⟨b1, b2⟩ := SimV.exec_bare hb s
    obtain ⟨r1, r2⟩ := Rep.exec_blind (s := s.bare) (h.rep.of_g rfl) h.wf h.paired rfl S hb
    constructor
    · intro s' hs
      obtain ⟨t, t1, t2, t3⟩ := b1 s' hs
      obtain ⟨A', a1, a2⟩ := r1 t t1
      exact ⟨A', a1, fin (by rw [hs]; rfl) (a2.of_g t2) (by rw [t3]; exact h.subs)⟩
    · intro x s' hs
      obtain ⟨t, t1, t2, t3⟩ := b2 x s' hs
      obtain ⟨A', a1, a2⟩ := r2 x t t1
      exact ⟨A', a1, fin (by rw [hs]; rfl) (a2.of_g t2) (by rw [t3]; exact h.subs)⟩
  have removal : ((∃ a b, c = .removeEdge a b) ∨ ∃ f, c = .disconnectFrame f) →
      (∀ s', GS.exec c s = .ok () s' → ∃ A', A.StepL S c none A' ∧ SimL s' A' S) ∧
      (∀ x s', GS.exec c s = .throw x s' → ∃ A', A.StepL S c (some x) A' ∧ SimL s' A' S) := by
    intro hb
    obtain ⟨r1, r2⟩ := h.rep.exec_removals h.wf h.paired h.nonempty hb
    have hsub : ∀ {s'}, (GS.exec c s).st? = some s' → s'.subs = s.subs := by
      intro s' hs
      have hn : c.noView := by
        rcases hb with ⟨a, b, rfl⟩ | ⟨f, rfl⟩ <;> trivial
      exact (exec_safe hn hs).1
    constructor
    · intro s' hs
      obtain ⟨A', a1, a2⟩ := r1 s' hs
      have hst : (GS.exec c s).st? = some s' := by rw [hs]; rfl
      exact ⟨A', a1, fin hst a2 (by rw [hsub hst]; exact h.subs)⟩
    · intro x s' hs
      obtain ⟨A', a1, a2⟩ := r2 x s' hs
      have hst : (GS.exec c s).st? = some s' := by rw [hs]; rfl
      exact ⟨A', a1, fin hst a2 (by rw [hsub hst]; exact h.subs)⟩
  cases c with
  | addFrame f => exact blind trivial rfl rfl
  | emplaceFrame f p => exact blind trivial rfl rfl
  | removeFrame f => exact blind trivial rfl rfl
  | setEdge a b p => exact blind trivial rfl rfl
  | addEdge a b p => exact blind trivial rfl rfl
  | removeEdge a b => exact removal (.inl ⟨a, b, rfl⟩)
  | disconnectFrame f => exact removal (.inr ⟨f, rfl⟩)
  | unsubscribeView p =>
    refine ⟨fun s' hs => ?_, fun x s' hs => (by cases hs)⟩
    have hst : (GS.exec (Cmd.unsubscribeView p : Cmd F E) s).st? = some s' := by rw [hs]; rfl
    cases hs
    refine ⟨_, AGraph.StepL.same _ trivial, fin hst (h.rep.of_g (unsubscribeView_same p s).1) ?_⟩
    intro q
    have hs := (h.inv.2 p)
    simp only [AGraph.subsAfter, Finset.mem_erase, ← h.subs, GS.unsubscribeView]
    split
    · simp [and_comm]
    · rename_i hn
      constructor
      · intro hq
        refine ⟨?_, hq⟩
        rintro rfl
        exact hn (hs.1 hq)
      · exact fun hq => hq.2
  | getTree f k p =>
    cases hv : s.g.vertexOf f with
    | none =>
      have e : GS.exec (Cmd.getTree f k p : Cmd F E) s = .throw (.unknownFrame f) s := by simp [GS.exec, getTree, hv]
      rw [e]
      refine ⟨fun s' hs => (by cases hs), fun x s' hs => ?_⟩
      cases hs
      have e1 : A.step (Cmd.getTree f k p : Cmd F E) = (some (.unknownFrame f), A) := by
        simp only [AGraph.step, h.rep.not_mem hv, not_false_eq_true, if_true]
      have := AGraph.StepL.same (S := S) (A := A) (Cmd.getTree f k p : Cmd F E) trivial
      rw [e1] at this
      refine ⟨_, this, ?_⟩
      cases k <;> exact h
    | some v =>
      have e1 : A.step (Cmd.getTree f k p : Cmd F E) = (none, A) := by
        simp only [AGraph.step, h.rep.mem hv, not_true_eq_false, if_false]
      have st := AGraph.StepL.same (S := S) (A := A) (Cmd.getTree f k p : Cmd F E) trivial
      rw [e1] at st
      obtain ⟨evs, lvl, h1, -⟩ := searchEvents_done (g := s.g) h.wf (h.wf.live hv)
      have hex : GS.exec (Cmd.getTree f k p : Cmd F E) s =
          (if k then subscribeTreeView p { s with views := setView s.views p (((s.views p).addRoot v).build evs) }
            else .ok () { s with views := setView s.views p (((s.views p).addRoot v).build evs) }) := by
        simp [GS.exec, getTree, hv, getTreeInto, h1]
      cases k with
      | false =>
        have hex' := hex
        simp only [Bool.false_eq_true, if_false] at hex'
        refine ⟨fun s' hs => ?_, fun x s' hs => ?_⟩
        · have hst : (GS.exec (Cmd.getTree f false p : Cmd F E) s).st? = some s' := by rw [hs]; rfl
          rw [hex'] at hs
          cases hs
          exact ⟨_, st, fin hst (h.rep.of_g rfl) h.subs⟩
        · rw [hex'] at hs; cases hs
      | true =>
        have hex' := hex
        simp only [if_true, subscribeTreeView] at hex'
        refine ⟨fun s' hs => ?_, fun x s' hs => ?_⟩
        · have hst : (GS.exec (Cmd.getTree f true p : Cmd F E) s).st? = some s' := by rw [hs]; rfl
          rw [hex'] at hs
          split at hs
          · cases hs
          · cases hs
            refine ⟨_, st, fin hst (h.rep.of_g rfl) ?_⟩
            intro q
            simp only [AGraph.subsAfter, if_true, Finset.mem_insert, List.mem_append, List.mem_singleton, h.subs]
            exact or_comm
        · rw [hex'] at hs
          split at hs <;> cases hs

/-- histories -/
theorem outcomes {cs : List (Cmd F E)} : ∀ {s s' : GS F E} {A : AGraph E} {S : Finset Nat} {xs : List (Option Exn)},
    SimL s A S → GS.outcomes cs s = some (xs, s') → ∃ A' S', A.RunL S cs xs A' S' ∧ SimL s' A' S' := by
  induction cs with
  | nil =>
    intro s s' A S xs h ho
    simp only [GS.outcomes, Option.some.injEq, Prod.mk.injEq] at ho
    obtain ⟨rfl, rfl⟩ := ho
    exact ⟨A, S, .nil A S, h⟩
  | cons c cs ih =>
    intro s s' A S xs h ho
    obtain ⟨h1, h2⟩ := h.exec c
    unfold GS.outcomes at ho
    cases hx : GS.exec c s with
    | ok a s1 =>
      simp only [hx, Option.map_eq_some_iff, Prod.mk.injEq] at ho
      obtain ⟨⟨xs1, s2⟩, ho, rfl, rfl⟩ := ho
      obtain ⟨A1, a1, a2⟩ := h1 s1 hx
      obtain ⟨A', S', b1, b2⟩ := ih a2 ho
      exact ⟨A', S', .cons a1 b1, b2⟩
    | throw x s1 =>
      simp only [hx, Option.map_eq_some_iff, Prod.mk.injEq] at ho
      obtain ⟨⟨xs1, s2⟩, ho, rfl, rfl⟩ := ho
      obtain ⟨A1, a1, a2⟩ := h2 x s1 hx
      obtain ⟨A', S', b1, b2⟩ := ih a2 ho
      exact ⟨A', S', .cons a1 b1, b2⟩
    | ub r => simp [hx] at ho

end SimL
end Verif
