import Verif.Lemmas.NoSelf
import Verif.Lemmas.Loose
import Verif.Lemmas.Written
set_option linter.unusedSectionVars false
/-! # Lemmas: what a call does to the edges between two different frames, with self edges in the graph -/

namespace Verif
open GS
variable {F E : Type} [FrameProp F] [EdgeProp E]

/-- the event is about the pair of frames -/
def Event.About (a b : FrameId) : Event → Prop
  | .edgeAdded x y _ | .edgeModified x y _ _ | .edgeRemoved x y => (x = a ∧ y = b) ∨ (x = b ∧ y = a)
  | _ => False

theorem absEdge_addPair_ns {g : G F E} (hw : WF g) (hp : Paired g.ns) {a b : FrameId} {u v : VId} {p : E}
    (ha : g.vertexOf a = some u) (hb : g.vertexOf b = some v) (hn : g.edge u v = none) (x y : FrameId) (hxy : x ≠ y) :
    absEdge ((g.addEdge u v p).1.addEdge v u (EdgeProp.inverse p)).1 x y =
      if x = a ∧ y = b then some p else if x = b ∧ y = a then some (EdgeProp.inverse p) else absEdge g x y := by
  have hl : ∀ z, ((g.addEdge u v p).1.addEdge v u (EdgeProp.inverse p)).1.vertexOf z = g.vertexOf z := fun z => rfl
  simp only [absEdge, hl]
  cases hx : g.vertexOf x with
  | none =>
    have c1 : ¬ (x = a ∧ y = b) := by rintro ⟨rfl, -⟩; rw [hx] at ha; cases ha
    have c2 : ¬ (x = b ∧ y = a) := by rintro ⟨rfl, -⟩; rw [hx] at hb; cases hb
    simp [c1, c2]
  | some x' =>
    cases hy : g.vertexOf y with
    | none =>
      have c1 : ¬ (x = a ∧ y = b) := by rintro ⟨-, rfl⟩; rw [hy] at hb; cases hb
      have c2 : ¬ (x = b ∧ y = a) := by rintro ⟨-, rfl⟩; rw [hy] at ha; cases ha
      simp [c1, c2]
    | some y' =>
      have hne : x' ≠ y' := by rintro rfl; exact hxy (hw.vertexOf_inj hx hy)
      have e1 : (x = a ∧ y = b) ↔ (u = x' ∧ v = y') := by
        constructor
        · rintro ⟨rfl, rfl⟩
          rw [hx] at ha; rw [hy] at hb
          exact ⟨(Option.some.inj ha).symm, (Option.some.inj hb).symm⟩
        · rintro ⟨rfl, rfl⟩
          exact ⟨hw.vertexOf_inj hx ha, hw.vertexOf_inj hy hb⟩
      have e2 : (x = b ∧ y = a) ↔ (v = x' ∧ u = y') := by
        constructor
        · rintro ⟨rfl, rfl⟩
          rw [hx] at hb; rw [hy] at ha
          exact ⟨(Option.some.inj hb).symm, (Option.some.inj ha).symm⟩
        · rintro ⟨rfl, rfl⟩
          exact ⟨hw.vertexOf_inj hx hb, hw.vertexOf_inj hy ha⟩
      simp only [Option.bind_some, G.edge_addEdge, e1, e2]
      by_cases c1 : u = x' ∧ v = y'
      · obtain ⟨rfl, rfl⟩ := c1
        simp [hn]
      · by_cases c2 : v = x' ∧ u = y'
        · obtain ⟨rfl, rfl⟩ := c2
          have hn2 : g.edge v u = none := by
            rw [G.edge_none]
            rintro e he ⟨h1, h2⟩
            obtain ⟨e', he', h3, h4, -⟩ := hp.inv e (G.mem_ns.2 ⟨he, by rw [h1, h2]; exact hne⟩)
            exact G.edge_none.1 hn e' (G.mem_ns.1 he').1 ⟨h3.trans h2, h4.trans h1⟩
          simp [hn2, c1]
        · simp [c1, c2]

theorem absEdge_setProp_self {g : G F E} (hw : WF g) {a b : FrameId} (hab : a ≠ b) {i : EId} {p : E}
    (hi : ∃ r ∈ g.edges, r.id = i ∧ r.src = r.tgt) : absEdge (g.setProp i p) a b = absEdge g a b := by
  obtain ⟨r, hr, hri, hrs⟩ := hi
  have hl : ∀ z, (g.setProp i p).vertexOf z = g.vertexOf z := fun z => rfl
  simp only [absEdge, hl]
  cases hx : g.vertexOf a with
  | none => rfl
  | some u =>
    cases hy : g.vertexOf b with
    | none => rfl
    | some v =>
      simp only [Option.bind_some, G.edge_setProp]
      cases he : g.edge u v with
      | none => rfl
      | some e =>
        obtain ⟨m, s1, t1⟩ := G.edge_some he
        have : e.id ≠ i := by
          intro h
          have := map_inj_of_nodup hw.enodup m hr (h.trans hri.symm)
          subst this
          exact hab (hw.vertexOf_inj (hx.trans (by rw [← s1, hrs, t1])) hy)
        simp [this]

/-- a step that is not about the pair changes nothing for it -/
theorem GStep.pair_kept {g g' : G F E} {x : Event × G F E} (hs : GStep g x g') (hw : WF g) (hp : Paired g.ns) {a b : FrameId} (hab : a ≠ b)
    (hx : ¬ x.1.About a b) : absEdge g' a b = absEdge g a b := by
  cases hs with
  | addV hn _ => exact absEdge_addVertex hw _ hn a b
  | dupV _ => rfl
  | addE ha hb hn =>
    rw [absEdge_addPair_ns hw hp ha hb hn a b hab]
    simp only [Event.About, not_or] at hx
    rw [if_neg (fun h => hx.1 ⟨h.1.symm, h.2.symm⟩), if_neg (fun h => hx.2 ⟨h.2.symm, h.1.symm⟩)]
  | @rmE _ _ x y u v e1 e2 ha hb h1 h2 hg1 hg2 =>
    have huv : u ≠ v := by
      rintro rfl
      rw [h1] at h2
      cases h2
      obtain ⟨-, rfl⟩ := G.removeEdge_some hg1
      obtain ⟨⟨r, hr, hri⟩, -⟩ := G.removeEdge_some hg2
      simp [hri] at hr
    obtain ⟨e2', g1', g2', k1, k2, k3, -, k4, -⟩ := removePair_exists_ns hw hp huv h1
    rw [h2] at k1; cases k1
    rw [hg1] at k2; cases k2
    rw [hg2] at k3; cases k3
    rw [k4, absEdge_cut hw ha hb]
    simp only [Event.About, not_or] at hx
    rw [if_neg]
    rintro (h | h)
    · exact hx.1 ⟨h.1.symm, h.2.symm⟩
    · exact hx.2 ⟨h.2.symm, h.1.symm⟩
  | @setP x y u v e1 e2 p ha hb h1 h2 =>
    simp only [Event.About, not_or] at hx
    by_cases huv : u = v
    · subst huv
      obtain ⟨m1, s1, t1⟩ := G.edge_some h1
      obtain ⟨m2, s2, t2⟩ := G.edge_some h2
      rw [absEdge_setProp_self (hw.setProp _ _) hab ⟨e2, m2, rfl, s2.trans t2.symm⟩, absEdge_setProp_self hw hab ⟨e1, m1, rfl, s1.trans t1.symm⟩]
    · rw [absEdge_setPair_ne hw huv ha hb h1 h2]
      rw [if_neg (fun h => hx.1 ⟨h.1.symm, h.2.symm⟩), if_neg (fun h => hx.2 ⟨h.2.symm, h.1.symm⟩)]
  | rmV hv hd => exact absEdge_removeVertex hv hd a b

theorem Advances.pair_kept {P : G F E → Event → Prop} {s s' : GS F E} (h : Advances P s s') (hw : WF s.g) (hp : Paired s.g.ns) {a b : FrameId}
    (hab : a ≠ b) (hP : ∀ g e, P g e → ¬ e.About a b) : absEdge s'.g a b = absEdge s.g a b := by
  obtain ⟨l, h, -⟩ := h
  generalize s.g = g at *
  generalize s'.g = g' at *
  induction h with
  | nil => rfl
  | cons hs hx _ ih => rw [ih (hs.wf hw) (hs.paired_ns hw hp), hs.pair_kept hw hp hab (hP _ _ hx)]

theorem conn_iff_absEdge {s : GS F E} {a b : FrameId} : s.Conn a b ↔ (absEdge s.g a b).isSome := by
  unfold GS.Conn containsEdge
  cases ha : s.g.vertexOf a with
  | none => simp [absEdge_none_left ha]
  | some u =>
    cases hb : s.g.vertexOf b with
    | none => simp [absEdge_none_right hb]
    | some v => simp [absEdge_of ha hb]

theorem edgeProperty_iff_absEdge {s : GS F E} {a b : FrameId} {p : E} : getEdgeProperty a b s = .ok p s ↔ absEdge s.g a b = some p := by
  unfold getEdgeProperty getEdge
  cases hf : s.g.vertexOf a with
  | none => simp [absEdge_none_left hf]
  | some u =>
    cases hf' : s.g.vertexOf b with
    | none => simp [absEdge_none_right hf']
    | some v =>
      rw [absEdge_of hf hf']
      cases he : s.g.edge u v <;> simp [he]

theorem Advances.paired_ns {P : G F E → Event → Prop} {s s' : GS F E} (h : Advances P s s') (hw : WF s.g) (hp : Paired s.g.ns) : Paired s'.g.ns := by
  obtain ⟨l, h, -⟩ := h
  exact h.paired_ns hw hp

/-- `add_edge` for two different frames: nothing happens to any pair if it throws, and both directions are there if it returns -/
theorem addEdge_pair {x y : FrameId} {p : E} {s : GS F E} (hw : WF s.g) (hp : Paired s.g.ns) (hxy : x ≠ y) :
    (∀ m s', addEdge x y p s = .throw m s' → ∀ a b, a ≠ b → absEdge s'.g a b = absEdge s.g a b) ∧
    (∀ s', addEdge x y p s = .ok () s' → absEdge s'.g x y = some p ∧ absEdge s'.g y x = some (EdgeProp.inverse p)) := by
  unfold addEdge
  simp only
  obtain ⟨a1, b1, c1⟩ := orCreate_spec (s := s) (s0 := s) (f := x) (fun f v h => h)
  obtain ⟨a2, b2, c2⟩ := orCreate_spec (s := (orCreate x (s.g.vertexOf x) s).1) (s0 := s) (f := y) c1
  have w1 := a1.wf hw
  have p1 := a1.paired_ns hw hp
  have w2 := a2.wf w1
  have p2 := a2.paired_ns w1 p1
  have k1 : ∀ a b, a ≠ b → absEdge (orCreate x (s.g.vertexOf x) s).1.g a b = absEdge s.g a b := fun a b hab =>
    a1.pair_kept hw hp hab (by rintro g e ⟨rfl, -⟩; exact id)
  have k2 : ∀ a b, a ≠ b → absEdge (orCreate y (s.g.vertexOf y) (orCreate x (s.g.vertexOf x) s).1).1.g a b =
      absEdge (orCreate x (s.g.vertexOf x) s).1.g a b := fun a b hab =>
    a2.pair_kept w1 p1 hab (by rintro g e ⟨rfl, -⟩; exact id)
  have b1' := c2 _ _ b1
  generalize orCreate y (s.g.vertexOf y) (orCreate x (s.g.vertexOf x) s).1 = r2 at *
  generalize orCreate x (s.g.vertexOf x) s = r1 at *
  obtain ⟨ru, hu, -⟩ := w2.live_of_vertexOf b1'
  obtain ⟨rv, hv, -⟩ := w2.live_of_vertexOf b2
  unfold addEdgeD
  simp only [hu, hv]
  cases he : r2.1.g.edge r1.2 r2.2 with
  | some e =>
    refine ⟨fun m s' hs a b hab => ?_, fun s' hs => (by cases hs)⟩
    simp only [Res.throw.injEq] at hs
    rw [← hs.2, k2 a b hab, k1 a b hab]
  | none =>
    simp only
    cases hx : addEdgeToTreeViews ((r2.1.g.addEdge r1.2 r2.2 p).1.addEdge r2.2 r1.2 (EdgeProp.inverse p)).1 (r2.1.g.addEdge r1.2 r2.2 p).2
        r2.1.subs r2.1.views with
    | throw m vs =>
      exact absurd hx (addEdgeToTreeViews_not_throw (e := ⟨r2.1.g.nextE, r1.2, r2.2, p⟩) edge_addPair_fst edge_addPair_snd)
    | ub m => exact ⟨fun m s' hs => (by cases hs), fun s' hs => (by cases hs)⟩
    | ok u vs =>
      refine ⟨fun m s' hs => (by cases hs), fun s' hs => ?_⟩
      simp only [Res.ok.injEq, true_and] at hs
      have hg : s'.g = ((r2.1.g.addEdge r1.2 r2.2 p).1.addEdge r2.2 r1.2 (EdgeProp.inverse p)).1 := by rw [← hs]; rfl
      rw [hg, absEdge_addPair_ns w2 p2 b1' b2 he x y hxy, absEdge_addPair_ns w2 p2 b1' b2 he y x hxy.symm]
      simp [hxy, hxy.symm]

theorem setEdge_pair {x y : FrameId} {p : E} {s s' : GS F E} (hw : WF s.g) (hxy : x ≠ y) (h : setEdgeProperty x y p s = .ok () s') :
    absEdge s'.g x y = some p ∧ absEdge s'.g y x = some (EdgeProp.inverse p) := by
  unfold setEdgeProperty at h
  cases ha : s.g.vertexOf x with
  | none => simp [ha] at h
  | some u =>
    cases hb : s.g.vertexOf y with
    | none => simp [ha, hb] at h
    | some v =>
      cases he : s.g.edge u v with
      | none => simp [ha, hb, he] at h
      | some e1 =>
        simp only [ha, hb, he] at h
        cases h2 : (s.g.setProp e1.id p).edge v u with
        | none => simp [h2] at h
        | some e2 =>
          simp only [h2, Res.ok.injEq, true_and] at h
          have hg : s'.g = (s.g.setProp e1.id p).setProp e2.id (EdgeProp.inverse p) := by rw [← h]; rfl
          have huv : u ≠ v := by rintro rfl; exact hxy (hw.vertexOf_inj ha hb)
          rw [hg, absEdge_setPair_ne hw huv ha hb he h2, absEdge_setPair_ne hw huv ha hb he h2]
          simp [hxy, hxy.symm]

theorem absEdge_symm_ns {g : G F E} (hw : WF g) (hp : Paired g.ns) {a b : FrameId} (hab : a ≠ b) (h : (absEdge g a b).isSome) :
    (absEdge g b a).isSome := by
  obtain ⟨u, v, e, hu, hv, he⟩ := absEdge_isSome h
  have huv : u ≠ v := by rintro rfl; exact hab (hw.vertexOf_inj hu hv)
  obtain ⟨e', he', -⟩ := hp.inverse (show g.ns.edge u v = some e by rw [G.edge_ns g huv]; exact he)
  rw [G.edge_ns g (Ne.symm huv)] at he'
  rw [absEdge_of hv hu, he']; rfl

/-- a call that does not write the pair leaves it as it is, unless it cuts it -/
theorem exec_pair_kept {c : Cmd F E} {s s' : GS F E} (hw : WF s.g) (hp : Paired s.g.ns) {a b : FrameId} (hab : a ≠ b)
    (h : (exec c s).st? = some s') (hc : (absEdge s'.g a b).isSome ∨ ¬ AGraph.cuts a b c)
    (hn : exec c s = .ok () s' → ∀ p, (c ≠ .addEdge a b p ∧ c ≠ .setEdge a b p) ∧ (c ≠ .addEdge b a p ∧ c ≠ .setEdge b a p)) :
    absEdge s'.g a b = absEdge s.g a b := by
  cases c with
  | addFrame f =>
    simp only [exec, st?_discard] at h
    exact (addFrame_advances h).pair_kept hw hp hab (by rintro g e ⟨rfl, -⟩; exact id)
  | emplaceFrame f p =>
    simp only [exec, st?_discard] at h
    exact (emplaceFrame_advances h).pair_kept hw hp hab (by rintro g e ⟨rfl, -⟩; exact id)
  | removeFrame f =>
    exact (removeFrame_advances h).pair_kept hw hp hab (by rintro g e rfl; exact id)
  | getTree f k q =>
    have : s'.g = s.g := (getTree_same h).1
    rw [this]
  | unsubscribeView q =>
    simp only [exec, Res.st?, Option.some.injEq] at h
    subst h
    have : (unsubscribeView q s).g = s.g := by unfold unsubscribeView; split <;> rfl
    rw [this]
  | disconnectFrame f =>
    rcases hc with hc | hc
    swap
    · refine (disconnectFrame_advances hw h).pair_kept hw hp hab ?_
      rintro g e ⟨z, rfl⟩
      simp only [AGraph.cuts] at hc
      rintro (⟨rfl, -⟩ | ⟨rfl, -⟩) <;> simp at hc
    simp only [exec] at h
    unfold disconnectFrame at h
    cases hv : s.g.vertexOf f with
    | none =>
      simp only [hv, Res.st?, Option.some.injEq] at h
      rw [h]
    | some v =>
      simp only [hv] at h
      obtain ⟨k1, k2⟩ := disconnectLoop_cut_ns s.g.edges.length hw hp hv
      obtain ⟨ws, hcut⟩ : ∃ ws, SimV.CutTo s s' f v ws := by
        cases hx : disconnectLoop v s.g.edges.length s with
        | ok x s1 =>
          rw [hx] at h
          simp only [Res.st?, Option.some.injEq] at h
          subst h
          obtain ⟨ws, k, -⟩ := k1 _ hx
          exact ⟨ws, k⟩
        | throw x s1 =>
          rw [hx] at h
          simp only [Res.st?, Option.some.injEq] at h
          subst h
          obtain ⟨-, -, ws, -, k⟩ := k2 _ _ hx
          exact ⟨ws, k⟩
        | ub m => rw [hx] at h; cases h
      obtain ⟨u, w, e, hu, hw', he⟩ := absEdge_isSome hc
      rw [absEdge_of hu hw']
      rw [hcut.label] at hu hw'
      rw [absEdge_of hu hw']
      rw [hcut.edge] at he ⊢
      split at he
      · cases he
      · rename_i hh; rw [if_neg hh]
  | removeEdge x y =>
    by_cases hxy : (x = a ∧ y = b) ∨ (x = b ∧ y = a)
    · replace hc := hc.resolve_right (fun h => h hxy)
      have hne : x ≠ y := by
        rcases hxy with ⟨rfl, rfl⟩ | ⟨rfl, rfl⟩
        · exact hab
        · exact hab.symm
      simp only [exec] at h
      unfold GS.removeEdge at h
      cases hx : s.g.vertexOf x with
      | none => simp only [hx, Res.st?, Option.some.injEq] at h; rw [h]
      | some u =>
        cases hy : s.g.vertexOf y with
        | none => simp only [hx, hy, Res.st?, Option.some.injEq] at h; rw [h]
        | some v =>
          simp only [hx, hy] at h
          have huv : u ≠ v := fun e => hne (hw.vertexOf_inj hx (e ▸ hy))
          cases he : s.g.edge u v with
          | none =>
            unfold removeEdgeBoth at h
            simp only [he, Res.st?, Option.some.injEq] at h
            rw [h]
          | some e =>
            have hg : s'.g = s.g.cut u v := by
              rw [removeEdgeBoth_eq_ns hw hp x y huv he] at h
              split at h
              · simp only [Res.st?, Option.some.injEq] at h; rw [← h]
              · simp only [Res.st?, Option.some.injEq] at h; rw [← h]
              · cases h
            rw [hg, absEdge_cut hw hx hy, if_pos] at hc
            · cases hc
            · rcases hxy with ⟨rfl, rfl⟩ | ⟨rfl, rfl⟩
              · exact .inl ⟨rfl, rfl⟩
              · exact .inr ⟨rfl, rfl⟩
    · exact (removeEdge_advances h).pair_kept hw hp hab (by rintro g e rfl; exact hxy)
  | setEdge x y p =>
    by_cases hxy : (x = a ∧ y = b) ∨ (x = b ∧ y = a)
    · simp only [exec] at h hn
      cases hx : setEdgeProperty x y p s with
      | ok u s1 =>
        rw [hx] at h
        simp only [Res.st?, Option.some.injEq] at h
        subst h
        rcases hxy with ⟨rfl, rfl⟩ | ⟨rfl, rfl⟩
        · exact absurd rfl (hn hx p).1.2
        · exact absurd rfl (hn hx p).2.2
      | throw x s1 =>
        have hs := setEdgeProperty_throw hx
        rw [hx] at h
        simp only [Res.st?, Option.some.injEq] at h
        rw [← h, hs]
      | ub m => rw [hx] at h; cases h
    · exact (setEdgeProperty_advances h).pair_kept hw hp hab (by rintro g e ⟨i, j, rfl⟩; exact hxy)
  | addEdge x y p =>
    by_cases hxy : (x = a ∧ y = b) ∨ (x = b ∧ y = a)
    · simp only [exec] at h hn
      have hne : x ≠ y := by
        rcases hxy with ⟨rfl, rfl⟩ | ⟨rfl, rfl⟩
        · exact hab
        · exact hab.symm
      cases hx : addEdge x y p s with
      | ok u s1 =>
        rw [hx] at h
        simp only [Res.st?, Option.some.injEq] at h
        subst h
        rcases hxy with ⟨rfl, rfl⟩ | ⟨rfl, rfl⟩
        · exact absurd rfl (hn hx p).1.1
        · exact absurd rfl (hn hx p).2.1
      | throw m s1 =>
        have := (addEdge_pair hw hp hne).1 m s1 hx a b hab
        rw [hx] at h
        simp only [Res.st?, Option.some.injEq] at h
        rw [← h, this]
      | ub m => rw [hx] at h; cases h
    · refine (addEdge_advances hw h).pair_kept hw hp hab ?_
      rintro g e (⟨rfl, -⟩ | ⟨rfl, -⟩ | ⟨i, rfl⟩)
      · exact id
      · exact id
      · exact hxy

namespace GS
variable {F T : Type} [FrameProp F] [Group T]

/-- every call that is not undefined behaviour is a call by names -/
theorem texec_cmd_ns {s : GS F (Tf T)} (hw : WF s.g) (hp : Paired s.g.ns) {c : TCall F T} (h : ∀ m, texec c s ≠ .ub m) :
    ∃ c' : Cmd F (Tf T), texec c s = exec c' s ∧ (∀ a b p, a ≠ b → (c.Writes s a b p ↔ (c' = .addEdge a b p ∨ c' = .setEdge a b p))) ∧
      (∀ a b, AGraph.cuts a b c' ↔ c.Cuts s a b) := by
  have hinj : ∀ {x a : FrameId} {u : VId}, s.g.vertexOf x = some u → (s.g.vertexOf a = some u ↔ x = a) := fun hx =>
    ⟨fun ha => hw.vertexOf_inj hx ha, fun e => e ▸ hx⟩
  cases c with
  | add a b tf =>
    refine ⟨.addEdge a b tf, rfl, ?_, ?_⟩
    · intro x y p hxyn; simp [TCall.Writes]
    · intro x y; simp [TCall.Cuts, AGraph.cuts]
  | addD u v tf =>
    have h' := h
    simp only [texec, addTransformD] at h'
    unfold addEdgeD at h'
    cases hu : s.g.findV u with
    | none => simp [hu] at h'
    | some ru =>
      cases hv : s.g.findV v with
      | none => simp [hu, hv] at h'
      | some rv =>
        obtain ⟨a, ha⟩ := named_of_findV hw hu
        obtain ⟨b, hb⟩ := named_of_findV hw hv
        refine ⟨.addEdge a b tf, addEdgeD_eq ha hb tf, ?_, ?_⟩
        · intro x y p hxyn; simp [TCall.Writes, hinj ha, hinj hb]
        · intro x y; simp [TCall.Cuts, AGraph.cuts]
  | update a b tf =>
    refine ⟨.setEdge a b tf, rfl, ?_, ?_⟩
    · intro x y p hxyn; simp [TCall.Writes]
    · intro x y; simp [TCall.Cuts, AGraph.cuts]
  | updateD u v tf =>
    have h' := h
    simp only [texec, updateTransformD] at h'
    unfold setEdgePropertyD at h'
    cases hu : s.g.findV u with
    | none => simp [hu] at h'
    | some ru =>
      cases hv : s.g.findV v with
      | none => simp [hu, hv] at h'
      | some rv =>
        obtain ⟨a, ha⟩ := named_of_findV hw hu
        obtain ⟨b, hb⟩ := named_of_findV hw hv
        refine ⟨.setEdge a b tf, setEdgePropertyD_eq hw ha hb tf, ?_, ?_⟩
        · intro x y p hxyn; simp [TCall.Writes, hinj ha, hinj hb]
        · intro x y; simp [TCall.Cuts, AGraph.cuts]
  | updateE e tf =>
    have h' := h
    simp only [texec] at h'
    unfold updateTransformE at h'
    cases he : findE s.g e with
    | none => simp [he] at h'
    | some r =>
      obtain ⟨hm, hid⟩ := findE_some he
      obtain ⟨ru, hru, hu⟩ := hw.esrc r hm
      obtain ⟨rv, hrv, hv⟩ := hw.etgt r hm
      obtain ⟨a, ha⟩ := named_of_findV hw (hw.findV_iff.2 ⟨hru, hu⟩)
      obtain ⟨b, hb⟩ := named_of_findV hw (hw.findV_iff.2 ⟨hrv, hv⟩)
      refine ⟨.setEdge a b tf, ?_, ?_, ?_⟩
      · simp only [texec, updateTransformE, he, updateTransformD]
        exact setEdgePropertyD_eq hw ha hb tf
      · intro x y p hxyn
        simp only [TCall.Writes, reduceCtorEq, Cmd.setEdge.injEq, false_or]
        constructor
        · rintro ⟨⟨r', h1, h2⟩, rfl⟩
          unfold getEdge at h1
          cases hx : s.g.vertexOf x with
          | none => simp [hx] at h1
          | some ux =>
            cases hy : s.g.vertexOf y with
            | none => simp [hx, hy] at h1
            | some uy =>
              cases hxy : s.g.edge ux uy with
              | none => simp [hx, hy, hxy] at h1
              | some r2 =>
                simp only [hx, hy, hxy, Res.ok.injEq, and_true] at h1
                subst h1
                obtain ⟨m2, s2, t2⟩ := G.edge_some hxy
                have : r2 = r := map_inj_of_nodup hw.enodup m2 hm (h2.trans hid.symm)
                subst this
                rw [s2] at ha
                rw [t2] at hb
                exact ⟨hw.vertexOf_inj ha hx, hw.vertexOf_inj hb hy, rfl⟩
        · rintro ⟨rfl, rfl, rfl⟩
          refine ⟨⟨r, ?_, hid⟩, rfl⟩
          have hst : r.src ≠ r.tgt := by
            intro e
            rw [e] at ha
            exact hxyn (hw.vertexOf_inj ha hb)
          have : s.g.edge r.src r.tgt = some r := by
            rw [← G.edge_ns s.g hst]
            exact (hp.edge_iff).2 ⟨G.mem_ns.2 ⟨hm, hst⟩, rfl, rfl⟩
          unfold getEdge
          simp only [ha, hb, this]
      · intro x y; simp [TCall.Cuts, AGraph.cuts]
  | remove a b =>
    refine ⟨.removeEdge a b, rfl, ?_, ?_⟩
    · intro x y p hxyn; simp [TCall.Writes]
    · intro x y; simp [TCall.Cuts, AGraph.cuts]
  | removeD u v =>
    have h' := h
    simp only [texec, removeTransformD] at h'
    unfold removeEdgeD at h'
    cases hu : s.g.findV u with
    | none => simp [hu] at h'
    | some ru =>
      cases hv : s.g.findV v with
      | none => simp [hu, hv] at h'
      | some rv =>
        obtain ⟨a, ha⟩ := named_of_findV hw hu
        obtain ⟨b, hb⟩ := named_of_findV hw hv
        refine ⟨.removeEdge a b, removeEdgeD_eq hw ha hb, ?_, ?_⟩
        · intro x y p hxyn; simp [TCall.Writes]
        · intro x y; simp [TCall.Cuts, AGraph.cuts, hinj ha, hinj hb]
  | other c =>
    refine ⟨c, rfl, ?_, ?_⟩
    · intro x y p hxyn
      cases c <;> simp [TCall.Writes]
    · intro x y
      cases c <;> simp [TCall.Cuts, AGraph.cuts]

/-- a graph in which every edge between two different frames has its inverse; self edges may be there -/
def Sound (s : GS F (Tf T)) : Prop := WF s.g ∧ Paired s.g.ns

theorem Sound.init : Sound (GS.init : GS F (Tf T)) := ⟨WF.empty, Paired.empty⟩

theorem Sound.conn_symm {s : GS F (Tf T)} (h : Sound s) {a b : FrameId} (hab : a ≠ b) (hc : s.Conn a b) : s.Conn b a :=
  conn_iff_absEdge.2 (absEdge_symm_ns h.1 h.2 hab (conn_iff_absEdge.1 hc))

/-- what one call does to the transform between two different frames, self edges allowed; `ok`: it returned normally -/
theorem step_pair_ns {s s' : GS F (Tf T)} (h : Sound s) {c : TCall F T} (ok : Bool)
    (hx : if ok then texec c s = .ok () s' else ∃ x, texec c s = .throw x s') :
    Sound s' ∧ ∀ a b : FrameId, a ≠ b →
      ((∀ p, getEdgeProperty a b s' = .ok p s' ↔ getEdgeProperty a b s = .ok p s) ∧
        (ok = true → ∀ p, ¬ c.Writes s a b p ∧ ¬ c.Writes s b a p)) ∨
      ((∀ p, getEdgeProperty a b s' = .ok p s' ↔ getEdgeProperty a b s = .ok p s) ∧ ok = false) ∨
      (¬ s'.Conn a b ∧ c.Cuts s a b) ∨
      (ok = true ∧ ∃ p, c.Writes s a b p ∧ getEdgeProperty a b s' = .ok p s') ∨
      (ok = true ∧ ∃ p, c.Writes s b a p ∧ getEdgeProperty a b s' = .ok p.inverse s') := by
  have hub : ∀ m, texec c s ≠ .ub m := by
    intro m hm
    cases ok <;> simp [hm] at hx
  obtain ⟨c', h1, h3, h4⟩ := texec_cmd_ns h.1 h.2 hub
  rw [h1] at hx
  have hst : (exec c' s).st? = some s' := by
    cases ok with
    | true => rw [show exec c' s = .ok () s' by simpa using hx]; rfl
    | false => obtain ⟨x, hx⟩ : ∃ x, exec c' s = .throw x s' := by simpa using hx
               rw [hx]; rfl
  have hadv := exec_advances h.1 hst
  refine ⟨⟨hadv.wf h.1, hadv.paired_ns h.1 h.2⟩, fun a b hab => ?_⟩
  have hsame : absEdge s'.g a b = absEdge s.g a b → ∀ p, getEdgeProperty a b s' = .ok p s' ↔ getEdgeProperty a b s = .ok p s := by
    intro he p
    rw [edgeProperty_iff_absEdge, edgeProperty_iff_absEdge, he]
  have hwr : ∀ x y p, x ≠ y → (c' = .addEdge x y p ∨ c' = .setEdge x y p) → exec c' s = .ok () s' →
      absEdge s'.g x y = some p ∧ absEdge s'.g y x = some (EdgeProp.inverse p) := by
    rintro x y p hxy (rfl | rfl) hok
    · exact (addEdge_pair h.1 h.2 hxy).2 _ hok
    · exact setEdge_pair h.1 hxy hok
  by_cases hw : ok = true ∧ ∃ p, c.Writes s a b p ∨ c.Writes s b a p
  · obtain ⟨rfl, p, hw | hw⟩ := hw
    · exact .inr (.inr (.inr (.inl ⟨rfl, p, hw, edgeProperty_iff_absEdge.2 (hwr a b p hab ((h3 a b p hab).1 hw) (by simpa using hx)).1⟩)))
    · exact .inr (.inr (.inr (.inr ⟨rfl, p, hw, edgeProperty_iff_absEdge.2 (hwr b a p hab.symm ((h3 b a p hab.symm).1 hw) (by simpa using hx)).2⟩)))
  · have hw' : ok = true → ∀ p, ¬ c.Writes s a b p ∧ ¬ c.Writes s b a p := fun ht p =>
      ⟨fun i => hw ⟨ht, p, .inl i⟩, fun i => hw ⟨ht, p, .inr i⟩⟩
    have hn : exec c' s = .ok () s' → ∀ p, (c' ≠ .addEdge a b p ∧ c' ≠ .setEdge a b p) ∧ (c' ≠ .addEdge b a p ∧ c' ≠ .setEdge b a p) := by
      intro hok p
      have ht : ok = true := by
        cases ok
        · obtain ⟨x, hx⟩ : ∃ x, exec c' s = .throw x s' := by simpa using hx
          rw [hok] at hx; cases hx
        · rfl
      obtain ⟨i1, i2⟩ := hw' ht p
      rw [h3 a b p hab] at i1
      rw [h3 b a p hab.symm] at i2
      tauto
    by_cases hc : s'.Conn a b
    · exact .inl ⟨hsame (exec_pair_kept h.1 h.2 hab hst (.inl (conn_iff_absEdge.1 hc)) hn), hw'⟩
    · by_cases hcut : c.Cuts s a b
      · exact .inr (.inr (.inl ⟨hc, hcut⟩))
      · exact .inl ⟨hsame (exec_pair_kept h.1 h.2 hab hst (.inr (fun i => hcut ((h4 a b).1 i))) hn), hw'⟩

/-- a call that runs and writes a pair of different frames writes no other one, and then it cuts nothing -/
theorem Writes_unique_ns {s : GS F (Tf T)} (h : Sound s) {c : TCall F T} (hub : ∀ m, texec c s ≠ .ub m) {a b : FrameId} (hab : a ≠ b)
    {p : Tf T} (hw : c.Writes s a b p) : (∀ x y q, x ≠ y → c.Writes s x y q → x = a ∧ y = b ∧ q = p) ∧ ∀ x y, ¬ c.Cuts s x y := by
  obtain ⟨c', -, h3, h4⟩ := texec_cmd_ns h.1 h.2 hub
  have := (h3 a b p hab).1 hw
  constructor
  · intro x y q hxy hq
    have hq := (h3 x y q hxy).1 hq
    rcases this with rfl | rfl <;> simpa [eq_comm] using hq
  · intro x y hc
    have hc := (h4 x y).2 hc
    rcases this with rfl | rfl <;> exact hc

theorem trun_sound {cs : List (TCall F T)} : ∀ {s s' : GS F (Tf T)}, Sound s → trun cs s = some s' → Sound s' := by
  induction cs with
  | nil => intro s s' h ht; cases ht; exact h
  | cons c cs ih =>
    intro s s' h ht
    unfold trun at ht
    cases hx : texec c s with
    | ok u s1 => rw [hx] at ht; exact ih (step_pair_ns h true (by simpa using hx)).1 ht
    | throw x s1 => rw [hx] at ht; exact ih (step_pair_ns h false (by simpa using ⟨x, hx⟩)).1 ht
    | ub m => rw [hx] at ht; cases ht

end GS
end Verif
