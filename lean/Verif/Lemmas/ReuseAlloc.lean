import Verif.Lemmas.ReuseBelow
set_option linter.unusedSectionVars false
/-! Creating vertices and edges at addresses that are not in use. -/

namespace Verif
open Equiv
variable {F E : Type} [FrameProp F] [EdgeProp E]

/-- send the new number to the new address -/
theorem perm_extend (π : Perm Nat) (n a : Nat) : ∃ π' : Perm Nat, π' n = a ∧ ∀ x, x ≠ n → π x ≠ a → π' x = π x := by
  refine ⟨(swap n (π.symm a)).trans π, by simp, fun x h1 h2 => ?_⟩
  have h3 : x ≠ π.symm a := fun e => h2 (by rw [e]; simp)
  simp [swap_apply_of_ne_of_ne h1 h3]

namespace TreeView

theorem Alike.congr {π π' : Perm VId} {ρ ρ' : Perm EId} {w w' : TreeView} (h : Alike π ρ w w') (hv : ∀ x ∈ w.vertexIds, π' x = π x)
    (he : ∀ x ∈ w.edgeIds, ρ' x = ρ x) : Alike π' ρ' w w' := by
  have hin := in_vertexIds (w := w)
  refine ⟨?_, ?_, ?_, h.publisher, h.signals⟩
  · rw [h.tree]
    refine List.map_congr_left (fun x hx => ?_)
    have := hin.tree x hx
    simp only [VRel.ren]
    refine Prod.ext (hv _ this.1).symm ?_
    simp only [VRel.mk.injEq]
    refine ⟨?_, List.map_congr_left (fun y hy => (hv y (this.2.2 y hy)).symm)⟩
    cases hp : x.2.parent with
    | none => rfl
    | some y => simp [hv y (this.2.1 y hp)]
  · rw [h.cross]
    refine List.map_congr_left (fun c hc => ?_)
    have := hin.cross c hc
    simp only [CrossEdge.ren, CrossEdge.mk.injEq]
    exact ⟨(hv _ this.1).symm, (hv _ this.2.1).symm, (he _ this.2.2).symm⟩
  · rw [h.root]
    cases hr : w.root with
    | none => rfl
    | some y => simp [hv y (hin.root y hr)]

/-- `Alike` maps what is mentioned -/
theorem Alike.mentions {π : Perm VId} {ρ : Perm EId} {w w' : TreeView} (h : Alike π ρ w w') :
    (∀ x ∈ w.vertexIds, π x ∈ w'.vertexIds) ∧ ∀ x ∈ w.edgeIds, ρ x ∈ w'.edgeIds := by
  have hin := in_vertexIds (w := w')
  have : In0 (fun x => π x ∈ w'.vertexIds) (fun e => ρ e ∈ w'.edgeIds) w := by
    refine ⟨fun x hx => ?_, fun c hc => ?_, fun x hx => ?_⟩
    · have hx' : (π x.1, x.2.ren π) ∈ w'.tree := by rw [h.tree]; exact List.mem_map.2 ⟨x, hx, rfl⟩
      have := hin.tree _ hx'
      refine ⟨this.1, fun y hy => this.2.1 _ (by simp [VRel.ren, hy]), fun y hy => this.2.2 _ (by simp [VRel.ren, hy])⟩
    · have hc' : c.ren π ρ ∈ w'.crossEdges := by rw [h.cross]; exact List.mem_map.2 ⟨c, hc, rfl⟩
      exact hin.cross _ hc'
    · exact hin.root _ (by rw [h.root, hx]; rfl)
  exact ⟨this.vertexIds, this.edgeIds⟩

end TreeView

namespace GS
variable {π : Perm VId} {ρ : Perm EId} {K : Nat → Prop}

theorem Alike.congr {π' : Perm VId} {ρ' : Perm EId} {s s' : GS F E} (h : Alike K π ρ s s') (hw : WF s.g) (hv : ∀ r ∈ s.g.verts, π' r.id = π r.id)
    (he : ∀ e ∈ s.g.edges, ρ' e.id = ρ e.id) (hvv : ∀ p, K p → ∀ x ∈ (s.views p).vertexIds, π' x = π x)
    (hve : ∀ p, K p → ∀ x ∈ (s.views p).edgeIds, ρ' x = ρ x) : Alike K π' ρ' s s' := by
  refine ⟨?_, h.subs, fun p hp => (h.views p hp).congr (hvv p hp) (hve p hp), h.publisher, h.trace⟩
  rw [h.g]
  unfold G.ren
  congr 1
  · exact List.map_congr_left (fun r hr => by simp [VRec.ren, hv r hr])
  · refine List.map_congr_left (fun e hr => ?_)
    obtain ⟨r1, h1, h2⟩ := hw.esrc e hr
    obtain ⟨r2, h3, h4⟩ := hw.etgt e hr
    simp only [ERec.ren, ERec.mk.injEq, and_true]
    refine ⟨(he e hr).symm, ?_, ?_⟩
    · rw [← h2]; exact (hv r1 h1).symm
    · rw [← h4]; exact (hv r2 h3).symm
  · refine List.map_congr_left (fun x hx => ?_)
    obtain ⟨r, hr, h1, -⟩ := (hw.lab x.1 x.2).1 hx
    rw [← h1, hv r hr]

/-- a fresh vertex -/
theorem Alike.freshV {s s' : GS F E} (h : Alike K π ρ s s') (hw : WF s.g) (hb : Below s) {a : VId} (ha : a ∉ s'.g.verts.map VRec.id)
    (hav : ∀ p, K p → a ∉ (s'.views p).vertexIds) : ∃ π' : Perm VId, π' s.g.nextV = a ∧ Alike K π' ρ s s' := by
  obtain ⟨π', h1, h2⟩ := perm_extend π s.g.nextV a
  refine ⟨π', h1, h.congr hw (fun r hr => ?_) (fun _ _ => rfl) (fun p hp x hx => ?_) (fun _ _ _ _ => rfl)⟩
  · refine h2 _ (Nat.ne_of_lt (hw.vlt r hr)) (fun e => ha ?_)
    rw [h.g, ← e]
    simp only [G.ren, List.map_map, List.mem_map]
    exact ⟨r, hr, rfl⟩
  · refine h2 x (Nat.ne_of_lt ((hb p).vertexIds x hx)) (fun e => hav p hp ?_)
    rw [← e]; exact (h.views p hp).mentions.1 x hx

/-- a fresh edge -/
theorem Alike.freshE {s s' : GS F E} (h : Alike K π ρ s s') (hw : WF s.g) (hb : Below s) {a : EId} (ha : a ∉ s'.g.edges.map ERec.id)
    (hav : ∀ p, K p → a ∉ (s'.views p).edgeIds) : ∃ ρ' : Perm EId, ρ' s.g.nextE = a ∧ Alike K π ρ' s s' := by
  obtain ⟨ρ', h1, h2⟩ := perm_extend ρ s.g.nextE a
  refine ⟨ρ', h1, h.congr hw (fun _ _ => rfl) (fun e he => ?_) (fun _ _ _ _ => rfl) (fun p hp x hx => ?_)⟩
  · refine h2 _ (Nat.ne_of_lt (hw.elt e he)) (fun e' => ha ?_)
    rw [h.g, ← e']
    simp only [G.ren, List.map_map, List.mem_map]
    exact ⟨e, he, rfl⟩
  · refine h2 x (Nat.ne_of_lt ((hb p).edgeIds x hx)) (fun e => hav p hp ?_)
    rw [← e]; exact (h.views p hp).mentions.2 x hx

theorem addVertexA_ren {al : Alloc F E} (hal : al.Sound) {s s' : GS F E} (h : Alike K π ρ s s') (hw : WF s.g) (hb : Below s) (hav : al.Avoids K s')
    (f : FrameId) (p : F) : ∃ π' : Perm VId, Alike K π' ρ (addVertexN f p s).1 (addVertexA al f p s').1 ∧
      (addVertexA al f p s').2 = π' (addVertexN f p s).2 ∧ ∀ v, (∃ r ∈ s.g.verts, r.id = v) → π' v = π v := by
  obtain ⟨π', h1, h2⟩ := h.freshV hw hb (hal s'.g).1 (fun p hp => (hav p hp s'.g (fun _ h => h) (fun _ h => h)).1)
  have hag : ∀ v, (∃ r ∈ s.g.verts, r.id = v) → π' v = π v := by
    rintro v ⟨r, hr, rfl⟩
    have e1 := h2.g
    rw [h.g] at e1
    have e2 := congrArg G.verts e1
    simp only [G.ren] at e2
    have e3 := List.map_inj_left.1 e2 r hr
    simp only [VRec.ren, VRec.mk.injEq] at e3
    exact e3.1.symm
  refine ⟨π', ?_, ?_, hag⟩
  · have hl : s'.g.labels.get f = (s.g.labels.get f).map π' := by rw [h2.g]; exact AMap.get_labelsRen π' _ f
    have hg : (s'.g.addVertexA al f p).1 = (s.g.addVertex f p).1.ren π' ρ := by
      unfold G.addVertexA G.addVertex
      rw [hl]
      cases s.g.labels.get f with
      | some v => exact h2.g
      | none =>
        simp only [Option.map_none]
        rw [← h1, h2.g]
        simp [G.ren, VRec.ren]
    have : Alike K π' ρ { s with g := (s.g.addVertex f p).1 } { s' with g := (s'.g.addVertexA al f p).1 } :=
      ⟨hg, h2.subs, h2.views, h2.publisher, h2.trace⟩
    exact this.notify (.frameAdded f)
  · have hl : s'.g.labels.get f = (s.g.labels.get f).map π' := by rw [h2.g]; exact AMap.get_labelsRen π' _ f
    simp only [addVertexA, addVertexN, G.addVertexA, G.addVertex, hl]
    cases s.g.labels.get f with
    | some v => rfl
    | none => exact h1.symm

theorem orCreateA_ren {al : Alloc F E} (hal : al.Sound) {s s' : GS F E} (h : Alike K π ρ s s') (hw : WF s.g) (hb : Below s) (hav : al.Avoids K s')
    (f : FrameId) (v : Option VId) : ∃ π' : Perm VId, Alike K π' ρ (orCreate f v s).1 (orCreateA al f (v.map π) s').1 ∧
      (orCreateA al f (v.map π) s').2 = π' (orCreate f v s).2 ∧ ∀ x, (∃ r ∈ s.g.verts, r.id = x) → π' x = π x := by
  cases v with
  | none => exact addVertexA_ren hal h hw hb hav f _
  | some v => exact ⟨π, h, rfl, fun _ _ => rfl⟩

theorem AlikeF.any {r r' : Res (GS F E) Unit} (h : AlikeF K π ρ r r') : AlikeO K r r' := by
  cases h with
  | ok h => exact .ok h
  | throw h => exact .throw h
  | ub => exact .ub

theorem addEdgeDA_ren {al : Alloc F E} (hal : al.Sound) {s s' : GS F E} (h : Alike K π ρ s s') (hw : WF s.g) (hb : Below s) (hav : al.Avoids K s')
    (hK : ∀ p ∈ s.subs, K p) (o t : VId) (p : E) : AlikeO K (addEdgeD o t p s) (addEdgeDA al (π o) (π t) p s') := by
  unfold addEdgeD addEdgeDA
  have q1 : s'.g.findV (π o) = (s.g.findV o).map (VRec.ren π) := by rw [h.g]; exact G.findV_ren π ρ s.g o
  have q2 : s'.g.findV (π t) = (s.g.findV t).map (VRec.ren π) := by rw [h.g]; exact G.findV_ren π ρ s.g t
  have q3 : s'.g.edge (π o) (π t) = (s.g.edge o t).map (ERec.ren π ρ) := by rw [h.g]; exact G.edge_ren π ρ s.g o t
  rw [q1, q2, q3]
  cases hfo : s.g.findV o with
  | none => cases s.g.findV t <;> exact .ub
  | some ro =>
    cases hft : s.g.findV t with
    | none => exact .ub
    | some rt =>
      simp only [Option.map_some]
      cases s.g.edge o t with
      | some e => exact .throw h
      | none =>
        simp only [Option.map_none]
        have lo := G.findV_some hfo
        have lt := G.findV_some hft
        obtain ⟨ρ1, a1, h1⟩ := h.freshE hw hb (hal s'.g).2 (fun p hp => (hav p hp s'.g (fun _ h => h) (fun _ h => h)).2)
        have g1 : (s'.g.addEdgeA al (π o) (π t) p).1 = (s.g.addEdge o t p).1.ren π ρ1 := by
          unfold G.addEdgeA G.addEdge
          simp only
          rw [← a1, h1.g]
          simp [G.ren, ERec.ren]
        have A1 : Alike K π ρ1 { s with g := (s.g.addEdge o t p).1 } { s' with g := (s'.g.addEdgeA al (π o) (π t) p).1 } :=
          ⟨g1, h1.subs, h1.views, h1.publisher, h1.trace⟩
        have W1 : WF (s.g.addEdge o t p).1 := hw.addEdge ⟨ro, lo.1, lo.2⟩ ⟨rt, lt.1, lt.2⟩
        have B1 : Below { s with g := (s.g.addEdge o t p).1 } := hb.of rfl (Nat.le_refl _) (Nat.le_succ _)
        obtain ⟨ρ2, a2, h2⟩ := A1.freshE W1 B1 (hal _).2 (fun q hq => (hav q hq (s'.g.addEdgeA al (π o) (π t) p).1 (fun _ h => h) (fun x h => by
          simp only [G.addEdgeA, List.map_append]; exact List.mem_append_left _ h)).2)
        have g2 : ((s'.g.addEdgeA al (π o) (π t) p).1.addEdgeA al (π t) (π o) (EdgeProp.inverse p)).1 =
            ((s.g.addEdge o t p).1.addEdge t o (EdgeProp.inverse p)).1.ren π ρ2 := by
          have := h2.g
          simp only at this a2
          rw [G.addEdgeA, G.addEdge]
          simp only
          rw [← a2, this]
          simp [G.ren, ERec.ren]
        have e2 : (s'.g.addEdgeA al (π o) (π t) p).2 = (s.g.addEdge o t p).2.ren π ρ2 := by
          have e1 := h2.g
          rw [A1.g] at e1
          have e3 := congrArg G.edges e1
          simp only [G.ren] at e3
          have e4 := List.map_inj_left.1 e3 (s.g.addEdge o t p).2 (by simp [G.addEdge])
          rw [← e4]
          simp [G.addEdgeA, G.addEdge, ERec.ren, a1]
        rw [g2, e2, h.subs]
        have h3 := addEdgeToTreeViews_ren (K := K) (π := π) (ρ := ρ2) ((s.g.addEdge o t p).1.addEdge t o (EdgeProp.inverse p)).1
          (s.g.addEdge o t p).2 s.subs hK ⟨h2.views, h2.publisher⟩
        simp only at h3
        generalize addEdgeToTreeViews ((s.g.addEdge o t p).1.addEdge t o (EdgeProp.inverse p)).1 (s.g.addEdge o t p).2 s.subs s.views = r1 at h3
        generalize addEdgeToTreeViews (((s.g.addEdge o t p).1.addEdge t o (EdgeProp.inverse p)).1.ren π ρ2) ((s.g.addEdge o t p).2.ren π ρ2)
          s.subs s'.views = r2 at h3
        cases h3 with
        | ok hv => exact .ok (π := π) (ρ := ρ2) ⟨rfl, rfl, hv.views, hv.publisher, forall₂_snoc h.trace ⟨π, ρ2, rfl⟩⟩
        | throw hv => exact .throw (π := π) (ρ := ρ2) ⟨rfl, rfl, hv.views, hv.publisher, h.trace⟩
        | ub => exact .ub

theorem orCreate_wf {f : FrameId} {v : Option VId} {s : GS F E} (hw : WF s.g) : WF (orCreate f v s).1.g := by
  unfold orCreate; split
  · exact hw.addVertex (FrameProp.getId_setId _ _)
  · exact hw

theorem orCreateA_views (al : Alloc F E) (f : FrameId) (v : Option VId) (s : GS F E) : (orCreateA al f v s).1.views = s.views := by
  cases v <;> rfl

theorem orCreate_verts {f : FrameId} {v : Option VId} {s : GS F E} (x : VId) (h : ∃ r ∈ s.g.verts, r.id = x) :
    ∃ r ∈ (orCreate f v s).1.g.verts, r.id = x := by
  obtain ⟨r, hr, hx⟩ := h
  refine ⟨r, ?_, hx⟩
  unfold orCreate; split
  · simp only [addVertexN, GS.notify, G.addVertex]
    split
    · exact hr
    · simp [hr]
  · exact hr

theorem _root_.Verif.Alloc.Avoids.orCreateA {al : Alloc F E} {s : GS F E} (h : al.Avoids K s) (f : FrameId) (v : Option VId) :
    al.Avoids K (GS.orCreateA al f v s).1 := by
  intro p hp g h1 h2
  rw [orCreateA_views]
  cases v with
  | some v => exact h p hp g h1 h2
  | none =>
    refine h p hp g (fun x hx => h1 ?_) (fun x hx => h2 ?_)
    · simp only [GS.orCreateA, GS.addVertexA, GS.notify, G.addVertexA]
      split
      · exact hx
      · rw [List.map_append]; exact List.mem_append_left _ hx
    · simp only [GS.orCreateA, GS.addVertexA, GS.notify, G.addVertexA]
      split <;> exact hx

theorem addEdgeA_ren {al : Alloc F E} (hal : al.Sound) {s s' : GS F E} (h : Alike K π ρ s s') (hw : WF s.g) (hb : Below s) (hav : al.Avoids K s')
    (hK : ∀ p ∈ s.subs, K p) (o t : FrameId) (p : E) : AlikeO K (GS.addEdge o t p s) (GS.addEdgeA al o t p s') := by
  unfold GS.addEdge GS.addEdgeA
  simp only
  have q1 : s'.g.vertexOf o = (s.g.vertexOf o).map π := by rw [h.g]; exact G.vertexOf_ren π ρ s.g o
  have q2 : s'.g.vertexOf t = (s.g.vertexOf t).map π := by rw [h.g]; exact G.vertexOf_ren π ρ s.g t
  obtain ⟨π1, h1, e1, f1⟩ := orCreateA_ren hal h hw hb hav o (s.g.vertexOf o)
  rw [← q1] at h1 e1
  have w1 : WF (orCreate o (s.g.vertexOf o) s).1.g := orCreate_wf hw
  have b1 : Below (orCreate o (s.g.vertexOf o) s).1 := orCreate_below hb
  have v1 : al.Avoids K (orCreateA al o (s'.g.vertexOf o) s').1 := by
    exact hav.orCreateA o _
  obtain ⟨π2, h2, e2, f2⟩ := orCreateA_ren hal h1 w1 b1 v1 t (s.g.vertexOf t)
  have q3 : (s.g.vertexOf t).map π1 = s'.g.vertexOf t := by
    rw [q2]
    cases hv : s.g.vertexOf t with
    | none => rfl
    | some v => simp [f1 v (hw.live hv)]
  rw [q3] at h2 e2
  have e1' : (orCreateA al o (s'.g.vertexOf o) s').2 = π2 (orCreate o (s.g.vertexOf o) s).2 := by
    rw [e1]
    refine (f2 _ ?_).symm
    cases hv : s.g.vertexOf o with
    | some v => exact hw.live hv
    | none =>
      unfold G.vertexOf at hv
      simp only [orCreate, addVertexN, GS.notify, G.addVertex, hv]
      exact ⟨⟨s.g.nextV, s.g.nextIdx, _⟩, List.mem_append_right _ (List.mem_singleton.2 rfl), rfl⟩
  rw [e1', e2]
  refine addEdgeDA_ren hal h2 (orCreate_wf w1) (orCreate_below b1) ?_ ?_ _ _ p
  · exact v1.orCreateA t _
  · have e : ∀ (f : FrameId) (v : Option VId) (s : GS F E), (orCreate f v s).1.subs = s.subs := by
      intro f v s; cases v <;> rfl
    rw [e, e]; exact hK

theorem execA_ren {al : Alloc F E} (hal : al.Sound) {s s' : GS F E} (h : Alike K π ρ s s') (hw : WF s.g) (hb : Below s) (hav : al.Avoids K s')
    (hK : ∀ p ∈ s.subs, K p) (c : Cmd F E) (hc : ∀ p ∈ treeTargets [c], K p) : AlikeO K (exec c s) (execA al c s') := by
  have q : ∀ f, s'.g.vertexOf f = (s.g.vertexOf f).map π := fun f => by rw [h.g]; exact G.vertexOf_ren π ρ s.g f
  cases c with
  | addFrame f =>
    simp only [exec, execA, addFrame, addFrameA, q]
    cases s.g.vertexOf f with
    | none =>
      obtain ⟨π', h1, -⟩ := addVertexA_ren hal h hw hb hav f (FrameProp.setId f FrameProp.dflt)
      exact .ok h1
    | some v => exact .throw h
  | emplaceFrame f p =>
    simp only [exec, execA, emplaceFrame, emplaceFrameA, q]
    cases s.g.vertexOf f with
    | none =>
      obtain ⟨π', h1, -⟩ := addVertexA_ren hal h hw hb hav f (FrameProp.setId f p)
      exact .ok h1
    | some v => exact .throw h
  | removeFrame f => exact (removeFrame_ren f h).any
  | disconnectFrame f => exact (disconnectFrame_ren f hK h).any
  | addEdge o t p => exact addEdgeA_ren hal h hw hb hav hK o t p
  | removeEdge o t => exact (removeEdge_ren o t hK h).any
  | setEdge o t p => exact (setEdgeProperty_ren o t p h).any
  | getTree f k p => exact (getTree_ren f k p (hc p (by simp [treeTargets])) h).any
  | unsubscribeView p => exact .ok (unsubscribeView_ren p h)

/-- fewer views -/
theorem Alike.mono {K' : Nat → Prop} {s s' : GS F E} (h : Alike K π ρ s s') (hK : ∀ p, K' p → K p) : Alike K' π ρ s s' :=
  ⟨h.g, h.subs, fun p hp => h.views p (hK p hp), h.publisher, h.trace⟩

end GS
end Verif
