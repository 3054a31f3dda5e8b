import Verif.Lemmas.ItemStructural
import Verif.Lemmas.ViewHistory
import Verif.Lemmas.Reenter
import Verif.Lemmas.Subs
import Verif.Lemmas.ItemChain

set_option linter.unusedSectionVars false
/-! `createStructuralCopy` into a graph with subscribed tree views does what it does without them, and the views follow. -/

namespace Verif
variable {F E : Type} [FrameProp F] [EdgeProp E]

namespace GS

/-- the same graph without any view -/
def blind (s : GS F E) : GS F E := { s with subs := [], views := fun _ => TreeView.empty }

theorem addVertexN_blind (f : FrameId) (p : F) (s : GS F E) :
    addVertexN f p (blind s) = (blind (addVertexN f p s).1, (addVertexN f p s).2) := rfl

theorem orCreate_blind (f : FrameId) (v : Option VId) (s : GS F E) :
    orCreate f v (blind s) = (blind (orCreate f v s).1, (orCreate f v s).2) := by cases v <;> rfl

theorem addFrame_blind (f : FrameId) (s : GS F E) : addFrame f (blind s) = (addFrame f s).mapSt blind := by
  simp only [addFrame]
  change (match s.g.vertexOf f with | none => _ | some _ => _) = _
  cases s.g.vertexOf f <;> rfl

theorem addFrame_follows {f : FrameId} {s s' : GS F E} (h : (addFrame f s).st? = some s') : Follows s s' := by
  unfold addFrame at h
  cases hv : s.g.vertexOf f with
  | none => simp only [hv, Res.st?, Option.some.injEq] at h; subst h; exact addVertexN_follows _ _ _
  | some v => simp only [hv, Res.st?, Option.some.injEq] at h; subst h; exact .refl _

/-- no undefined behaviour: the views do not influence the outcome -/
theorem addEdgeD_blind {u v : VId} {p : E} {s : GS F E} (h : ∀ s', (addEdgeD u v p s).st? = some s' → s.g.edge u v = none →
    addEdgeD u v p s = .ok () s') (hs : ∃ s', (addEdgeD u v p s).st? = some s') :
    addEdgeD u v p (blind s) = (addEdgeD u v p s).mapSt blind := by
  obtain ⟨s', hs⟩ := hs
  have h1 := h s' hs
  have hb : addEdgeD u v p (blind s) = (match s.g.findV u, s.g.findV v with
    | some ro, some rt =>
      match s.g.edge u v with
      | some _ => .throw (.edgeAlreadyExists (FrameProp.getId ro.prop) (FrameProp.getId rt.prop)) (blind s)
      | none => .ok () (notify (.edgeAdded (FrameProp.getId ro.prop) (FrameProp.getId rt.prop) (s.g.addEdge u v p).2.id)
          { blind s with g := ((s.g.addEdge u v p).1.addEdge v u (EdgeProp.inverse p)).1 })
    | _, _ => .ub "add_edge: dangling descriptor") := rfl
  rw [hb]
  unfold addEdgeD at hs h1 ⊢
  cases hu : s.g.findV u with
  | none => simp only [hu, Res.st?, reduceCtorEq] at hs
  | some ru =>
    cases hv : s.g.findV v with
    | none => simp only [hu, hv, Res.st?, reduceCtorEq] at hs
    | some rv =>
      simp only [hu, hv] at hs h1 ⊢
      cases he : s.g.edge u v with
      | some e => simp only [Res.mapSt]
      | none =>
        simp only [he] at hs h1 ⊢
        have h2 := h1 trivial
        revert h2
        generalize addEdgeToTreeViews _ _ _ _ = R
        cases R with
        | ok a vs => intro _; rfl
        | throw x vs => intro h; simp at h
        | ub r => intro h; simp at h

theorem addEdge_blind {a b : FrameId} {p : E} {s : GS F E} (hw : WF s.g) (hp : Paired s.g) (ho : ViewsOk s) (hab : a ≠ b) :
    addEdge a b p (blind s) = (addEdge a b p s).mapSt blind := by
  unfold addEdge
  simp only
  have hg : (blind s).g = s.g := rfl
  simp only [hg, orCreate_blind]
  generalize hs1 : orCreate a (s.g.vertexOf a) s = r1
  generalize hs2 : orCreate b (s.g.vertexOf b) r1.1 = r2
  have hcr : ∀ (f : FrameId) (t : GS F E), WF t.g → Paired t.g →
      WF (addVertexN f (FrameProp.setId f FrameProp.dflt) t).1.g ∧ Paired (addVertexN f (FrameProp.setId f FrameProp.dflt) t).1.g := by
    intro f t hw hp
    exact ⟨hw.addVertex (FrameProp.getId_setId _ _), hp.of_edges (addVertex_edges _ _ _)⟩
  have hf1 : Follows s r1.1 := by rw [← hs1]; exact orCreate_follows _ _ _
  have hf2 : Follows r1.1 r2.1 := by rw [← hs2]; exact orCreate_follows _ _ _
  have hw1 : WF r1.1.g ∧ Paired r1.1.g := by
    rw [← hs1]
    cases s.g.vertexOf a with
    | none => exact hcr a s hw hp
    | some v => exact ⟨hw, hp⟩
  have hw2 : WF r2.1.g ∧ Paired r2.1.g := by
    rw [← hs2]
    cases s.g.vertexOf b with
    | none => exact hcr b r1.1 hw1.1 hw1.2
    | some v => exact hw1
  have hva : r1.1.g.vertexOf a = some r1.2 := by
    rw [← hs1]
    cases h : s.g.vertexOf a with
    | none => exact addVertexN_vertexOf
    | some v => exact h
  have hva2 : r2.1.g.vertexOf a = some r1.2 := by
    rw [← hs2]
    cases h : s.g.vertexOf b with
    | none => exact addVertexN_vertexOf_mono hva
    | some v => exact hva
  have hvb2 : r2.1.g.vertexOf b = some r2.2 := by
    rw [← hs2]
    cases h : s.g.vertexOf b with
    | none => exact addVertexN_vertexOf
    | some v =>
      have : r1.1.g.vertexOf b = some v := by
        rw [← hs1]
        cases h' : s.g.vertexOf a with
        | none => exact addVertexN_vertexOf_mono h
        | some v' => exact h
      exact this
  have hne : r1.2 ≠ r2.2 := by
    intro h
    rw [← h] at hvb2
    exact hab (hw2.1.vertexOf_inj hva2 hvb2)
  obtain ⟨s', h1, -, h3⟩ := addEdgeD_follows (p := p) hw2.1 hw2.2 (hf2.ok (hf1.ok ho)) hne (hw2.1.live hva2) (hw2.1.live hvb2)
  refine addEdgeD_blind (fun s'' h he => ?_) ⟨s', h1⟩
  have := h3 he
  rw [this] at h ⊢
  simp only [Res.st?, Option.some.injEq] at h
  rw [h]

end GS

namespace EG
open GS

/-- the same graph without any view -/
def blind (s : EG E) : EG E := ⟨GS.blind s.gs, s.heap⟩

theorem getFrameProperty_blind (f : FrameId) (p : EFrame) (d : EG E) :
    GS.getFrameProperty f (EG.blind d).gs = .ok p (EG.blind d).gs ↔ GS.getFrameProperty f d.gs = .ok p d.gs := by
  have h1 : (EG.blind d).gs.g = d.gs.g := rfl
  simp only [GS.getFrameProperty, h1]
  cases d.gs.g.vertexOf f with
  | none => simp
  | some v => cases h : d.gs.g.findV v <;> simp [h]

theorem copyFrames_blind (rs : List (VRec EFrame)) : ∀ d : EG E, copyFrames rs (blind d) = (copyFrames rs d).mapSt blind := by
  induction rs with
  | nil => intro d; rfl
  | cons r rs ih =>
    intro d
    simp only [copyFrames]
    change (match GS.addFrame _ (GS.blind d.gs) with | .ok _ _ => _ | .throw _ _ => _ | .ub _ => _) = _
    rw [addFrame_blind]
    cases GS.addFrame (FrameProp.getId r.prop) d.gs with
    | ok v d' => exact ih ⟨d', d.heap⟩
    | throw x d' => rfl
    | ub m => rfl

theorem copyFrames_follows (rs : List (VRec EFrame)) : ∀ {d d' : EG E}, WF d.gs.g → Paired d.gs.g → (copyFrames rs d).st? = some d' →
    GS.Follows d.gs d'.gs ∧ WF d'.gs.g ∧ Paired d'.gs.g := by
  induction rs with
  | nil =>
    intro d d' hw hp h
    simp only [copyFrames, Res.st?, Option.some.injEq] at h; subst h; exact ⟨GS.Follows.refl _, hw, hp⟩
  | cons r rs ih =>
    intro d d' hw hp h
    simp only [copyFrames] at h
    have key : ∀ {s'}, (GS.addFrame (FrameProp.getId r.prop) d.gs).st? = some s' → GS.Follows d.gs s' ∧ WF s'.g ∧ Paired s'.g := by
      intro s' hs
      have hr : GS.run [.addFrame (FrameProp.getId r.prop)] d.gs = some s' := by
        rw [run_of_exec (c := GS.Cmd.addFrame (FrameProp.getId r.prop)) (s1 := s') (by rw [GS.exec, st?_discard]; exact hs)]; rfl
      exact ⟨GS.addFrame_follows hs, GS.run_wf hw hr, GS.run_paired hw hp hr (by
        intro c hc; rw [List.mem_singleton] at hc; subst hc; trivial)⟩
    cases hx : GS.addFrame (FrameProp.getId r.prop) d.gs with
    | ok v s1 =>
      rw [hx] at h
      obtain ⟨a1, a2, a3⟩ := key (s' := s1) (by rw [hx]; rfl)
      obtain ⟨b1, b2⟩ := ih (d := ⟨s1, d.heap⟩) a2 a3 h
      exact ⟨a1.trans b1, b2⟩
    | throw x s1 =>
      rw [hx] at h
      simp only [Res.st?, Option.some.injEq] at h; subst h
      exact key (by rw [hx]; rfl)
    | ub m => rw [hx] at h; simp [Res.st?] at h

theorem copyEdges_blind {g : G EFrame E} (hw : WF g) (hp : Paired g) : ∀ (es : List (ERec E)), (∀ e ∈ es, e ∈ g.edges) →
    ∀ {d : EG E}, WF d.gs.g → Paired d.gs.g → ViewsOk d.gs → copyEdges g es (blind d) = (copyEdges g es d).mapSt blind ∧
      ∀ d', (copyEdges g es d).st? = some d' → GS.Follows d.gs d'.gs := by
  intro es
  induction es with
  | nil =>
    intro _ d _ _ _
    refine ⟨rfl, fun d' h => ?_⟩
    simp only [copyEdges, Res.st?, Option.some.injEq] at h; subst h; exact GS.Follows.refl _
  | cons e es ih =>
    intro hes d hwd hpd ho
    have he := hes e (by simp)
    obtain ⟨rs, hrs, hrsid⟩ := hw.esrc e he
    obtain ⟨rt, hrt, hrtid⟩ := hw.etgt e he
    have h1 : g.findV e.src = some rs := hw.findV_iff.2 ⟨hrs, hrsid⟩
    have h2 : g.findV e.tgt = some rt := hw.findV_iff.2 ⟨hrt, hrtid⟩
    have h3 : g.edge e.src e.tgt = some e := hp.edge_iff.2 ⟨he, rfl, rfl⟩
    have n1 : g.vertexOf (FrameProp.getId rs.prop) = some e.src := hw.vertexOf_iff.2 ⟨rs, hrs, hrsid, rfl⟩
    have n2 : g.vertexOf (FrameProp.getId rt.prop) = some e.tgt := hw.vertexOf_iff.2 ⟨rt, hrt, hrtid, rfl⟩
    have hne : FrameProp.getId rs.prop ≠ FrameProp.getId rt.prop := by
      intro h
      rw [h, n2] at n1
      exact hp.noself e he (Option.some.inj n1).symm
    obtain ⟨s1, a1, a2⟩ := addEdge_follows (p := e.prop) hwd hpd ho hne
    have hr : GS.run [.addEdge (FrameProp.getId rs.prop) (FrameProp.getId rt.prop) e.prop] d.gs = some s1 := by
      rw [run_of_exec (c := GS.Cmd.addEdge (FrameProp.getId rs.prop) (FrameProp.getId rt.prop) e.prop) (s1 := s1) (by rw [GS.exec]; exact a1)]; rfl
    have hw1 := GS.run_wf hwd hr
    have hp1 := GS.run_paired hwd hpd hr (by intro c hc; rw [List.mem_singleton] at hc; subst hc; exact hne)
    have ih' := ih (fun x hx => hes x (by simp [hx])) (d := ⟨s1, d.heap⟩) hw1 hp1 (a2.ok ho)
    have hb := addEdge_blind (p := e.prop) hwd hpd ho hne
    have hbl : (blind d).gs = GS.blind d.gs := rfl
    simp only [copyEdges, h1, h2, h3, hbl, hb]
    cases hx : GS.addEdge (FrameProp.getId rs.prop) (FrameProp.getId rt.prop) e.prop d.gs with
    | ok a s2 =>
      rw [hx] at a1
      simp only [Res.st?, Option.some.injEq] at a1; subst a1
      exact ⟨ih'.1, fun d' h => a2.trans (ih'.2 d' h)⟩
    | throw x s2 =>
      rw [hx] at a1
      simp only [Res.st?, Option.some.injEq] at a1; subst a1
      cases x <;> first
        | exact ⟨ih'.1, fun d' h => a2.trans (ih'.2 d' h)⟩
        | exact ⟨rfl, fun d' h => by simp only [Res.st?, Option.some.injEq] at h; subst h; exact a2⟩
    | ub m => rw [hx] at a1; simp [Res.st?] at a1

theorem createStructuralCopy_blind {g : G EFrame E} (hw : WF g) (hp : Paired g) {d : EG E} (hwd : WF d.gs.g) (hpd : Paired d.gs.g)
    (ho : ViewsOk d.gs) : createStructuralCopy g (blind d) = (createStructuralCopy g d).mapSt blind ∧
      ∀ d', (createStructuralCopy g d).st? = some d' → GS.Follows d.gs d'.gs := by
  unfold createStructuralCopy
  rw [copyFrames_blind]
  cases hx : copyFrames g.verts d with
  | ok a d1 =>
    obtain ⟨b1, b2, b3⟩ := copyFrames_follows g.verts (d' := d1) hwd hpd (by rw [hx]; rfl)
    obtain ⟨c1, c2⟩ := copyEdges_blind hw hp g.edges (fun _ h => h) b2 b3 (b1.ok ho)
    exact ⟨c1, fun d' h => b1.trans (c2 d' h)⟩
  | throw x d1 =>
    obtain ⟨b1, -⟩ := copyFrames_follows g.verts (d' := d1) hwd hpd (by rw [hx]; rfl)
    exact ⟨rfl, fun d' h => by simp only [Res.st?, Option.some.injEq] at h; subst h; exact b1⟩
  | ub m => exact ⟨rfl, fun d' h => by simp [Res.st?] at h⟩

theorem Chain.subsInv {P : GS.Cmd EFrame E → Prop} {s s' : EG E} (h : Chain P s s') (hi : SubsInv s.gs) : SubsInv s'.gs := by
  induction h with
  | refl => exact hi
  | tail _ h1 ih =>
    cases h1 with
    | call hc hx => exact exec_subsInv ih hx
    | mod v hid => exact ih
    | heap _ => exact ih
    | added f i => exact ih
    | removed f i => exact ih

theorem run_subsInv {cs : List (EG.Cmd E)} {heap : ItemId → ItemObj} {s : EG E} (h : EG.run cs (EG.init heap) = some s) : SubsInv s.gs :=
  Chain.subsInv (P := fun _ => True) (run_chain (fun c _ => by cases c <;> simp [EG.Cmd.within]) h) init_subsInv

end EG
end Verif
