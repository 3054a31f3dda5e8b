import Verif.Lemmas.ItemStructural
import Verif.Lemmas.StructViews
import Verif.Lemmas.SimLoops
import Verif.Lemmas.FollowSelf
import Verif.Lemmas.ItemChainSelf
import Verif.Lemmas.TransformSelf
set_option linter.unusedSectionVars false
/-! The two loops of `createStructuralCopy` in graphs with self edges. -/

namespace Verif
namespace EG
open GS
variable {E : Type} [EdgeProp E]

/-- a graph with self edges and subscribed views and what it represents -/
structure SimS (d : GS EFrame E) (A : AGraph E) : Prop where
  wf : WF d.g
  paired : Paired d.g.ns
  two : SelfTwo d.g
  ok : ViewsLoops d
  rep : Rep d A

theorem SimS.next {d d' : GS EFrame E} {A A' : AGraph E} (h : SimS d A) {c : GS.Cmd EFrame E} (hx : (GS.exec c d).st? = some d')
    (hf : FollowsLoops d d') (hr : Rep d' A') : SimS d' A' :=
  have ha := exec_advances h.wf hx
  ⟨ha.wf h.wf, ha.paired_ns h.wf h.paired, ha.selfTwo h.wf h.two, hf.ok h.ok, hr⟩

theorem addFrame_simS {d : GS EFrame E} {A : AGraph E} (h : SimS d A) (f : FrameId) :
    (f ∈ A.frames ∧ GS.addFrame f d = .throw (.frameAlreadyExists f) d) ∨
    (f ∉ A.frames ∧ ∃ v gs, GS.addFrame f d = .ok v gs ∧ Keeps d.g gs.g ∧ FollowsLoops d gs ∧
      SimS gs { A with frames := insert f A.frames }) := by
  cases hv : d.g.vertexOf f with
  | some v => exact Or.inl ⟨h.rep.mem hv, by simp only [addFrame, hv]⟩
  | none =>
    have hx : GS.addFrame f d = .ok (addVertexN f (FrameProp.setId f FrameProp.dflt) d).2 (addVertexN f (FrameProp.setId f FrameProp.dflt) d).1 := by
      simp only [addFrame, hv]
    have hx' : (GS.exec (.addFrame f) d).st? = some (addVertexN f (FrameProp.setId f FrameProp.dflt) d).1 := by
      simp only [GS.exec, hx]; rfl
    exact Or.inr ⟨h.rep.not_mem hv, _, _, hx, exec_keeps (c := .addFrame f) trivial hx', addVertexN_followsL _ _ _,
      h.next hx' (addVertexN_followsL _ _ _) (h.rep.addVertexN h.wf f _)⟩

theorem addEdge_simS {d : GS EFrame E} {A : AGraph E} (h : SimS d A) (a b : FrameId) (p : E) : ∃ gs A', Keeps d.g gs.g ∧ FollowsLoops d gs ∧ SimS gs A' ∧
    (((A.edges a b).isSome ∧ A' = A ∧ GS.addEdge a b p d = .throw (.edgeAlreadyExists a b) gs) ∨
      (A.edges a b = none ∧ A' = A.connect a b p ∧ GS.addEdge a b p d = .ok () gs)) := by
  obtain ⟨gs, h1, h2⟩ := addEdge_followsL (a := a) (b := b) (p := p) h.wf h.paired h.two h.ok
  have hx : (GS.exec (.addEdge a b p) d).st? = some gs := h1
  obtain ⟨b1, b2⟩ := SimV.exec_bare (c := .addEdge a b p) trivial d
  obtain ⟨r1, r2⟩ := Rep.addEdge (s := d.bare) (h.rep.of_g rfl) h.wf h.paired rfl a b p
  have hk := exec_keeps (c := .addEdge a b p) trivial hx
  cases hr : GS.addEdge a b p d with
  | ok u s' =>
    rw [hr] at h1
    simp only [Res.st?, Option.some.injEq] at h1; subst h1
    obtain ⟨t, t1, t2, -⟩ := b1 s' hr
    obtain ⟨j1, j2⟩ := r1 t t1
    exact ⟨s', _, hk, h2, h.next hx h2 (j2.of_g t2), Or.inr ⟨by simpa using j1, rfl, rfl⟩⟩
  | throw x s' =>
    rw [hr] at h1
    simp only [Res.st?, Option.some.injEq] at h1; subst h1
    obtain ⟨t, t1, t2, -⟩ := b2 x s' hr
    obtain ⟨j1, rfl, j3⟩ := r2 x t t1
    refine ⟨s', A, hk, h2, h.next hx h2 (h.rep.of_g ?_), Or.inl ⟨j1, rfl, rfl⟩⟩
    rw [t2, j3]; rfl
  | ub m => rw [hr] at h1; simp [Res.st?] at h1

theorem copyFrames_simS : ∀ (rs : List (VRec EFrame)) {d : EG E} {A0 : AGraph E}, SimS d.gs A0 →
    (rs.map (fun r => FrameProp.getId r.prop)).Nodup → (∀ r ∈ rs, FrameProp.getId r.prop ∉ A0.frames) →
    ∃ d' A, copyFrames rs d = .ok () d' ∧ d'.heap = d.heap ∧ Keeps d.gs.g d'.gs.g ∧ FollowsLoops d.gs d'.gs ∧ SimS d'.gs A ∧ A.edges = A0.edges ∧
      ∀ f, f ∈ A.frames ↔ f ∈ A0.frames ∨ ∃ r ∈ rs, FrameProp.getId r.prop = f := by
  intro rs
  induction rs with
  | nil => intro d A0 h _ _; exact ⟨d, A0, rfl, rfl, .of_verts rfl, .refl _, h, rfl, by simp⟩
  | cons r rs ih =>
    intro d A0 h hn hd
    simp only [List.map_cons, List.nodup_cons, List.mem_map, not_exists, not_and] at hn
    rcases addFrame_simS h (FrameProp.getId r.prop) with ⟨h1, -⟩ | ⟨-, v, gs, h1, hk, hf, h2⟩
    · exact absurd h1 (hd r (by simp))
    · obtain ⟨d', A, a1, a2, a2', a2'', a3, a4, a5⟩ := ih (d := ⟨gs, d.heap⟩) h2 hn.2 (by
        intro q hq
        simp only [Finset.mem_insert, not_or]
        exact ⟨hn.1 q hq, hd q (by simp [hq])⟩)
      refine ⟨d', A, by simp only [copyFrames, h1, a1], a2, hk.trans a2', hf.trans a2'', a3, a4, fun f => ?_⟩
      rw [a5]
      simp only [Finset.mem_insert, List.mem_cons, exists_eq_or_imp]
      constructor
      · rintro ((rfl | h) | h)
        · exact Or.inr (Or.inl rfl)
        · exact Or.inl h
        · exact Or.inr (Or.inr h)
      · rintro (h | rfl | h)
        · exact Or.inl (Or.inr h)
        · exact Or.inl (Or.inl rfl)
        · exact Or.inr h

theorem copyFrames_simS_throw : ∀ (rs : List (VRec EFrame)) {d : EG E} {A0 : AGraph E}, SimS d.gs A0 →
    (rs.map (fun r => FrameProp.getId r.prop)).Nodup → (∃ r ∈ rs, FrameProp.getId r.prop ∈ A0.frames) →
    ∃ d' A pre post r, copyFrames rs d = .throw (.frameAlreadyExists (FrameProp.getId r.prop)) d' ∧ d'.heap = d.heap ∧
      Keeps d.gs.g d'.gs.g ∧ FollowsLoops d.gs d'.gs ∧ SimS d'.gs A ∧ A.edges = A0.edges ∧ rs = pre ++ r :: post ∧ FrameProp.getId r.prop ∈ A0.frames ∧
      (∀ q ∈ pre, FrameProp.getId q.prop ∉ A0.frames) ∧
      ∀ f, f ∈ A.frames ↔ f ∈ A0.frames ∨ ∃ q ∈ pre, FrameProp.getId q.prop = f := by
  intro rs
  induction rs with
  | nil => rintro d A0 h _ ⟨r, hr, -⟩; simp at hr
  | cons r rs ih =>
    intro d A0 h hn hd
    simp only [List.map_cons, List.nodup_cons, List.mem_map, not_exists, not_and] at hn
    rcases addFrame_simS h (FrameProp.getId r.prop) with ⟨h0, h1⟩ | ⟨h0, v, gs, h1, hk, hf, h2⟩
    · exact ⟨d, A0, [], rs, r, by simp only [copyFrames, h1], rfl, .of_verts rfl, .refl _, h, rfl, rfl, h0, by simp, by simp⟩
    · obtain ⟨q, hq, hqf⟩ := hd
      rcases List.mem_cons.1 hq with rfl | hq
      · exact absurd hqf h0
      obtain ⟨d', A, pre, post, x, a1, a2, a2', a2'', a3, a4, a5, a6, a7, a8⟩ := ih (d := ⟨gs, d.heap⟩) h2 hn.2 ⟨q, hq, by simp [hqf]⟩
      have hx : x ∈ rs := by rw [a5]; simp
      simp only [Finset.mem_insert] at a6 a7 a8
      refine ⟨d', A, r :: pre, post, x, by simp only [copyFrames, h1, a1], a2, hk.trans a2', hf.trans a2'', a3, a4, by rw [a5]; rfl,
        a6.resolve_left (hn.1 x hx), ?_, fun f => ?_⟩
      · intro y hy
        rcases List.mem_cons.1 hy with rfl | hy
        · exact h0
        · exact fun h => a7 y hy (Or.inr h)
      · rw [a8]
        simp only [List.mem_cons, exists_eq_or_imp]
        constructor
        · rintro ((rfl | h) | h)
          · exact Or.inr (Or.inl rfl)
          · exact Or.inl h
          · exact Or.inr (Or.inr h)
        · rintro (h | rfl | h)
          · exact Or.inl (Or.inr h)
          · exact Or.inl (Or.inl rfl)
          · exact Or.inr h

/-- as `Mid`, with self edges -/
structure MidL (B : FrameId → FrameId → Option E) (A0 A : AGraph E) : Prop where
  frames : A.frames = A0.frames
  other : ∀ x y, B x y = none → A.edges x y = A0.edges x y
  conn : ∀ x y q, x ≠ y → B x y = some q → (A.edges x y = none ∧ A.edges y x = none) ∨
    (A.edges x y = some q ∧ A.edges y x = some (EdgeProp.inverse q)) ∨
    ∃ q', B y x = some q' ∧ A.edges y x = some q' ∧ A.edges x y = some (EdgeProp.inverse q')
  self : ∀ x q, B x x = some q → A.edges x x = none ∨ A.edges x x = some q

theorem MidL.connect {B : FrameId → FrameId → Option E} {A0 A : AGraph E} (h : MidL B A0 A) {a b : FrameId} {p : E}
    (hB : B a b = some p) (hs : ∀ x y, (B x y).isSome → (B y x).isSome)
    (ha : a ∈ A.frames) (hb : b ∈ A.frames) : MidL B A0 (A.connect a b p) := by
  refine ⟨?_, ?_, ?_, ?_⟩
  · rw [← h.frames]
    show insert a (insert b A.frames) = A.frames
    rw [Finset.insert_eq_of_mem hb, Finset.insert_eq_of_mem ha]
  · intro x y hxy
    have h1 : ¬ (x = a ∧ y = b) := by rintro ⟨rfl, rfl⟩; rw [hB] at hxy; cases hxy
    have h2 : ¬ (x = b ∧ y = a) := by
      rintro ⟨rfl, rfl⟩
      have := hs y x (by rw [hB]; rfl)
      rw [hxy] at this; cases this
    simp only [AGraph.connect, h1, h2, if_false]
    exact h.other x y hxy
  · intro x y q hne hq
    by_cases h1 : x = a ∧ y = b
    · obtain ⟨rfl, rfl⟩ := h1
      rw [hB] at hq; cases hq
      right; left
      refine ⟨by simp [AGraph.connect], ?_⟩
      simp only [AGraph.connect]
      rw [if_neg (fun h => hne h.2), if_pos ⟨trivial, trivial⟩]
    · by_cases h2 : x = b ∧ y = a
      · obtain ⟨rfl, rfl⟩ := h2
        right; right
        refine ⟨p, hB, by simp [AGraph.connect], ?_⟩
        simp only [AGraph.connect]
        rw [if_neg h1, if_pos ⟨trivial, trivial⟩]
      · have h3 : ¬ (y = a ∧ x = b) := fun h => h2 ⟨h.2, h.1⟩
        have h4 : ¬ (y = b ∧ x = a) := fun h => h1 ⟨h.2, h.1⟩
        simp only [AGraph.connect, h1, h2, h3, h4, if_false]
        exact h.conn x y q hne hq
  · intro x q hq
    by_cases h1 : x = a ∧ x = b
    · obtain ⟨rfl, rfl⟩ := h1
      rw [hB] at hq; cases hq
      exact Or.inr (by simp [AGraph.connect])
    · have h2 : ¬ (x = b ∧ x = a) := fun h => h1 ⟨h.2, h.1⟩
      simp only [AGraph.connect, h1, h2, if_false]
      exact h.self x q hq

theorem absEdge_symm_ns {g : G EFrame E} (hp : Paired g.ns) (x y : FrameId) (h : (absEdge g x y).isSome) : (absEdge g y x).isSome := by
  obtain ⟨u, v, e, hu, hv, he⟩ := absEdge_isSome h
  by_cases huv : u = v
  · subst huv
    rw [absEdge_of hv hu, he]; rfl
  · obtain ⟨e', h1, -⟩ := edge_inverse_ns hp huv he
    rw [absEdge_of hv hu, h1]; rfl

theorem copyEdges_simS {g : G EFrame E} (hw : WF g) (hp : Paired g.ns) {A0 : AGraph E} (hf : ∀ f, (g.vertexOf f).isSome → f ∈ A0.frames) :
    ∀ (es : List (ERec E)) {d : EG E} {A1 : AGraph E}, (∀ e ∈ es, e ∈ g.edges) → SimS d.gs A1 → MidL (absEdge g) A0 A1 →
    ∃ d' A, copyEdges g es d = .ok () d' ∧ d'.heap = d.heap ∧ Keeps d.gs.g d'.gs.g ∧ FollowsLoops d.gs d'.gs ∧ SimS d'.gs A ∧ MidL (absEdge g) A0 A ∧
      (∀ x y, (A1.edges x y).isSome → (A.edges x y).isSome) ∧
      ∀ e ∈ es, ∀ x y, g.vertexOf x = some e.src → g.vertexOf y = some e.tgt → (A.edges x y).isSome := by
  intro es
  induction es with
  | nil => intro d A1 _ h hm; exact ⟨d, A1, rfl, rfl, .of_verts rfl, .refl _, h, hm, fun _ _ h => h, by simp⟩
  | cons e es ih =>
    intro d A1 hes h hm
    have he := hes e (by simp)
    obtain ⟨rs, hrs, hrsid⟩ := hw.esrc e he
    obtain ⟨rt, hrt, hrtid⟩ := hw.etgt e he
    have h1 : g.findV e.src = some rs := hw.findV_iff.2 ⟨hrs, hrsid⟩
    have h2 : g.findV e.tgt = some rt := hw.findV_iff.2 ⟨hrt, hrtid⟩
    obtain ⟨e', h3⟩ : ∃ e', g.edge e.src e.tgt = some e' := by
      cases hc : g.edge e.src e.tgt with
      | some e' => exact ⟨e', rfl⟩
      | none => exact absurd ⟨rfl, rfl⟩ (G.edge_none.1 hc e he)
    have n1 : g.vertexOf (FrameProp.getId rs.prop) = some e.src := hw.vertexOf_iff.2 ⟨rs, hrs, hrsid, rfl⟩
    have n2 : g.vertexOf (FrameProp.getId rt.prop) = some e.tgt := hw.vertexOf_iff.2 ⟨rt, hrt, hrtid, rfl⟩
    have hB : absEdge g (FrameProp.getId rs.prop) (FrameProp.getId rt.prop) = some e'.prop := by rw [absEdge_of n1 n2, h3]; rfl
    have hname : ∀ x y, g.vertexOf x = some e.src → g.vertexOf y = some e.tgt →
        x = FrameProp.getId rs.prop ∧ y = FrameProp.getId rt.prop :=
      fun x y hx hy => ⟨hw.vertexOf_inj hx n1, hw.vertexOf_inj hy n2⟩
    obtain ⟨gs, A', hk, hfl, a3, hcase⟩ := addEdge_simS h (FrameProp.getId rs.prop) (FrameProp.getId rt.prop) e'.prop
    have hm' : MidL (absEdge g) A0 A' := by
      rcases hcase with ⟨-, rfl, -⟩ | ⟨-, rfl, -⟩
      · exact hm
      · exact hm.connect hB (absEdge_symm_ns hp) (by rw [hm.frames]; exact hf _ (by rw [n1]; rfl)) (by rw [hm.frames]; exact hf _ (by rw [n2]; rfl))
    have hmono : ∀ x y, (A1.edges x y).isSome → (A'.edges x y).isSome := by
      intro x y hxy
      rcases hcase with ⟨-, rfl, -⟩ | ⟨-, rfl, -⟩
      · exact hxy
      · simp only [AGraph.connect]
        split
        · rfl
        · split
          · rfl
          · exact hxy
    have hthis : (A'.edges (FrameProp.getId rs.prop) (FrameProp.getId rt.prop)).isSome := by
      rcases hcase with ⟨a1, rfl, -⟩ | ⟨-, rfl, -⟩
      · exact a1
      · simp [AGraph.connect]
    obtain ⟨d', A, b1, b2, b2', b2'', b3, b4, b5, b6⟩ := ih (fun x hx => hes x (by simp [hx])) (d := ⟨gs, d.heap⟩) a3 hm'
    refine ⟨d', A, ?_, b2, hk.trans b2', hfl.trans b2'', b3, b4, fun x y hxy => b5 x y (hmono x y hxy), ?_⟩
    · rcases hcase with ⟨-, -, a2⟩ | ⟨-, -, a2⟩ <;> (simp only [copyEdges, h1, h2, h3, a2]; exact b1)
    · intro x hx
      rcases List.mem_cons.1 hx with rfl | hx
      · intro a b ha hb
        obtain ⟨rfl, rfl⟩ := hname a b ha hb
        exact b5 _ _ hthis
      · exact b6 x hx

end EG
end Verif
