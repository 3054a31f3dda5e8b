import Verif.Lemmas.ItemSim
import Verif.Lemmas.ItemAnswers

set_option linter.unusedSectionVars false
set_option linter.unusedSimpArgs false
/-! The two loops of `createStructuralCopy`. -/

namespace Verif
namespace EG
open GS
variable {E : Type} [EdgeProp E] {ty : ItemId → TypeIdx}

theorem getEdgeProperty_iff (t : GS EFrame E) (a b : FrameId) (p : E) : GS.getEdgeProperty a b t = .ok p t ↔ absEdge t.g a b = some p := by
  simp only [GS.getEdgeProperty, GS.getEdge]
  cases ha : t.g.vertexOf a with
  | none => simp [absEdge_none_left ha]
  | some u =>
    cases hb : t.g.vertexOf b with
    | none => simp [absEdge_none_right hb]
    | some v =>
      rw [absEdge_of ha hb]
      cases he : t.g.edge u v <;> simp [he]

theorem base_discard {α : Type} (heap : ItemId → ItemObj) (x : Res (GS EFrame E) α) :
    base heap (GS.discard x) = GS.discard (base heap x) := by cases x <;> rfl

theorem discard_ok {S α : Type} {x : Res S α} {s : S} (h : GS.discard x = .ok () s) : ∃ a, x = .ok a s := by
  cases x <;> simp [GS.discard] at h
  subst h; exact ⟨_, rfl⟩

theorem discard_throw {S α : Type} {x : Res S α} {e : Exn} {s : S} (h : GS.discard x = .throw e s) : x = .throw e s := by
  cases x <;> simp [GS.discard] at h
  obtain ⟨rfl, rfl⟩ := h; rfl

theorem base_ok {α : Type} {heap : ItemId → ItemObj} {x : Res (GS EFrame E) α} {a : α} {s : EG E} (h : base heap x = .ok a s) :
    x = .ok a s.gs ∧ s.heap = heap := by
  cases x <;> simp [base] at h
  obtain ⟨rfl, rfl⟩ := h; exact ⟨rfl, rfl⟩

theorem base_throw {α : Type} {heap : ItemId → ItemObj} {x : Res (GS EFrame E) α} {e : Exn} {s : EG E} (h : base heap x = .throw e s) :
    x = .throw e s.gs ∧ s.heap = heap := by
  cases x <;> simp [base] at h
  obtain ⟨rfl, rfl⟩ := h; exact ⟨rfl, rfl⟩

theorem addFrame_sim {d : EG E} {A : AGraph E} (h : Sim d.gs A) (f : FrameId) :
    (f ∈ A.frames ∧ GS.addFrame f d.gs = .throw (.frameAlreadyExists f) d.gs) ∨
    (f ∉ A.frames ∧ ∃ v gs, GS.addFrame f d.gs = .ok v gs ∧ Keeps d.gs.g gs.g ∧
      Sim gs { A with frames := insert f A.frames }) := by
  have := h.exec (c := .addFrame f) trivial
  by_cases hf : f ∈ A.frames
  · left
    simp only [AGraph.step, hf, if_true, reduceCtorEq, false_and, false_or] at this
    obtain ⟨x, h1, -, h2⟩ := this
    simp only [Option.some.injEq] at h1; subst h1
    exact ⟨hf, discard_throw h2⟩
  · right
    simp only [AGraph.step, hf, if_false, reduceCtorEq, false_and, exists_false, or_false, true_and] at this
    obtain ⟨s', h1, h3⟩ := this
    obtain ⟨v, hv⟩ := discard_ok h1
    exact ⟨hf, v, s', hv, exec_keeps (c := .addFrame f) trivial (by rw [h1]; rfl), h3⟩

theorem copyFrames_ok : ∀ (rs : List (VRec EFrame)) {d : EG E} {A0 : AGraph E}, Sim d.gs A0 →
    (rs.map (fun r => FrameProp.getId r.prop)).Nodup → (∀ r ∈ rs, FrameProp.getId r.prop ∉ A0.frames) →
    ∃ d' A, copyFrames rs d = .ok () d' ∧ d'.heap = d.heap ∧ Keeps d.gs.g d'.gs.g ∧ Sim d'.gs A ∧ A.edges = A0.edges ∧
      ∀ f, f ∈ A.frames ↔ f ∈ A0.frames ∨ ∃ r ∈ rs, FrameProp.getId r.prop = f := by
  intro rs
  induction rs with
  | nil => intro d A0 h _ _; exact ⟨d, A0, rfl, rfl, .of_verts rfl, h, rfl, by simp⟩
  | cons r rs ih =>
    intro d A0 h hn hd
    simp only [List.map_cons, List.nodup_cons, List.mem_map, not_exists, not_and] at hn
    rcases addFrame_sim h (FrameProp.getId r.prop) with ⟨h1, -⟩ | ⟨-, v, gs, h1, hk, h2⟩
    · exact absurd h1 (hd r (by simp))
    · obtain ⟨d', A, a1, a2, a2', a3, a4, a5⟩ := ih (d := ⟨gs, d.heap⟩) h2 hn.2 (by
        intro q hq
        simp only [Finset.mem_insert, not_or]
        exact ⟨hn.1 q hq, hd q (by simp [hq])⟩)
      refine ⟨d', A, by simp only [copyFrames, h1, a1], a2, hk.trans a2', a3, a4, fun f => ?_⟩
      rw [a5]
      simp only [Finset.mem_insert, List.mem_cons, exists_eq_or_imp]
      constructor
      · rintro ((rfl | h) | h)
        · exact Or.inr (Or.inl rfl)
        · exact Or.inl h
        · exact Or.inr (Or.inr h)
      · rintro (h | rfl | h)
        · exact Or.inl (Or.inr h)
        · exact Or.inl (Or.inl rfl)
        · exact Or.inr h

theorem copyFrames_throw : ∀ (rs : List (VRec EFrame)) {d : EG E} {A0 : AGraph E}, Sim d.gs A0 →
    (rs.map (fun r => FrameProp.getId r.prop)).Nodup → (∃ r ∈ rs, FrameProp.getId r.prop ∈ A0.frames) →
    ∃ d' A pre post r, copyFrames rs d = .throw (.frameAlreadyExists (FrameProp.getId r.prop)) d' ∧ d'.heap = d.heap ∧
      Keeps d.gs.g d'.gs.g ∧ Sim d'.gs A ∧ A.edges = A0.edges ∧ rs = pre ++ r :: post ∧ FrameProp.getId r.prop ∈ A0.frames ∧
      (∀ q ∈ pre, FrameProp.getId q.prop ∉ A0.frames) ∧
      ∀ f, f ∈ A.frames ↔ f ∈ A0.frames ∨ ∃ q ∈ pre, FrameProp.getId q.prop = f := by
  intro rs
  induction rs with
  | nil => rintro d A0 h _ ⟨r, hr, -⟩; simp at hr
  | cons r rs ih =>
    intro d A0 h hn hd
    simp only [List.map_cons, List.nodup_cons, List.mem_map, not_exists, not_and] at hn
    rcases addFrame_sim h (FrameProp.getId r.prop) with ⟨h0, h1⟩ | ⟨h0, v, gs, h1, hk, h2⟩
    · exact ⟨d, A0, [], rs, r, by simp only [copyFrames, h1], rfl, .of_verts rfl, h, rfl, rfl, h0, by simp, by simp⟩
    · obtain ⟨q, hq, hqf⟩ := hd
      rcases List.mem_cons.1 hq with rfl | hq
      · exact absurd hqf h0
      obtain ⟨d', A, pre, post, x, a1, a2, a2', a3, a4, a5, a6, a7, a8⟩ := ih (d := ⟨gs, d.heap⟩) h2 hn.2 ⟨q, hq, by simp [hqf]⟩
      have hx : x ∈ rs := by rw [a5]; simp
      simp only [Finset.mem_insert] at a6 a7 a8
      refine ⟨d', A, r :: pre, post, x, by simp only [copyFrames, h1, a1], a2, hk.trans a2', a3, a4, by rw [a5]; rfl,
        a6.resolve_left (hn.1 x hx), ?_, fun f => ?_⟩
      · intro y hy
        rcases List.mem_cons.1 hy with rfl | hy
        · exact h0
        · exact fun h => a7 y hy (Or.inr h)
      · rw [a8]
        simp only [List.mem_cons, exists_eq_or_imp]
        constructor
        · rintro ((rfl | h) | h)
          · exact Or.inr (Or.inl rfl)
          · exact Or.inl h
          · exact Or.inr (Or.inr h)
        · rintro (h | rfl | h)
          · exact Or.inl (Or.inr h)
          · exact Or.inl (Or.inl rfl)
          · exact Or.inr h

/-- `A` has some of the connections `B` on top of those of `A0` -/
structure Mid (B : FrameId → FrameId → Option E) (A0 A : AGraph E) : Prop where
  frames : A.frames = A0.frames
  other : ∀ x y, B x y = none → A.edges x y = A0.edges x y
  conn : ∀ x y q, B x y = some q → (A.edges x y = none ∧ A.edges y x = none) ∨
    (A.edges x y = some q ∧ A.edges y x = some (EdgeProp.inverse q)) ∨
    ∃ q', B y x = some q' ∧ A.edges y x = some q' ∧ A.edges x y = some (EdgeProp.inverse q')

theorem Mid.connect {B : FrameId → FrameId → Option E} {A0 A : AGraph E} (h : Mid B A0 A) {a b : FrameId} {p : E} (hab : a ≠ b)
    (hB : B a b = some p) (hs : ∀ x y, (B x y).isSome → (B y x).isSome) (hn : A.edges a b = none)
    (ha : a ∈ A.frames) (hb : b ∈ A.frames) : Mid B A0 (A.connect a b p) := by
  refine ⟨?_, ?_, ?_⟩
  · rw [← h.frames]
    show insert a (insert b A.frames) = A.frames
    rw [Finset.insert_eq_of_mem hb, Finset.insert_eq_of_mem ha]
  · intro x y hxy
    have h1 : ¬ (x = a ∧ y = b) := by rintro ⟨rfl, rfl⟩; rw [hB] at hxy; cases hxy
    have h2 : ¬ (x = b ∧ y = a) := by
      rintro ⟨rfl, rfl⟩
      have := hs y x (by rw [hB]; rfl)
      rw [hxy] at this; cases this
    simp only [AGraph.connect, h1, h2, if_false]
    exact h.other x y hxy
  · intro x y q hq
    by_cases h1 : x = a ∧ y = b
    · obtain ⟨rfl, rfl⟩ := h1
      rw [hB] at hq; cases hq
      right; left
      refine ⟨by simp [AGraph.connect], ?_⟩
      simp only [AGraph.connect]
      rw [if_neg (fun h => hab h.2), if_pos ⟨trivial, trivial⟩]
    · by_cases h2 : x = b ∧ y = a
      · obtain ⟨rfl, rfl⟩ := h2
        right; right
        refine ⟨p, hB, by simp [AGraph.connect], ?_⟩
        simp only [AGraph.connect]
        rw [if_neg h1, if_pos ⟨trivial, trivial⟩]
      · have h3 : ¬ (y = a ∧ x = b) := fun h => h2 ⟨h.2, h.1⟩
        have h4 : ¬ (y = b ∧ x = a) := fun h => h1 ⟨h.2, h.1⟩
        simp only [AGraph.connect, h1, h2, h3, h4, if_false]
        exact h.conn x y q hq

theorem addEdge_sim {d : EG E} {A : AGraph E} (h : Sim d.gs A) {a b : FrameId} (hab : a ≠ b) (p : E) :
    ((A.edges a b).isSome ∧ GS.addEdge a b p d.gs = .throw (.edgeAlreadyExists a b) d.gs) ∨
    (A.edges a b = none ∧ ∃ gs, GS.addEdge a b p d.gs = .ok () gs ∧ Keeps d.gs.g gs.g ∧ Sim gs (A.connect a b p)) := by
  have := h.addEdge hab p
  by_cases he : (A.edges a b).isSome
  · rw [if_pos he] at this; exact Or.inl ⟨he, this⟩
  · rw [if_neg he] at this
    obtain ⟨gs, h1, h2⟩ := this
    exact Or.inr ⟨by simpa using he, gs, h1, exec_keeps (c := .addEdge a b p) trivial (by rw [GS.exec, h1]; rfl), h2⟩

theorem copyEdges_ok {g : G EFrame E} (hw : WF g) (hp : Paired g) {A0 : AGraph E} (hf : ∀ f, (g.vertexOf f).isSome → f ∈ A0.frames) :
    ∀ (es : List (ERec E)) {d : EG E} {A1 : AGraph E}, (∀ e ∈ es, e ∈ g.edges) → Sim d.gs A1 → Mid (absEdge g) A0 A1 →
    ∃ d' A, copyEdges g es d = .ok () d' ∧ d'.heap = d.heap ∧ Keeps d.gs.g d'.gs.g ∧ Sim d'.gs A ∧ Mid (absEdge g) A0 A ∧
      (∀ x y, (A1.edges x y).isSome → (A.edges x y).isSome) ∧
      ∀ e ∈ es, ∀ x y, g.vertexOf x = some e.src → g.vertexOf y = some e.tgt → (A.edges x y).isSome := by
  have hsym : ∀ x y, (absEdge g x y).isSome → (absEdge g y x).isSome := by
    intro x y h
    obtain ⟨u, v, e, hu, hv, he⟩ := absEdge_isSome h
    obtain ⟨e', h1, -⟩ := hp.inverse he
    rw [absEdge_of hv hu, h1]; rfl
  intro es
  induction es with
  | nil => intro d A1 _ h hm; exact ⟨d, A1, rfl, rfl, .of_verts rfl, h, hm, fun _ _ h => h, by simp⟩
  | cons e es ih =>
    intro d A1 hes h hm
    have he := hes e (by simp)
    obtain ⟨rs, hrs, hrsid⟩ := hw.esrc e he
    obtain ⟨rt, hrt, hrtid⟩ := hw.etgt e he
    have h1 : g.findV e.src = some rs := hw.findV_iff.2 ⟨hrs, hrsid⟩
    have h2 : g.findV e.tgt = some rt := hw.findV_iff.2 ⟨hrt, hrtid⟩
    have h3 : g.edge e.src e.tgt = some e := hp.edge_iff.2 ⟨he, rfl, rfl⟩
    have n1 : g.vertexOf (FrameProp.getId rs.prop) = some e.src := hw.vertexOf_iff.2 ⟨rs, hrs, hrsid, rfl⟩
    have n2 : g.vertexOf (FrameProp.getId rt.prop) = some e.tgt := hw.vertexOf_iff.2 ⟨rt, hrt, hrtid, rfl⟩
    have hne : FrameProp.getId rs.prop ≠ FrameProp.getId rt.prop := by
      intro h
      rw [h, n2] at n1
      exact hp.noself e he (Option.some.inj n1).symm
    have hB : absEdge g (FrameProp.getId rs.prop) (FrameProp.getId rt.prop) = some e.prop := by rw [absEdge_of n1 n2, h3]; rfl
    have hname : ∀ x y, g.vertexOf x = some e.src → g.vertexOf y = some e.tgt →
        x = FrameProp.getId rs.prop ∧ y = FrameProp.getId rt.prop :=
      fun x y hx hy => ⟨hw.vertexOf_inj hx n1, hw.vertexOf_inj hy n2⟩
    rcases addEdge_sim h hne e.prop with ⟨a1, a2⟩ | ⟨a1, gs, a2, hk, a3⟩
    · obtain ⟨d', A, b1, b2, b2', b3, b4, b5, b6⟩ := ih (fun x hx => hes x (by simp [hx])) h hm
      refine ⟨d', A, by simp only [copyEdges, h1, h2, h3, a2]; exact b1, b2, b2', b3, b4, b5, ?_⟩
      intro x hx
      rcases List.mem_cons.1 hx with rfl | hx
      · intro a b ha hb
        obtain ⟨rfl, rfl⟩ := hname a b ha hb
        exact b5 _ _ a1
      · exact b6 x hx
    · have hm' := hm.connect hne hB hsym a1 (by rw [hm.frames]; exact hf _ (by rw [n1]; rfl)) (by rw [hm.frames]; exact hf _ (by rw [n2]; rfl))
      obtain ⟨d', A, b1, b2, b2', b3, b4, b5, b6⟩ := ih (fun x hx => hes x (by simp [hx])) (d := ⟨gs, d.heap⟩) a3 hm'
      refine ⟨d', A, by simp only [copyEdges, h1, h2, h3, a2]; exact b1, b2, hk.trans b2', b3, b4, ?_, ?_⟩
      · intro x y hxy
        apply b5
        simp only [AGraph.connect]
        split
        · rfl
        · split
          · rfl
          · exact hxy
      · intro x hx
        rcases List.mem_cons.1 hx with rfl | hx
        · intro a b ha hb
          obtain ⟨rfl, rfl⟩ := hname a b ha hb
          apply b5
          simp [AGraph.connect]
        · exact b6 x hx

end EG
end Verif
