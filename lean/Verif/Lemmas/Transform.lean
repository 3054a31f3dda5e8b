import Verif.Lemmas.Forest
import Verif.Spec.Transform
import Mathlib.Algebra.Group.Basic

set_option linter.unusedSectionVars false
set_option linter.unusedSimpArgs false
/-! Transforms along paths. -/

namespace Verif
open GS
variable {F T : Type} [FrameProp F] [Group T]

/-- the same as `Along` for vertices -/
inductive VAlong (g : G F (Tf T)) : List VId → T → Prop
  | one (u : VId) : VAlong g [u] 1
  | step {u v : VId} {e : ERec (Tf T)} {l : List VId} {t : T} :
      g.edge u v = some e → VAlong g (v :: l) t → VAlong g (u :: v :: l) (e.prop.pose * t)

theorem mulPath_eq {g : G F (Tf T)} : ∀ {l : List VId} (acc : T), l ≠ [] → l.IsChain (Arcs g.outArcs) →
    ∃ t, VAlong g l t ∧ mulPath g acc l = some (acc * t) := by
  intro l
  induction l with
  | nil => intro acc h; exact absurd rfl h
  | cons u l ih =>
    intro acc _ hc
    cases l with
    | nil => exact ⟨1, .one u, by simp [mulPath]⟩
    | cons v l =>
      obtain ⟨h1, h2⟩ := List.isChain_cons_cons.1 hc
      obtain ⟨e, he⟩ := Option.isSome_iff_exists.1 (arcs_iff_edge.1 h1)
      obtain ⟨t, h3, h4⟩ := ih (acc * e.prop.pose) (by simp) h2
      exact ⟨e.prop.pose * t, .step he h3, by simp [mulPath, he, h4, mul_assoc]⟩

theorem getEdgeProperty_of {E : Type} [EdgeProp E] {s : GS F E} {a b : FrameId} {u v : VId} (ha : s.g.vertexOf a = some u) (hb : s.g.vertexOf b = some v)
    {e : ERec E} (he : s.g.edge u v = some e) : getEdgeProperty a b s = .ok e.prop s := by
  simp [getEdgeProperty, getEdge, ha, hb, he]

theorem getEdgeProperty_ok {E : Type} [EdgeProp E] {s s' : GS F E} {a b : FrameId} {p : E}
    (h : getEdgeProperty a b s = .ok p s') : ∃ u v e, s.g.vertexOf a = some u ∧ s.g.vertexOf b = some v ∧
      s.g.edge u v = some e ∧ e.prop = p ∧ s' = s := by
  unfold getEdgeProperty getEdge at h
  cases ha : s.g.vertexOf a with
  | none => simp [ha] at h
  | some u =>
    cases hb : s.g.vertexOf b with
    | none => simp [ha, hb] at h
    | some v =>
      cases he : s.g.edge u v with
      | none => simp [ha, hb, he] at h
      | some e =>
        simp [ha, hb, he] at h
        exact ⟨u, v, e, rfl, rfl, he, h.1, h.2.symm⟩

theorem VAlong.along {s : GS F (Tf T)} (hw : WF s.g) {l : List VId} {t : T} (h : VAlong s.g l t) (hl : ∀ x ∈ l, Live s.g x) :
    Along s (l.map (nameOf s.g)) t := by
  induction h with
  | one u => exact .one _
  | step he _ ih =>
    exact .step (getEdgeProperty_of (vertexOf_nameOf hw (hl _ (by simp))) (vertexOf_nameOf hw (hl _ (by simp))) he)
      (ih (fun x hx => hl x (List.mem_cons_of_mem _ hx)))

theorem Along.pose {s : GS F (Tf T)} {pose : FrameId → T} (hc : Consistent s pose) {l : List FrameId} {t : T} (h : Along s l t) :
    ∀ {a b : FrameId}, l.head? = some a → l.getLast? = some b → t = (pose a)⁻¹ * pose b := by
  induction h with
  | one x =>
    intro a b ha hb
    simp at ha hb
    subst ha; subst hb; simp
  | step he _ ih =>
    intro a b ha hb
    simp only [List.head?_cons, Option.some.injEq] at ha
    subst ha
    rw [List.getLast?_cons_cons] at hb
    rw [ih rfl hb, hc _ _ _ he]
    simp [mul_assoc]

/-- an edge of the graph as a connection -/
theorem conn_of_edgeProperty {E : Type} [EdgeProp E] {s : GS F E} {a b : FrameId} : s.Conn a b ↔ ∃ p, getEdgeProperty a b s = .ok p s := by
  constructor
  · intro h
    obtain ⟨u, v, h1, h2, h3⟩ := conn_iff.1 h
    obtain ⟨e, he⟩ := Option.isSome_iff_exists.1 (arcs_iff_edge.1 h3)
    exact ⟨e.prop, getEdgeProperty_of h1 h2 he⟩
  · rintro ⟨p, h⟩
    obtain ⟨u, v, e, h1, h2, h3, -⟩ := getEdgeProperty_ok h
    exact conn_iff.2 ⟨u, v, h1, h2, arcs_iff_edge.2 (by simp [h3])⟩

theorem Along.isPath {s : GS F (Tf T)} {l : List FrameId} {t : T} (h : Along s l t) : l ≠ [] ∧ l.IsChain s.Conn := by
  induction h with
  | one a => simp
  | step he _ ih => exact ⟨by simp, List.isChain_cons_cons.2 ⟨conn_of_edgeProperty.2 ⟨_, he⟩, ih.2⟩⟩

theorem exists_along {s : GS F (Tf T)} : ∀ {l : List FrameId}, l ≠ [] → l.IsChain s.Conn → ∃ t, Along s l t := by
  intro l
  induction l with
  | nil => intro h; exact absurd rfl h
  | cons a l ih =>
    intro _ hc
    cases l with
    | nil => exact ⟨1, .one a⟩
    | cons b l =>
      obtain ⟨h1, h2⟩ := List.isChain_cons_cons.1 hc
      obtain ⟨p, hp⟩ := conn_of_edgeProperty.1 h1
      obtain ⟨t, ht⟩ := ih (by simp) h2
      exact ⟨_, .step hp ht⟩

/-- everything about `getTransform` for contained frames -/
theorem getTransform_eq {s : GS F (Tf T)} (hw : WF s.g) {a b : FrameId} {u v : VId} (ha : s.g.vertexOf a = some u)
    (hb : s.g.vertexOf b = some v) :
    (s.g.edges = [] ∧ getTransform a b s = .throw (.unknownTransform a b) s) ∨
    (∃ p, getEdgeProperty a b s = .ok p s ∧ getTransform a b s = .ok p s) ∨
    (s.g.edges ≠ [] ∧ ¬ s.Conn a b ∧ ¬ Joined s a b ∧ getTransform a b s = .throw (.unknownTransform a b) s) ∨
    (s.g.edges ≠ [] ∧ ¬ s.Conn a b ∧ ∃ l t, IsPath s.Conn a b l ∧ (∀ l', IsPath s.Conn a b l' → l.length ≤ l'.length) ∧ Along s l t ∧
      getTransform a b s = .ok ⟨0, t⟩ s) := by
  have hu := hw.live ha
  have hv := hw.live hb
  have hun : unknownTransform (α := Tf T) u v s = .throw (.unknownTransform a b) s := by
    have n1 := nameOf_eq hw ha
    have n2 := nameOf_eq hw hb
    obtain ⟨ru, hru, hu'⟩ := hu
    obtain ⟨rv, hrv, hv'⟩ := hv
    have f1 : s.g.findV u = some ru := hw.findV_iff.2 ⟨hru, hu'⟩
    have f2 : s.g.findV v = some rv := hw.findV_iff.2 ⟨hrv, hv'⟩
    simp only [nameOf, f1, f2] at n1 n2
    simp only [unknownTransform, f1, f2]
    rw [show FrameProp.getId ru.prop = a from n1, show FrameProp.getId rv.prop = b from n2]
  by_cases h0 : s.g.edges = []
  · exact Or.inl ⟨h0, by simp [getTransform, ha, hb, getTransformV, h0, hun]⟩
  have h0' : s.g.edges.length ≠ 0 := fun h => h0 (List.length_eq_zero_iff.1 h)
  cases he : s.g.edge u v with
  | some e =>
    exact Or.inr (Or.inl ⟨e.prop, getEdgeProperty_of ha hb he, by simp [getTransform, ha, hb, getTransformV, h0, he]⟩)
  | none =>
    have hnc : ¬ s.Conn a b := by
      intro hc
      obtain ⟨p, hp⟩ := conn_of_edgeProperty.1 hc
      obtain ⟨u', v', e, h1, h2, h3, -⟩ := getEdgeProperty_ok hp
      rw [ha] at h1; rw [hb] at h2
      obtain rfl := Option.some.inj h1
      obtain rfl := Option.some.inj h2
      rw [he] at h3; cases h3
    obtain ⟨evs, lvl, h1, h2⟩ := searchEvents_done hw hu
    by_cases hd : v ∈ discovered evs
    · obtain ⟨path, e1, e2, e3⟩ := h2.good.search hd
      have hne : path ≠ [] := by rintro rfl; simpa using e2.head
      obtain ⟨t, t1, t2⟩ := mulPath_eq (g := s.g) 1 hne (h2.tree_walk outArcs_src e2)
      have hlive : ∀ x ∈ path, Live s.g x := fun x hx => h2.live hw hu (e2.mem_disc h2.good x hx)
      obtain ⟨p1, -, p3⟩ := treePath_shortest hw ha hb h2 e2 e3
      refine Or.inr (Or.inr (Or.inr ⟨h0, hnc, _, t, p1, p3, t1.along hw hlive, ?_⟩))
      simp [getTransform, ha, hb, getTransformV, h0, he, h1, e1, t2]
    · refine Or.inr (Or.inr (Or.inl ⟨h0, hnc, ?_, ?_⟩))
      · rintro ⟨l, hl⟩
        obtain ⟨q, q1, q2, q3, -⟩ := walk_of_path hl ha hb
        exact hd (h2.walk q v q1 q2 q3).1
      · simp [getTransform, ha, hb, getTransformV, h0, he, h1, searchVisitor_none hd, hun]

theorem getTransform_unknown {s : GS F (Tf T)} {a b : FrameId} :
    (containsFrame a s = false → getTransform a b s = .throw (.unknownFrame a) s) ∧
    (containsFrame a s = true → containsFrame b s = false → getTransform a b s = .throw (.unknownFrame b) s) := by
  constructor
  · intro h
    cases ha : s.g.vertexOf a <;> simp_all [containsFrame, getTransform]
  · intro h h'
    cases ha : s.g.vertexOf a <;> cases hb : s.g.vertexOf b <;> simp_all [containsFrame, getTransform]

theorem Joined.edges {E : Type} [EdgeProp E] {s : GS F E} {a b : FrameId} (h : Joined s a b) (hab : a ≠ b) : s.g.edges ≠ [] ∧ containsFrame a s = true ∧
    containsFrame b s = true := by
  obtain ⟨l, hl⟩ := h
  match l, hl with
  | [], hl => simpa using hl.first
  | [x], hl =>
    have h1 := hl.first
    have h2 := hl.last
    simp at h1 h2
    exact absurd (h1.symm.trans h2) hab
  | x :: y :: l, hl =>
    obtain ⟨h1, h2⟩ := List.isChain_cons_cons.1 hl.steps
    have hx : x = a := by simpa using hl.first
    subst hx
    obtain ⟨u, v, e1, e2, e3⟩ := conn_iff.1 h1
    obtain ⟨e, he, -⟩ := (adj_iff_conn e1 e2).1 h1
    refine ⟨List.ne_nil_of_mem he, by simp [containsFrame, e1], ?_⟩
    -- the last frame is the end of a connection
    obtain ⟨l', hl'⟩ := List.getLast?_eq_some_iff.1 hl.last
    have hst := hl.steps
    rw [hl'] at hst
    cases hz : l'.getLast? with
    | none =>
      rw [List.getLast?_eq_none_iff] at hz
      subst hz
      simp at hl'
    | some z =>
      have hc := (List.isChain_append.1 hst).2.2 z (by simp [hz]) b (by simp)
      obtain ⟨u', v', f1, f2, -⟩ := conn_iff.1 hc
      simp [containsFrame, f2]

end Verif
