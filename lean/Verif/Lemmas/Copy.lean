import Verif.Model.Copy
import Verif.Lemmas.Sim
import Mathlib.Data.List.Induction

set_option linter.unusedSectionVars false
set_option linter.unusedSimpArgs false
/-! The copy constructor: closed form of the copied graph. -/

namespace Verif
variable {F E : Type} [FrameProp F] [EdgeProp E]

theorem AMap.set_new {K V : Type} [DecidableEq K] {m : AMap K V} {k : K} (h : k ∉ AMap.keys m) (v : V) :
    AMap.set m k v = m ++ [(k, v)] := by
  induction m with
  | nil => rfl
  | cons p m ih =>
    obtain ⟨a, b⟩ := p
    simp only [AMap.keys, List.map_cons, List.mem_cons, not_or] at h
    simp only [AMap.set, if_neg (Ne.symm h.1), List.cons_append]
    rw [ih h.2]

theorem AMap.foldl_set_new {K V X : Type} [DecidableEq K] (k : X → K) (v : X → V) : ∀ (l : List X) (m : AMap K V),
    (l.map k).Nodup → (∀ x ∈ l, k x ∉ AMap.keys m) →
    l.foldl (fun m x => m.set (k x) (v x)) m = m ++ l.map (fun x => (k x, v x)) := by
  intro l
  induction l with
  | nil => intro m _ _; simp
  | cons x l ih =>
    intro m hn hk
    simp only [List.map_cons, List.nodup_cons] at hn
    rw [List.foldl_cons, AMap.set_new (hk x (by simp)), ih _ hn.2]
    · simp
    · intro y hy
      simp only [AMap.keys, List.map_append, List.map_cons, List.map_nil, List.mem_append, List.mem_singleton, not_or]
      refine ⟨hk y (by simp [hy]), fun h => hn.1 ?_⟩
      rw [← h]; exact List.mem_map.2 ⟨y, hy, rfl⟩

namespace G

/-- position of a vertex in the vertex list -/
def pos (g : G F E) (v : VId) : VId := (g.verts.map VRec.id).idxOf v

/-- every vertex index is below the number of vertices -/
def Dense (g : G F E) : Prop := ∀ r ∈ g.verts, r.idx < g.verts.length

/-- closed form of the copy -/
def copied (g : G F E) : G F E where
  verts := g.verts.mapIdx (fun i r => ⟨i, i, r.prop⟩)
  edges := g.edges.mapIdx (fun i e => ⟨i, g.pos e.src, g.pos e.tgt, e.prop⟩)
  labels := g.verts.mapIdx (fun i r => (FrameProp.getId r.prop, i))
  nextV := g.verts.length
  nextE := g.edges.length
  nextIdx := g.verts.length

theorem copyVerts_eq (n : Nat) (l : List (VRec F)) (hn : (l.map VRec.idx).Nodup) (hl : ∀ r ∈ l, r.idx < n) :
    ∃ m : AMap Nat VId, l.foldlM (copyVert n) ((G.empty : G F E), []) =
        some (⟨l.mapIdx (fun i r => ⟨i, i, r.prop⟩), [], [], l.length, 0, l.length⟩, m) ∧
      ∀ (i : Nat) (r : VRec F), l[i]? = some r → m.get r.idx = some i := by
  induction l using List.reverseRecOn with
  | nil => exact ⟨[], rfl, by simp⟩
  | append_singleton l r ih =>
    rw [List.map_append, List.map_singleton, List.nodup_append] at hn
    obtain ⟨hn1, -, hn2⟩ := hn
    obtain ⟨m, h1, h2⟩ := ih hn1 (fun r hr => hl r (by simp [hr]))
    refine ⟨m.set r.idx l.length, ?_, ?_⟩
    · rw [List.foldlM_append, h1]
      simp [copyVert, hl r (by simp), List.mapIdx_append]
    · intro i r' hr'
      rcases Nat.lt_trichotomy i l.length with hi | hi | hi
      · rw [List.getElem?_append_left hi] at hr'
        have hmem : r' ∈ l := List.mem_of_getElem? hr'
        have : r.idx ≠ r'.idx := fun h => hn2 r'.idx (List.mem_map.2 ⟨r', hmem, rfl⟩) r.idx (by simp) h.symm
        rw [AMap.get_set_ne this, h2 i r' hr']
      · subst hi
        simp only [List.getElem?_concat_length, Option.some.injEq] at hr'
        subst hr'
        simp
      · rw [List.getElem?_eq_none (by simp; omega)] at hr'
        cases hr'

theorem getElem?_pos {g : G F E} (hw : WF g) {v : VId} {r : VRec F} (h : g.findV v = some r) :
    g.verts[g.pos v]? = some r := by
  obtain ⟨hr, rfl⟩ := (hw.findV_iff).1 h
  obtain ⟨i, hi, rfl⟩ := List.getElem_of_mem hr
  have : g.pos (g.verts[i]).id = i := by
    have := hw.vnodup.idxOf_getElem i (by simpa using hi)
    simpa [pos] using this
  rw [this]
  exact List.getElem?_eq_getElem hi

theorem pos_of_getElem {g : G F E} (hw : WF g) {i : Nat} {r : VRec F} (h : g.verts[i]? = some r) : g.pos r.id = i := by
  obtain ⟨hi, rfl⟩ := List.getElem?_eq_some_iff.1 h
  have := hw.vnodup.idxOf_getElem i (by simpa using hi)
  simpa [pos] using this

theorem pos_inj {g : G F E} {u v : VId} (hu : ∃ r ∈ g.verts, r.id = u) (h : g.pos u = g.pos v) : u = v := by
  refine (List.idxOf_inj (l := g.verts.map VRec.id) ?_).1 h
  obtain ⟨r, hr, rfl⟩ := hu
  exact List.mem_map.2 ⟨r, hr, rfl⟩

theorem pos_lt {g : G F E} {u : VId} (hu : ∃ r ∈ g.verts, r.id = u) : (g.pos u : Nat) < g.verts.length := by
  obtain ⟨r, hr, rfl⟩ := hu
  have := List.idxOf_lt_length_iff.2 (List.mem_map.2 ⟨r, hr, rfl⟩ : r.id ∈ g.verts.map VRec.id)
  simpa [pos] using this

theorem copyEdges_eq {g : G F E} (hw : WF g) {m : AMap Nat VId}
    (hm : ∀ (i : Nat) (r : VRec F), g.verts[i]? = some r → m.get r.idx = some i) :
    ∀ (es : List (ERec E)) (h : G F E), (∀ e ∈ es, e ∈ g.edges) →
    es.foldlM (copyEdge g m) h =
      some { h with edges := h.edges ++ es.mapIdx (fun i e => ⟨h.nextE + i, g.pos e.src, g.pos e.tgt, e.prop⟩),
                    nextE := h.nextE + es.length } := by
  intro es
  induction es with
  | nil => intro h _; simp
  | cons e es ih =>
    intro h hes
    have he := hes e (by simp)
    obtain ⟨rs, hrs, h1⟩ := hw.esrc e he
    obtain ⟨rt, hrt, h2⟩ := hw.etgt e he
    have f1 := hw.findV_iff.2 ⟨hrs, h1⟩
    have f2 := hw.findV_iff.2 ⟨hrt, h2⟩
    have m1 := hm _ _ (getElem?_pos hw f1)
    have m2 := hm _ _ (getElem?_pos hw f2)
    rw [List.foldlM_cons]
    have : copyEdge g m h e = some (h.addEdge (g.pos e.src) (g.pos e.tgt) e.prop).1 := by
      simp only [copyEdge, f1, f2, m1, m2]
    rw [this]
    refine (ih _ (fun x hx => hes x (by simp [hx]))).trans ?_
    simp only [G.addEdge, List.mapIdx_cons, List.append_assoc, List.singleton_append, List.length_cons, Nat.add_zero,
      Option.some.injEq]
    congr 1
    · simp only [Nat.add_assoc, Nat.add_comm 1, Nat.add_left_comm 1]
    · omega

theorem copyGraph_eq {g : G F E} (hw : WF g) (hd : g.Dense) :
    (g.copyGraph).map regenerateLabelMap = some g.copied := by
  by_cases hv : g.verts = []
  · have he : g.edges = [] := by
      by_contra hne
      obtain ⟨e, he⟩ := List.exists_mem_of_ne_nil _ hne
      obtain ⟨r, hr, -⟩ := hw.esrc e he
      simp [hv] at hr
    simp [copyGraph, hv, he, copied, regenerateLabelMap, G.empty]
  · obtain ⟨m, h1, h2⟩ := copyVerts_eq (E := E) g.verts.length g.verts hw.inodup hd
    simp only [copyGraph, hv, if_false, h1]
    rw [copyEdges_eq hw h2 g.edges _ (fun _ h => h)]
    simp only [Option.map_some, Option.some.injEq, regenerateLabelMap, copied, List.nil_append, Nat.zero_add]
    congr 1
    have e1 : (g.verts.mapIdx (fun i r => (⟨i, i, r.prop⟩ : VRec F))).map (fun r => FrameProp.getId r.prop) =
        g.verts.map (fun r => FrameProp.getId r.prop) := by
      apply List.ext_getElem? 
      intro i
      simp only [List.getElem?_map, List.getElem?_mapIdx]
      cases g.verts[i]? <;> rfl
    have hnd : (g.verts.map (fun r => FrameProp.getId r.prop)).Nodup :=
      (List.nodup_map_iff_inj_on (List.Nodup.of_map _ hw.vnodup)).2 (fun r hr r' hr' he => hw.name_inj hr hr' he)
    refine (AMap.foldl_set_new (fun r : VRec F => FrameProp.getId r.prop) VRec.id _ [] (e1 ▸ hnd)
      (by simp [AMap.keys])).trans ?_
    apply List.ext_getElem?
    intro i
    simp only [List.nil_append, List.getElem?_map, List.getElem?_mapIdx]
    cases g.verts[i]? <;> rfl

theorem copyVerts_none (n : Nat) (l : List (VRec F)) (h : ∃ r ∈ l, ¬ r.idx < n) : ∀ st : G F E × AMap Nat VId,
    l.foldlM (copyVert n) st = none := by
  induction l with
  | nil => simp at h
  | cons r l ih =>
    intro st
    rw [List.foldlM_cons]
    by_cases hr : r.idx < n
    · have : ∃ r ∈ l, ¬ r.idx < n := by
        obtain ⟨r', hr', h'⟩ := h
        rcases List.mem_cons.1 hr' with rfl | hr'
        · exact absurd hr h'
        · exact ⟨r', hr', h'⟩
      simp only [copyVert, hr, if_true]
      exact ih this _
    · simp [copyVert, hr]

/-- exactly when the copy is undefined behaviour -/
theorem copyGraph_none {g : G F E} (hw : WF g) : g.copyGraph = none ↔ ¬ g.Dense := by
  constructor
  · intro h hd
    have := copyGraph_eq hw hd
    simp [h] at this
  · intro h
    have h' : ∃ r ∈ g.verts, ¬ r.idx < g.verts.length := by
      by_contra hc
      exact h (fun r hr => by by_contra hh; exact hc ⟨r, hr, hh⟩)
    have hv : g.verts ≠ [] := by
      obtain ⟨r, hr, -⟩ := h'
      exact List.ne_nil_of_mem hr
    simp [copyGraph, hv, copyVerts_none _ _ h']

end G

theorem GS.copy_eq {s : GS F E} (hw : WF s.g) (hd : s.g.Dense) :
    s.copy = some ⟨s.g.copied, [], fun _ => TreeView.empty, []⟩ := by
  have := G.copyGraph_eq hw hd
  obtain ⟨g, h1, h2⟩ := Option.map_eq_some_iff.1 this
  simp only [GS.copy, h1, h2]

open G

theorem mem_copied_verts {g : G F E} (hw : WF g) {x : VRec F} :
    x ∈ g.copied.verts ↔ ∃ r ∈ g.verts, x = ⟨g.pos r.id, g.pos r.id, r.prop⟩ := by
  simp only [copied, List.mem_mapIdx]
  constructor
  · rintro ⟨i, hi, rfl⟩
    refine ⟨g.verts[i], List.getElem_mem hi, ?_⟩
    rw [pos_of_getElem hw (List.getElem?_eq_getElem hi)]
  · rintro ⟨r, hr, rfl⟩
    obtain ⟨i, hi, rfl⟩ := List.getElem_of_mem hr
    exact ⟨i, hi, by rw [pos_of_getElem hw (List.getElem?_eq_getElem hi)]⟩

theorem mem_copied_edges {g : G F E} {x : ERec E} :
    x ∈ g.copied.edges ↔ ∃ i e, g.edges[i]? = some e ∧ x = ⟨i, g.pos e.src, g.pos e.tgt, e.prop⟩ := by
  simp only [copied, List.mem_mapIdx]
  constructor
  · rintro ⟨i, hi, rfl⟩
    exact ⟨i, g.edges[i], List.getElem?_eq_getElem hi, rfl⟩
  · rintro ⟨i, e, he, rfl⟩
    obtain ⟨hi, rfl⟩ := List.getElem?_eq_some_iff.1 he
    exact ⟨i, hi, rfl⟩

theorem map_mapIdx_id {α β : Type} (l : List α) (f : Nat → α → β) (q : β → Nat) (h : ∀ i a, q (f i a) = i) :
    (l.mapIdx f).map q = List.range l.length := by
  apply List.ext_getElem?
  intro i
  simp only [List.getElem?_map, List.getElem?_mapIdx]
  rcases Nat.lt_or_ge i l.length with hi | hi
  · simp [List.getElem?_eq_getElem hi, List.getElem?_range hi, h]
  · simp [List.getElem?_eq_none hi, hi]

theorem copied_wf {g : G F E} (hw : WF g) : WF g.copied := by
  constructor
  · have h := map_mapIdx_id g.verts (fun i r => (⟨i, i, r.prop⟩ : VRec F)) VRec.id (fun _ _ => rfl)
    exact h ▸ List.nodup_range
  · intro x hx
    obtain ⟨r, hr, rfl⟩ := (mem_copied_verts hw).1 hx
    exact pos_lt ⟨r, hr, rfl⟩
  · have h := map_mapIdx_id g.verts (fun i r => (⟨i, i, r.prop⟩ : VRec F)) VRec.idx (fun _ _ => rfl)
    exact h ▸ List.nodup_range
  · intro x hx
    obtain ⟨r, hr, rfl⟩ := (mem_copied_verts hw).1 hx
    exact pos_lt ⟨r, hr, rfl⟩
  · have e1 : AMap.keys g.copied.labels = g.verts.map (fun r => FrameProp.getId r.prop) := by
      apply List.ext_getElem?
      intro i
      simp only [AMap.keys, copied, List.getElem?_map, List.getElem?_mapIdx]
      cases g.verts[i]? <;> rfl
    rw [e1]
    exact (List.nodup_map_iff_inj_on (List.Nodup.of_map _ hw.vnodup)).2 (fun r hr r' hr' he => hw.name_inj hr hr' he)
  · intro f v
    simp only [copied, List.mem_mapIdx]
    constructor
    · rintro ⟨i, hi, he⟩
      simp only [Prod.mk.injEq] at he
      exact ⟨_, ⟨i, hi, rfl⟩, he.2, he.1⟩
    · rintro ⟨r, ⟨i, hi, rfl⟩, h1, h2⟩
      exact ⟨i, hi, by rw [← h1, ← h2]⟩
  · have h := map_mapIdx_id g.edges (fun i e => (⟨i, g.pos e.src, g.pos e.tgt, e.prop⟩ : ERec E)) ERec.id (fun _ _ => rfl)
    exact h ▸ List.nodup_range
  · intro x hx
    obtain ⟨i, e, he, rfl⟩ := mem_copied_edges.1 hx
    exact (List.getElem?_eq_some_iff.1 he).1
  · intro x hx
    obtain ⟨i, e, he, rfl⟩ := mem_copied_edges.1 hx
    obtain ⟨r, hr, h⟩ := hw.esrc e (List.mem_of_getElem? he)
    exact ⟨_, (mem_copied_verts hw).2 ⟨r, hr, rfl⟩, by rw [← h]⟩
  · intro x hx
    obtain ⟨i, e, he, rfl⟩ := mem_copied_edges.1 hx
    obtain ⟨r, hr, h⟩ := hw.etgt e (List.mem_of_getElem? he)
    exact ⟨_, (mem_copied_verts hw).2 ⟨r, hr, rfl⟩, by rw [← h]⟩

theorem copied_vertexOf {g : G F E} (hw : WF g) (f : FrameId) : g.copied.vertexOf f = (g.vertexOf f).map g.pos := by
  cases h : g.vertexOf f with
  | some v =>
    obtain ⟨r, hr, h1, h2⟩ := hw.vertexOf_iff.1 h
    exact (copied_wf hw).vertexOf_iff.2 ⟨_, (mem_copied_verts hw).2 ⟨r, hr, rfl⟩, by rw [← h1], h2⟩
  | none =>
    rw [Option.map_none, (copied_wf hw).vertexOf_none]
    intro x hx
    obtain ⟨r, hr, rfl⟩ := (mem_copied_verts hw).1 hx
    exact hw.vertexOf_none.1 h r hr

theorem copied_findV {g : G F E} (hw : WF g) {v : VId} {r : VRec F} (h : g.findV v = some r) :
    g.copied.findV (g.pos v) = some ⟨g.pos v, g.pos v, r.prop⟩ := by
  obtain ⟨hr, rfl⟩ := hw.findV_iff.1 h
  exact (copied_wf hw).findV_iff.2 ⟨(mem_copied_verts hw).2 ⟨r, hr, rfl⟩, rfl⟩

theorem find?_mapIdx {α β γ : Type} (p : β → Bool) (p' : α → Bool) (q : β → γ) (q' : α → γ) : ∀ (l : List α) (f : Nat → α → β),
    (∀ i, ∀ a ∈ l, p (f i a) = p' a) → (∀ i a, q (f i a) = q' a) → ((l.mapIdx f).find? p).map q = (l.find? p').map q' := by
  intro l
  induction l with
  | nil => intro f _ _; rfl
  | cons a l ih =>
    intro f hp hq
    rw [List.mapIdx_cons, List.find?_cons, List.find?_cons, hp 0 a (by simp)]
    cases p' a with
    | true => simp [hq]
    | false => exact ih _ (fun i a ha => hp (i + 1) a (by simp [ha])) (fun i a => hq (i + 1) a)

theorem edge_eq_find (g : G F E) (u v : VId) : g.edge u v = g.edges.find? (fun e => e.src = u ∧ e.tgt = v) := by
  simp only [G.edge, G.outEdges, List.find?_filter]
  congr 1
  funext e
  simp

theorem copied_edge {g : G F E} (hw : WF g) (u v : VId) :
    (g.copied.edge (g.pos u) (g.pos v)).map ERec.prop = (g.edge u v).map ERec.prop := by
  rw [edge_eq_find, edge_eq_find]
  refine find?_mapIdx _ _ _ _ _ _ ?_ (fun _ _ => rfl)
  intro i e he
  have h1 : g.pos e.src = g.pos u ↔ e.src = u := ⟨pos_inj (hw.esrc e he), fun h => by rw [h]⟩
  have h2 : g.pos e.tgt = g.pos v ↔ e.tgt = v := ⟨pos_inj (hw.etgt e he), fun h => by rw [h]⟩
  simp only [h1, h2]

theorem absEdge_copied {g : G F E} (hw : WF g) (a b : FrameId) : absEdge g.copied a b = absEdge g a b := by
  cases ha : g.vertexOf a with
  | none => rw [absEdge_none_left ha, absEdge_none_left]; rw [copied_vertexOf hw, ha]; rfl
  | some u =>
    cases hb : g.vertexOf b with
    | none => rw [absEdge_none_right hb, absEdge_none_right]; rw [copied_vertexOf hw, hb]; rfl
    | some v =>
      rw [absEdge_of ha hb, absEdge_of (u := g.pos u) (v := g.pos v) (by rw [copied_vertexOf hw, ha]; rfl)
        (by rw [copied_vertexOf hw, hb]; rfl), copied_edge hw]

theorem copied_paired {g : G F E} (hw : WF g) (hp : Paired g) : Paired g.copied := by
  constructor
  · intro x hx
    obtain ⟨i, e, he, rfl⟩ := mem_copied_edges.1 hx
    have hm := List.mem_of_getElem? he
    exact fun h => hp.noself e hm (pos_inj (hw.esrc e hm) h)
  · intro x hx y hy h1 h2
    obtain ⟨i, e, he, rfl⟩ := mem_copied_edges.1 hx
    obtain ⟨j, e', he', rfl⟩ := mem_copied_edges.1 hy
    have hm := List.mem_of_getElem? he
    have hm' := List.mem_of_getElem? he'
    have : e = e' := hp.uniq e hm e' hm' (pos_inj (hw.esrc e hm) h1) (pos_inj (hw.etgt e hm) h2)
    subst this
    have : i = j := by
      obtain ⟨hi, h3⟩ := List.getElem?_eq_some_iff.1 he
      obtain ⟨hj, h4⟩ := List.getElem?_eq_some_iff.1 he'
      exact ((List.Nodup.of_map _ hw.enodup).getElem_inj_iff).1 (h3.trans h4.symm)
    subst this
    rfl
  · intro x hx
    obtain ⟨i, e, he, rfl⟩ := mem_copied_edges.1 hx
    obtain ⟨e', hm', h1, h2, h3⟩ := hp.inv e (List.mem_of_getElem? he)
    obtain ⟨j, hj, rfl⟩ := List.getElem_of_mem hm'
    exact ⟨_, mem_copied_edges.2 ⟨j, _, List.getElem?_eq_getElem hj, rfl⟩, by rw [h1], by rw [h2], h3⟩

theorem Sim.copied {s : GS F E} {A : AGraph E} (h : Sim s A) (vs : Nat → TreeView) : Sim (⟨s.g.copied, [], vs, []⟩ : GS F E) A := by
  refine ⟨copied_wf h.wf, copied_paired h.wf h.paired, rfl, ?_, ?_⟩
  · intro f
    rw [← h.frames f]
    simp [copied_vertexOf h.wf]
  · intro a b
    rw [← h.edges]; exact absEdge_copied h.wf a b

/-! ## dense indices: no frame was ever removed -/

/-- events that are not the removal of a frame -/
def Event.isFrameRemoved : Event → Bool
  | .frameRemoved _ => true
  | _ => false

theorem GSteps.dense {P : G F E → Event → Prop} {g g' : G F E} {l : List (Event × G F E)} (h : GSteps P g l g')
    (hl : ∀ x ∈ l, x.1.isFrameRemoved = false) (hd : g.nextIdx = g.verts.length) : g'.nextIdx = g'.verts.length := by
  induction h with
  | nil => exact hd
  | cons h _ _ ih =>
    refine ih (fun x hx => hl x (by simp [hx])) ?_
    have hx := hl _ (List.mem_cons_self ..)
    cases h with
    | addV hn hp => rw [G.addVertex_new _ hn]; simp [hd]
    | dupV => exact hd
    | addE => exact hd
    | rmE ha hb h1 h2 hg1 hg2 =>
      rw [(G.removeEdge_some hg2).2, (G.removeEdge_some hg1).2]; exact hd
    | setP => exact hd
    | rmV => simp [Event.isFrameRemoved] at hx

theorem GSteps.sparse {P : G F E → Event → Prop} {g g' : G F E} {l : List (Event × G F E)} (h : GSteps P g l g')
    (hw : WF g) (hle : g.verts.length ≤ g.nextIdx) :
    g'.verts.length ≤ g'.nextIdx ∧
    ((g.verts.length < g.nextIdx ∨ ∃ x ∈ l, x.1.isFrameRemoved = true) → g'.verts.length < g'.nextIdx) := by
  induction h with
  | nil => exact ⟨hle, fun h => h.resolve_right (by simp)⟩
  | @cons g g1 g2 x l h _ _ ih =>
    have key : g1.verts.length ≤ g1.nextIdx ∧
        ((g.verts.length < g.nextIdx ∨ x.1.isFrameRemoved = true) → g1.verts.length < g1.nextIdx) := by
      cases h with
      | addV hn hp =>
        rw [G.addVertex_new _ hn]
        simp only [List.length_append, List.length_singleton, Event.isFrameRemoved, Bool.false_eq_true, or_false]
        omega
      | dupV => exact ⟨hle, by simp [Event.isFrameRemoved]⟩
      | addE => exact ⟨hle, by simp [Event.isFrameRemoved, G.addEdge]⟩
      | rmE ha hb h1 h2 hg1 hg2 =>
        rw [(G.removeEdge_some hg2).2, (G.removeEdge_some hg1).2]; exact ⟨hle, by simp [Event.isFrameRemoved]⟩
      | setP => exact ⟨hle, by simp [Event.isFrameRemoved, G.setProp]⟩
      | @rmV f v hv hd =>
        obtain ⟨r, hr, h1, -⟩ := hw.vertexOf_iff.1 hv
        have : (g.removeVertex v f).verts.length < g.verts.length :=
          List.length_filter_lt_length_iff_exists.2 ⟨r, hr, by simp [h1]⟩
        have h2 : ∀ v f, (g.removeVertex v f).nextIdx = g.nextIdx := fun _ _ => rfl
        rw [h2]
        exact ⟨by omega, fun _ => by omega⟩
    obtain ⟨a1, a2⟩ := ih (h.wf hw) key.1
    refine ⟨a1, fun hx => a2 ?_⟩
    rcases hx with hx | ⟨y, hy, hyr⟩
    · exact Or.inl (key.2 (Or.inl hx))
    · rcases List.mem_cons.1 hy with rfl | hy
      · exact Or.inl (key.2 (Or.inr hyr))
      · exact Or.inr ⟨y, hy, hyr⟩

open GS in
theorem dense_of_run {cs : List (Cmd F E)} {s : GS F E} (h : run cs init = some s)
    (hr : ∀ f g, (Event.frameRemoved f, g) ∉ s.trace) : s.g.Dense := by
  obtain ⟨l, h1, h2⟩ := run_advances WF.empty h
  have h3 : s.trace = l := by rw [h2]; simp [init]
  have := h1.dense (fun x hx => by
    obtain ⟨e, g⟩ := x
    cases e <;> first | rfl | exact absurd (h3 ▸ hx) (hr _ _)) rfl
  intro r hr
  rw [← this]
  exact (run_wf WF.empty h).ilt r hr

theorem no_removal_of {t : List (Event × G F E)} (h : t.any (fun x => x.1.isFrameRemoved) = false) :
    ∀ f g, (Event.frameRemoved f, g) ∉ t := by
  intro f g hm
  have := List.any_eq_false.1 h _ hm
  simp [Event.isFrameRemoved] at this

open GS in
/-- the copy of a graph with dense indices -/
theorem copy_answers {s : GS F E} (hw : WF s.g) (hd : s.g.Dense) :
    ∃ c, s.copy = some c ∧ c.trace = [] ∧ c.subs = [] ∧
      (∀ f, containsFrame f c = containsFrame f s) ∧
      (∀ f p, getFrameProperty f c = .ok p c ↔ getFrameProperty f s = .ok p s) ∧
      (∀ a b r, containsEdge a b c = .ok r c ↔ containsEdge a b s = .ok r s) ∧
      (∀ a b p, getEdgeProperty a b c = .ok p c ↔ getEdgeProperty a b s = .ok p s) ∧
      numVertices c = numVertices s ∧ numEdges c = numEdges s := by
  refine ⟨_, copy_eq hw hd, rfl, rfl, ?_, ?_, ?_, ?_, ?_, ?_⟩
  · intro f
    simp only [containsFrame, copied_vertexOf hw, Option.isSome_map]
  · intro f p
    simp only [getFrameProperty, copied_vertexOf hw]
    cases hv : s.g.vertexOf f with
    | none => simp
    | some v =>
      obtain ⟨r, hr, -⟩ := hw.live_of_vertexOf hv
      simp [hr, copied_findV hw hr]
  · intro a b r
    simp only [containsEdge, copied_vertexOf hw]
    cases s.g.vertexOf a with
    | none => simp
    | some u =>
      cases s.g.vertexOf b with
      | none => simp
      | some v =>
        have := congrArg Option.isSome (copied_edge hw u v)
        simp only [Option.isSome_map] at this
        simp [this]
  · intro a b p
    simp only [getEdgeProperty, getEdge, copied_vertexOf hw]
    cases s.g.vertexOf a with
    | none => simp
    | some u =>
      cases s.g.vertexOf b with
      | none => simp
      | some v =>
        have := copied_edge hw u v
        simp only [Option.map_some]
        cases h1 : s.g.edge u v <;> cases h2 : s.g.copied.edge (s.g.pos u) (s.g.pos v) <;> simp [h1, h2] at this ⊢
        rw [this]
  · simp [numVertices, G.copied]
  · simp [numEdges, G.copied]

end Verif
