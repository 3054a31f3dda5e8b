import Verif.Spec.Items
import Verif.Lemmas.Sim
import Mathlib.Data.List.Perm.Basic

set_option linter.unusedSectionVars false
set_option linter.unusedSimpArgs false
/-! The item lists of the frames: invariants and the relation to one list per frame. -/

namespace Verif

namespace EFrame
variable {ty : ItemId → TypeIdx} {fr : EFrame} {L : List ItemId}

/-- the map of the frame holds the list `L`, split by type -/
def Holds (ty : ItemId → TypeIdx) (fr : EFrame) (L : List ItemId) : Prop :=
  ∀ t, (fr.items.get t).getD [] = L.filter (fun i => ty i = t)

/-- one entry per type, no empty lists -/
structure Tidy (fr : EFrame) : Prop where
  nodup : fr.items.keys.Nodup
  full : ∀ p ∈ fr.items, p.2 ≠ []

theorem Holds.push (h : Holds ty fr L) (i : ItemId) : Holds ty (fr.push (ty i) i) (L ++ [i]) := by
  intro t
  simp only [EFrame.push, AMap.get_set, List.filter_append]
  by_cases ht : ty i = t
  · subst ht; simp [h (ty i)]
  · simp [ht, h t]

theorem mem_set {K V : Type} [DecidableEq K] {m : AMap K V} {k : K} {v : V} {p : K × V} (h : p ∈ AMap.set m k v) :
    p ∈ m ∨ p = (k, v) := by
  induction m with
  | nil => simp [AMap.set] at h; exact Or.inr h
  | cons q m ih =>
    obtain ⟨a, b⟩ := q
    simp only [AMap.set] at h
    split at h
    · rcases List.mem_cons.1 h with h | h
      · exact Or.inr h
      · exact Or.inl (List.mem_cons_of_mem _ h)
    · rcases List.mem_cons.1 h with h | h
      · exact Or.inl (h ▸ List.mem_cons_self)
      · exact (ih h).imp (List.mem_cons_of_mem _) (fun x => x)

theorem Tidy.push (h : Tidy fr) (t : TypeIdx) (i : ItemId) : Tidy (fr.push t i) := by
  refine ⟨AMap.nodup_keys_set h.nodup _ _, ?_⟩
  intro p hp
  rcases mem_set hp with hp | rfl
  · exact h.full p hp
  · simp

theorem Holds.setErase (h : Holds ty fr L) {i : ItemId} {l : List ItemId} (hl : fr.items.get (ty i) = some l) :
    Holds ty (fr.setList (ty i) (l.erase i)) (L.erase i) := by
  have hl' : l = L.filter (fun j => ty j = ty i) := by rw [← h (ty i), hl]; rfl
  intro t
  simp only [EFrame.setList, AMap.get_set]
  by_cases ht : ty i = t
  · subst ht
    simp only [if_true, Option.getD_some]
    rw [hl', List.erase_filter]
  · simp only [ht, if_false, h t]
    rw [← List.erase_filter, List.erase_of_not_mem]
    simp [ht]

theorem Holds.eraseType (h : Holds ty fr L) {t : TypeIdx} (ht : (fr.items.get t).getD [] = []) :
    Holds ty (fr.eraseType t) L := by
  intro t'
  simp only [EFrame.eraseType, AMap.get_erase]
  by_cases htt : t = t'
  · subst htt; simp only [if_true, Option.getD_none]; rw [← h t, ht]
  · simp [htt, h t']

theorem Tidy.eraseType (h : Tidy fr) (t : TypeIdx) : Tidy (fr.eraseType t) :=
  ⟨AMap.nodup_keys_erase h.nodup _, fun p hp => h.full p (List.mem_filter.1 hp).1⟩

theorem Tidy.setList (h : Tidy fr) {t : TypeIdx} {l : List ItemId} (hl : l ≠ []) : Tidy (fr.setList t l) := by
  refine ⟨AMap.nodup_keys_set h.nodup _ _, ?_⟩
  intro p hp
  rcases mem_set hp with hp | rfl
  · exact h.full p hp
  · exact hl

theorem erase_set (m : AMap TypeIdx (List ItemId)) (t : TypeIdx) (l : List ItemId) :
    AMap.erase (AMap.set m t l) t = AMap.erase m t := by
  induction m with
  | nil => simp [AMap.set, AMap.erase]
  | cons p m ih =>
    obtain ⟨a, b⟩ := p
    simp only [AMap.set]
    split
    · rename_i hh; subst hh; simp [AMap.erase]
    · simp only [AMap.erase, List.filter_cons] at ih ⊢
      rw [ih]

theorem Holds.get_isSome (h : Holds ty fr L) (hT : Tidy fr) (t : TypeIdx) :
    (fr.items.get t).isSome ↔ ∃ i ∈ L, ty i = t := by
  have := h t
  cases hg : fr.items.get t with
  | none =>
    rw [hg] at this
    simp only [Option.getD_none] at this
    have h2 := List.filter_eq_nil_iff.1 this.symm
    simp only [decide_eq_true_eq] at h2
    simpa using h2
  | some l =>
    rw [hg] at this
    simp only [Option.getD_some] at this
    have hne := hT.full _ (AMap.mem_of_get hg)
    obtain ⟨i, hi⟩ := List.exists_mem_of_ne_nil _ hne
    simp only at hi
    rw [this] at hi
    simp only [List.mem_filter, decide_eq_true_eq] at hi
    simp only [Option.isSome_some, true_iff]
    exact ⟨i, hi.1, hi.2⟩

theorem Holds.get_some (h : Holds ty fr L) {t : TypeIdx} {l : List ItemId} (hg : fr.items.get t = some l) :
    l = L.filter (fun i => ty i = t) := by rw [← h t, hg]; rfl

theorem Holds.get_none (h : Holds ty fr L) {t : TypeIdx} (hg : fr.items.get t = none) :
    L.filter (fun i => ty i = t) = [] := by rw [← h t, hg]; rfl

/-- the visited items are the items of the frame, in another order -/
theorem Holds.visit_perm (h : Holds ty fr L) (hT : Tidy fr) : fr.visit.Perm L := by
  have aux : ∀ (m : AMap TypeIdx (List ItemId)) (L : List ItemId), (AMap.keys m).Nodup →
      (∀ t, (AMap.get m t).getD [] = L.filter (fun i => ty i = t)) → (m.flatMap (fun p => p.2)).Perm L := by
    intro m
    induction m with
    | nil =>
      intro L _ hL
      cases L with
      | nil => simp
      | cons a L => have := hL (ty a); simp at this
    | cons p m ih =>
      obtain ⟨a, b⟩ := p
      intro L hn hL
      simp only [AMap.keys, List.map_cons, List.nodup_cons] at hn
      have hb : b = L.filter (fun i => ty i = a) := by rw [← hL a]; simp [AMap.get_cons]
      have hm := ih (L.filter (fun i => ¬ ty i = a)) hn.2 (by
        intro t
        by_cases hta : a = t
        · subst hta
          have : AMap.get m a = none := AMap.get_eq_none_iff.2 hn.1
          rw [this]
          symm
          simp only [Option.getD_none]
          rw [List.filter_eq_nil_iff]
          intro x hx
          simp only [List.mem_filter, decide_eq_true_eq] at hx
          simpa using hx.2
        · have := hL t
          simp only [AMap.get_cons, hta, if_false] at this
          rw [this, List.filter_filter]
          apply List.filter_congr
          intro x _
          by_cases hx : ty x = t
          · simp [hx, Ne.symm hta]
          · simp [hx])
      simp only [List.flatMap_cons]
      rw [hb]
      refine (List.Perm.append_left _ hm).trans ?_
      simp only [decide_not]
      exact List.filter_append_perm _ L
  exact aux fr.items L hT.nodup h

theorem totalItemCount_eq (fr : EFrame) : fr.totalItemCount = fr.visit.length := by
  have aux : ∀ (m : AMap TypeIdx (List ItemId)) (n : Nat),
      m.foldl (fun n p => n + p.2.length) n = n + (m.flatMap (fun p => p.2)).length := by
    intro m
    induction m with
    | nil => simp
    | cons p m ih => intro n; simp only [List.foldl_cons, ih, List.flatMap_cons, List.length_append]; omega
  simp [totalItemCount, visit, aux]

end EFrame

section modV
variable {F E : Type} [FrameProp F] [EdgeProp E] {g : G F E}

@[simp] theorem G.modV_vertexOf (g : G F E) (v : VId) (h : F → F) (f : FrameId) : (g.modV v h).vertexOf f = g.vertexOf f := rfl
@[simp] theorem G.modV_edges (g : G F E) (v : VId) (h : F → F) : (g.modV v h).edges = g.edges := rfl
@[simp] theorem G.modV_edge (g : G F E) (v : VId) (h : F → F) (x y : VId) : (g.modV v h).edge x y = g.edge x y := rfl

theorem G.mem_modV {g : G F E} {v : VId} {h : F → F} {r : VRec F} :
    r ∈ (g.modV v h).verts ↔ ∃ q ∈ g.verts, r = if q.id = v then { q with prop := h q.prop } else q := by
  simp only [G.modV, List.mem_map]
  constructor <;> rintro ⟨q, hq, he⟩ <;> exact ⟨q, hq, he.symm⟩

theorem WF.modV (hw : WF g) (v : VId) {h : F → F} (hid : ∀ p, FrameProp.getId (h p) = FrameProp.getId p) :
    WF (g.modV v h) := by
  have e1 : (g.modV v h).verts.map VRec.id = g.verts.map VRec.id := by
    simp only [G.modV, List.map_map]; apply List.map_congr_left; intro r _; simp only [Function.comp]; split <;> rfl
  have e2 : (g.modV v h).verts.map VRec.idx = g.verts.map VRec.idx := by
    simp only [G.modV, List.map_map]; apply List.map_congr_left; intro r _; simp only [Function.comp]; split <;> rfl
  have key : ∀ r ∈ (g.modV v h).verts, ∃ q ∈ g.verts, r.id = q.id ∧ r.idx = q.idx ∧
      FrameProp.getId r.prop = FrameProp.getId q.prop := by
    intro r hr
    obtain ⟨q, hq, rfl⟩ := G.mem_modV.1 hr
    refine ⟨q, hq, ?_⟩
    split
    · exact ⟨rfl, rfl, hid _⟩
    · exact ⟨rfl, rfl, rfl⟩
  have key' : ∀ q ∈ g.verts, ∃ r ∈ (g.modV v h).verts, r.id = q.id ∧ FrameProp.getId r.prop = FrameProp.getId q.prop := by
    intro q hq
    refine ⟨_, G.mem_modV.2 ⟨q, hq, rfl⟩, ?_⟩
    split
    · exact ⟨rfl, hid _⟩
    · exact ⟨rfl, rfl⟩
  refine ⟨by rw [e1]; exact hw.vnodup, ?_, by rw [e2]; exact hw.inodup, ?_, hw.lnodup, ?_, hw.enodup, hw.elt, ?_, ?_⟩
  · intro r hr; obtain ⟨q, hq, a, -, -⟩ := key r hr; rw [a]; exact hw.vlt q hq
  · intro r hr; obtain ⟨q, hq, -, b, -⟩ := key r hr; rw [b]; exact hw.ilt q hq
  · intro f u
    show (f, u) ∈ g.labels ↔ _
    rw [hw.lab]
    constructor
    · rintro ⟨q, hq, a, b⟩
      obtain ⟨r, hr, c, d⟩ := key' q hq
      exact ⟨r, hr, c.trans a, d.trans b⟩
    · rintro ⟨r, hr, a, b⟩
      obtain ⟨q, hq, c, -, d⟩ := key r hr
      exact ⟨q, hq, c.symm.trans a, d.symm.trans b⟩
  · intro e he
    obtain ⟨q, hq, a⟩ := hw.esrc e he
    obtain ⟨r, hr, c, -⟩ := key' q hq
    exact ⟨r, hr, c.trans a⟩
  · intro e he
    obtain ⟨q, hq, a⟩ := hw.etgt e he
    obtain ⟨r, hr, c, -⟩ := key' q hq
    exact ⟨r, hr, c.trans a⟩

theorem G.findV_modV (g : G F E) (v : VId) (h : F → F) (x : VId) :
    (g.modV v h).findV x = (g.findV x).map (fun r => if r.id = v then { r with prop := h r.prop } else r) := by
  simp only [G.findV, G.modV, List.find?_map]
  congr 2
  funext r; simp only [Function.comp]; split <;> rfl

theorem Sim.modV {s : GS F E} {A : AGraph E} (hs : Sim s A) (v : VId) {h : F → F}
    (hid : ∀ p, FrameProp.getId (h p) = FrameProp.getId p) (t : List (Event × G F E)) :
    Sim { s with g := s.g.modV v h, trace := t } A :=
  ⟨hs.wf.modV v hid, hs.paired.of_edges rfl, hs.subs, hs.frames, hs.edges⟩

end modV

variable {E : Type} [EdgeProp E]

/-- the frames of the graph hold the items of the shelf -/
structure Stocked (ty : ItemId → TypeIdx) (g : G EFrame E) (M : Shelf) : Prop where
  holds : ∀ r ∈ g.verts, r.prop.Holds ty (M r.prop.id)
  absent : ∀ f, g.vertexOf f = none → M f = []

/-- every frame is tidy -/
def AllTidy (g : G EFrame E) : Prop := ∀ r ∈ g.verts, r.prop.Tidy

theorem Stocked.modV {ty : ItemId → TypeIdx} {g : G EFrame E} {M : Shelf} (hs : Stocked ty g M) (hw : WF g) {f : FrameId} {v : VId}
    (hv : g.vertexOf f = some v) {h : EFrame → EFrame} {L : List ItemId} (hid : ∀ p, (h p).id = p.id)
    (hh : ∀ r, g.findV v = some r → r.prop.Holds ty (M f) → (h r.prop).Holds ty L) : Stocked ty (g.modV v h) (M.put f L) := by
  constructor
  · intro r hr
    obtain ⟨q, hq, rfl⟩ := G.mem_modV.1 hr
    obtain ⟨q0, hq0, e1, e2⟩ := hw.vertexOf_iff.1 hv
    split
    · rename_i hqv
      have : q = q0 := map_inj_of_nodup hw.vnodup hq hq0 (hqv.trans e1.symm)
      subst this
      have e2' : q.prop.id = f := e2
      simp only [Shelf.put, hid, e2', if_true]
      exact hh q (hw.findV_iff.2 ⟨hq, hqv⟩) (e2' ▸ hs.holds q hq)
    · rename_i hqv
      have : q.prop.id ≠ f := by
        intro he
        exact hqv ((hw.name_inj hq hq0 (he.trans (Eq.symm e2))) ▸ e1)
      simp only [Shelf.put, this, if_false]
      exact hs.holds q hq
  · intro f' hf'
    have hf'' : g.vertexOf f' = none := hf'
    have : f' ≠ f := by rintro rfl; rw [hv] at hf''; cases hf''
    simp only [Shelf.put, this, if_false]
    exact hs.absent f' hf''

theorem AllTidy.modV {g : G EFrame E} (h : AllTidy g) {v : VId} {k : EFrame → EFrame}
    (hk : ∀ r, r ∈ g.verts → r.id = v → r.prop.Tidy → (k r.prop).Tidy) : AllTidy (g.modV v k) := by
  intro r hr
  obtain ⟨q, hq, rfl⟩ := G.mem_modV.1 hr
  split
  · rename_i hv; exact hk q hq hv (h q hq)
  · exact h q hq

end Verif
