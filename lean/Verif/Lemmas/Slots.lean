import Verif.Spec.Slots
import Verif.Lemmas.ItemCopy
import Mathlib.Data.Finset.Card
set_option linter.unusedSectionVars false
/-! The vertex indices are the positions in the list of created frames. -/

namespace Verif
variable {F E : Type} [FrameProp F] [EdgeProp E]

/-- `Gap` as a test -/
def gapB : List (Option FrameId) → Bool
  | [] => false
  | none :: l => l.any Option.isSome || gapB l
  | some _ :: l => gapB l

theorem gap_iff {l : List (Option FrameId)} : Gap l ↔ gapB l = true := by
  induction l with
  | nil => simp [Gap, gapB]
  | cons x l ih =>
    have hc : Gap (x :: l) ↔ (x = none ∧ ∃ f, some f ∈ l) ∨ Gap l := by
      constructor
      · rintro ⟨l1, l2, l3, f, h⟩
        cases l1 with
        | nil =>
          simp only [List.nil_append, List.cons.injEq] at h
          exact Or.inl ⟨h.1, f, by rw [h.2]; simp⟩
        | cons y l1 =>
          simp only [List.cons_append, List.cons.injEq] at h
          exact Or.inr ⟨l1, l2, l3, f, h.2⟩
      · rintro (⟨rfl, f, hf⟩ | ⟨l1, l2, l3, f, rfl⟩)
        · obtain ⟨l2, l3, rfl⟩ := List.append_of_mem hf
          exact ⟨[], l2, l3, f, rfl⟩
        · exact ⟨x :: l1, l2, l3, f, rfl⟩
    rw [hc, ih]
    cases x with
    | none =>
      simp only [gapB, Bool.or_eq_true, List.any_eq_true, true_and, Option.isSome_iff_exists]
      constructor
      · rintro (⟨f, hf⟩ | h)
        · exact Or.inl ⟨_, hf, f, rfl⟩
        · exact Or.inr h
      · rintro (⟨_, hf, f, rfl⟩ | h)
        · exact Or.inl ⟨f, hf⟩
        · exact Or.inr h
    | some f => simp [gapB]

/-- the graph agrees with the list of created frames -/
structure Slotted (g : G F E) (l : List (Option FrameId)) : Prop where
  len : g.nextIdx = l.length
  at_ : ∀ i f, l[i]? = some (some f) ↔ ∃ r ∈ g.verts, r.idx = i ∧ FrameProp.getId r.prop = f

theorem Slotted.empty : Slotted (G.empty : G F E) [] := ⟨rfl, by simp [G.empty]⟩

theorem Slotted.mem {g : G F E} {l : List (Option FrameId)} (h : Slotted g l) (hw : WF g) (f : FrameId) :
    some f ∈ l ↔ (g.vertexOf f).isSome := by
  rw [List.mem_iff_getElem?]
  constructor
  · rintro ⟨i, hi⟩
    obtain ⟨r, hr, -, hf⟩ := (h.at_ i f).1 hi
    exact Option.isSome_iff_exists.2 ⟨r.id, hw.vertexOf_iff.2 ⟨r, hr, rfl, hf⟩⟩
  · intro hs
    obtain ⟨v, hv⟩ := Option.isSome_iff_exists.1 hs
    obtain ⟨r, hr, -, hf⟩ := hw.vertexOf_iff.1 hv
    exact ⟨r.idx, (h.at_ _ f).2 ⟨r, hr, rfl, hf⟩⟩

/-- only vertices and the index counter matter -/
theorem Slotted.congr {g g' : G F E} {l : List (Option FrameId)} (h : Slotted g l) (h1 : g'.nextIdx = g.nextIdx)
    (h2 : g'.verts.map (fun r => (r.idx, FrameProp.getId r.prop)) = g.verts.map (fun r => (r.idx, FrameProp.getId r.prop))) :
    Slotted g' l := by
  refine ⟨h1.trans h.len, fun i f => ?_⟩
  rw [h.at_]
  have key : ∀ g : G F E, (∃ r ∈ g.verts, r.idx = i ∧ FrameProp.getId r.prop = f) ↔
      (i, f) ∈ g.verts.map (fun r => (r.idx, FrameProp.getId r.prop)) := by
    intro g
    simp only [List.mem_map, Prod.mk.injEq]
  rw [key, key, h2]

theorem Slotted.step {g g' : G F E} {x : Event × G F E} {l : List (Option FrameId)} (hs : GStep g x g') (hw : WF g)
    (h : Slotted g l) : Slotted g' (slotStep l x.1) := by
  cases hs with
  | @addV f p hn hp =>
    have hf : some f ∉ l := by rw [h.mem hw, hn]; simp
    simp only [slotStep, if_neg hf]
    rw [G.addVertex_new _ hn]
    refine ⟨by simp [h.len], fun i f' => ?_⟩
    simp only [List.mem_append, List.mem_singleton]
    have hlt : ∀ r ∈ g.verts, r.idx < l.length := fun r hr => h.len ▸ hw.ilt r hr
    rcases Nat.lt_trichotomy i l.length with hi | hi | hi
    · rw [List.getElem?_append_left hi, h.at_]
      constructor
      · rintro ⟨r, hr, h1⟩; exact ⟨r, Or.inl hr, h1⟩
      · rintro ⟨r, hr | rfl, h1, h2⟩
        · exact ⟨r, hr, h1, h2⟩
        · simp only [h.len] at h1; omega
    · subst hi
      simp only [List.getElem?_concat_length, Option.some.injEq]
      constructor
      · rintro rfl; exact ⟨_, Or.inr rfl, h.len, hp⟩
      · rintro ⟨r, hr | rfl, h1, h2⟩
        · have := hlt r hr; omega
        · exact hp.symm.trans h2
    · rw [List.getElem?_eq_none (by simp; omega)]
      simp only [reduceCtorEq, false_iff]
      rintro ⟨r, hr | rfl, h1, h2⟩
      · have := hlt r hr; omega
      · simp only [h.len] at h1; omega
  | @dupV f v hv =>
    have hf : some f ∈ l := by rw [h.mem hw, hv]; rfl
    simpa only [slotStep, if_pos hf] using h
  | addE => exact h.congr rfl rfl
  | rmE ha hb h1 h2 hg1 hg2 =>
    rw [(G.removeEdge_some hg2).2, (G.removeEdge_some hg1).2]
    exact h.congr rfl rfl
  | setP => exact h.congr rfl rfl
  | @rmV f v hv hd =>
    refine ⟨by simp [slotStep, G.removeVertex, h.len], fun i f' => ?_⟩
    simp only [slotStep, List.getElem?_map, Option.map_eq_some_iff]
    have hin : ∀ r ∈ g.verts, r.id = v ↔ FrameProp.getId r.prop = f := by
      intro r hr
      constructor
      · intro hid
        have := hw.vertexOf_iff.2 ⟨r, hr, rfl, rfl⟩
        rw [hid] at this
        exact hw.vertexOf_inj this hv
      · intro hid
        have := hw.vertexOf_iff.2 ⟨r, hr, rfl, hid⟩
        exact Option.some.inj (this.symm.trans hv)
    constructor
    · rintro ⟨y, hy, h1⟩
      split at h1
      · cases h1
      · rename_i hne
        subst h1
        obtain ⟨r, hr, h2, h3⟩ := (h.at_ i f').1 hy
        refine ⟨r, ?_, h2, h3⟩
        simp only [G.removeVertex, List.mem_filter, decide_eq_true_eq]
        refine ⟨hr, fun hid => hne ?_⟩
        rw [← h3, (hin r hr).1 hid]
    · rintro ⟨r, hr, h2, h3⟩
      simp only [G.removeVertex, List.mem_filter, decide_eq_true_eq] at hr
      refine ⟨some f', (h.at_ i f').2 ⟨r, hr.1, h2, h3⟩, ?_⟩
      rw [if_neg]
      intro he
      exact hr.2 ((hin r hr.1).2 (h3.trans (Option.some.inj he)))

theorem Slotted.steps {P : G F E → Event → Prop} {g g' : G F E} {t : List (Event × G F E)} (hs : GSteps P g t g') :
    ∀ {l : List (Option FrameId)}, WF g → Slotted g l → Slotted g' ((t.map Prod.fst).foldl slotStep l) := by
  induction hs with
  | nil => intro l _ h; exact h
  | cons hs _ _ ih => intro l hw h; exact ih (hs.wf hw) (h.step hs hw)

/-- dense indices: no gap -/
theorem Slotted.dense_iff {g : G F E} {l : List (Option FrameId)} (h : Slotted g l) (hw : WF g) : g.Dense ↔ ¬ Gap l := by
  have hcard : (g.verts.map VRec.idx).toFinset.card = g.verts.length := by
    rw [List.toFinset_card_of_nodup hw.inodup, List.length_map]
  have hmem : ∀ i, i ∈ (g.verts.map VRec.idx).toFinset ↔ ∃ f, l[i]? = some (some f) := by
    intro i
    simp only [List.mem_toFinset, List.mem_map]
    constructor
    · rintro ⟨r, hr, rfl⟩; exact ⟨_, (h.at_ _ _).2 ⟨r, hr, rfl, rfl⟩⟩
    · rintro ⟨f, hf⟩
      obtain ⟨r, hr, h1, -⟩ := (h.at_ _ _).1 hf
      exact ⟨r, hr, h1⟩
  constructor
  · rintro hd ⟨l1, l2, l3, f, hl⟩
    have hsub : (g.verts.map VRec.idx).toFinset ⊆ Finset.range g.verts.length := by
      intro i hi
      simp only [List.mem_toFinset, List.mem_map] at hi
      obtain ⟨r, hr, rfl⟩ := hi
      exact Finset.mem_range.2 (hd r hr)
    have heq := Finset.eq_of_subset_of_card_le hsub (by simp [hcard])
    have hj : l1.length + 1 + l2.length ∈ (g.verts.map VRec.idx).toFinset := by
      refine (hmem _).2 ⟨f, ?_⟩
      rw [hl, List.getElem?_append_right (by omega)]
      have : l1.length + 1 + l2.length - l1.length = l2.length + 1 := by omega
      rw [this, List.getElem?_cons_succ, List.getElem?_append_right (by omega)]
      simp
    have hi : l1.length ∈ (g.verts.map VRec.idx).toFinset := by
      rw [heq, Finset.mem_range] at hj ⊢
      omega
    obtain ⟨f', hf'⟩ := (hmem _).1 hi
    rw [hl, List.getElem?_append_right (by omega)] at hf'
    simp at hf'
  · intro hg r hr
    have hall : Finset.range (r.idx + 1) ⊆ (g.verts.map VRec.idx).toFinset := by
      intro i hi
      rw [Finset.mem_range] at hi
      rw [hmem]
      have hrl := (h.at_ _ _).2 ⟨r, hr, rfl, rfl⟩
      have hlt : r.idx < l.length := (List.getElem?_eq_some_iff.1 hrl).1
      rcases Nat.lt_or_ge i r.idx with hlt' | hge
      · have hil : i < l.length := by omega
        cases hv : l[i] with
        | some f => exact ⟨f, by rw [List.getElem?_eq_getElem hil, hv]⟩
        | none =>
          exfalso
          refine hg ⟨l.take i, (l.drop (i + 1)).take (r.idx - i - 1), l.drop (r.idx + 1), FrameProp.getId r.prop, ?_⟩
          have e2 : l.drop r.idx = some (FrameProp.getId r.prop) :: l.drop (r.idx + 1) := by
            rw [List.drop_eq_getElem_cons hlt, (List.getElem?_eq_some_iff.1 hrl).2]
          have e3 : l.drop (i + 1) = (l.drop (i + 1)).take (r.idx - i - 1) ++ l.drop r.idx := by
            conv_lhs => rw [← List.take_append_drop (r.idx - i - 1) (l.drop (i + 1))]
            rw [List.drop_drop]
            congr 2
            omega
          have e1 : l.drop i = none :: l.drop (i + 1) := by rw [List.drop_eq_getElem_cons hil, hv]
          rw [← e2, ← e3, ← e1, List.take_append_drop]
      · have : i = r.idx := by omega
        subst this
        exact ⟨_, hrl⟩
    have := Finset.card_le_card hall
    rw [Finset.card_range, hcard] at this
    omega

theorem Slotted.run {cs : List (GS.Cmd F E)} {s : GS F E} (h : GS.run cs GS.init = some s) :
    Slotted s.g (slots (s.trace.map Prod.fst)) := by
  obtain ⟨l, h1, h2⟩ := GS.run_advances WF.empty h
  have h3 : s.trace = l := by rw [h2]; simp [GS.init]
  rw [h3]
  exact Slotted.steps h1 WF.empty Slotted.empty

namespace EG
variable {P : GS.Cmd EFrame E → Prop}

theorem Atom.slotted {s s' : EG E} (h : Atom P s s') (hw : WF s.gs.g)
    (hs : Slotted s.gs.g (slots (s.gs.trace.map Prod.fst))) : Slotted s'.gs.g (slots (s'.gs.trace.map Prod.fst)) := by
  cases h with
  | call hc hx =>
    obtain ⟨l, h1, h2⟩ := GS.exec_advances hw hx
    rw [h2, List.map_append, slots, List.foldl_append]
    exact Slotted.steps h1 hw hs
  | mod v hid =>
    refine hs.congr rfl ?_
    simp only [modFrame, G.modV, List.map_map]
    refine List.map_congr_left fun r _ => ?_
    simp only [Function.comp]
    split
    · exact congrArg _ (hid r.prop)
    · rfl
  | heap hp => exact hs
  | added f i =>
    simp only [notify, GS.notify, List.map_append, slots, List.foldl_append]
    exact hs
  | removed f i =>
    simp only [notify, GS.notify, List.map_append, slots, List.foldl_append]
    exact hs

theorem Chain.slotted {s s' : EG E} (h : Chain P s s') (hw : WF s.gs.g)
    (hs : Slotted s.gs.g (slots (s.gs.trace.map Prod.fst))) : Slotted s'.gs.g (slots (s'.gs.trace.map Prod.fst)) := by
  induction h with
  | refl => exact hs
  | tail h1 h2 ih => exact h2.slotted (Chain.wf h1 hw) ih

theorem slotted_run {cs : List (Cmd E)} {heap : ItemId → ItemObj} {s : EG E} (h : run cs (init heap) = some s) :
    Slotted s.gs.g (slots (s.gs.trace.map Prod.fst)) :=
  Chain.slotted (P := fun _ => True) (run_chain (fun c _ => c.within_true) h) WF.empty Slotted.empty

end EG
end Verif
