import Verif.Lemmas.ItemTidy

set_option linter.unusedSectionVars false
set_option linter.unusedSimpArgs false
/-! Histories keep every item in the list of its type. -/

namespace Verif
variable {E : Type} [EdgeProp E] {ty : ItemId → TypeIdx}

/-- every item is in the list of its type -/
def EFrame.Typed (ty : ItemId → TypeIdx) (fr : EFrame) : Prop := ∀ p ∈ fr.items, ∀ i ∈ p.2, ty i = p.1

/-- in every frame -/
def AllTyped (ty : ItemId → TypeIdx) (g : G EFrame E) : Prop := ∀ r ∈ g.verts, r.prop.Typed ty

theorem holds_flatMap : ∀ (m : AMap TypeIdx (List ItemId)), m.keys.Nodup → (∀ p ∈ m, ∀ i ∈ p.2, ty i = p.1) → ∀ t,
    (m.get t).getD [] = (m.flatMap (fun p => p.2)).filter (fun i => ty i = t) := by
  intro m
  induction m with
  | nil => intro _ _ t; rfl
  | cons p m ih =>
    obtain ⟨a, l⟩ := p
    intro hn ht t
    simp only [AMap.keys, List.map_cons, List.nodup_cons] at hn
    rw [List.flatMap_cons, List.filter_append, AMap.get, ← ih hn.2 (fun p hp => ht p (by simp [hp])) t]
    by_cases h : a = t
    · subst h
      have h1 : AMap.get m a = none := by
        cases hg : AMap.get m a with
        | none => rfl
        | some v => exact absurd (List.mem_map.2 ⟨_, AMap.mem_of_get hg, rfl⟩) hn.1
      have h2 : l.filter (fun i => decide (ty i = a)) = l :=
        List.filter_eq_self.2 (fun i hi => by simpa using ht (a, l) (by simp) i hi)
      simp [h1, h2]
    · have h2 : l.filter (fun i => decide (ty i = t)) = [] :=
        List.filter_eq_nil_iff.2 (fun i hi => by simpa [ht (a, l) (by simp) i hi] using h)
      simp [h, h2]

theorem stocked_of_typed {g : G EFrame E} (hw : WF g) (hT : AllTidy g) (hy : AllTyped ty g) : ∃ M, Stocked ty g M := by
  refine ⟨fun f => match g.verts.find? (fun r => r.prop.id = f) with
    | some r => r.prop.items.flatMap (fun p => p.2)
    | none => [], ?_, ?_⟩
  · intro r hr
    have : g.verts.find? (fun q => q.prop.id = r.prop.id) = some r := by
      cases h : g.verts.find? (fun q => q.prop.id = r.prop.id) with
      | none => have := List.find?_eq_none.1 h r hr; simp at this
      | some q =>
        have h1 := List.mem_of_find?_eq_some h
        have h2 := List.find?_some h
        simp only [decide_eq_true_eq] at h2
        rw [hw.name_inj h1 hr h2]
    rw [this]
    exact holds_flatMap _ (hT r hr).nodup (hy r hr)
  · intro f hf
    have : g.verts.find? (fun q => q.prop.id = f) = none := by
      rw [List.find?_eq_none]
      intro r hr
      have : r.prop.id ≠ f := hw.vertexOf_none.1 hf r hr
      simpa using this
    rw [this]

theorem typed_of_stocked {g : G EFrame E} {M : Shelf} (hT : AllTidy g) (hM : Stocked ty g M) : AllTyped ty g := by
  intro r hr p hp i hi
  have := (hM.holds r hr).get_some (AMap.get_of_mem (hT r hr).nodup (k := p.1) (v := p.2) hp)
  rw [this] at hi
  simpa using (List.mem_filter.1 hi).2

namespace EG
open GS

/-- The call does not bring in a frame with a type entry that is empty, doubled or has items of another type. -/
def Cmd.typed (ty : ItemId → TypeIdx) : Cmd E → Prop
  | .graph (.emplaceFrame _ p) => p.Tidy ∧ p.Typed ty
  | _ => True

theorem Cmd.typed.tidy {c : Cmd E} (h : c.typed ty) : c.tidy := by
  cases c with
  | graph c => cases c <;> first | exact h.1 | trivial
  | _ => trivial

theorem AllTyped.modV {g : G EFrame E} (h : AllTyped ty g) {v : VId} {k : EFrame → EFrame}
    (hk : ∀ r, r ∈ g.verts → r.id = v → r.prop.Typed ty → (k r.prop).Typed ty) : AllTyped ty (g.modV v k) := by
  intro r hr
  obtain ⟨q, hq, rfl⟩ := G.mem_modV.1 hr
  split
  · rename_i hv; exact hk q hq hv (h q hq)
  · exact h q hq

theorem typed_eraseType {fr : EFrame} (h : fr.Typed ty) (t : TypeIdx) : (fr.eraseType t).Typed ty := by
  intro p hp
  exact h p (List.mem_filter.1 hp).1

theorem mem_set {K V : Type} [DecidableEq K] {m : AMap K V} {k : K} {v : V} {p : K × V} (h : p ∈ m.set k v) : p ∈ m ∨ p = (k, v) := by
  induction m with
  | nil => simpa [AMap.set] using h
  | cons q m ih =>
    obtain ⟨a, b⟩ := q
    rw [AMap.set] at h
    split at h
    · rcases List.mem_cons.1 h with h | h
      · exact Or.inr h
      · exact Or.inl (by simp [h])
    · rcases List.mem_cons.1 h with h | h
      · exact Or.inl (by simp [h])
      · exact (ih h).imp (fun h => by simp [h]) id

theorem typed_setList {fr : EFrame} (h : fr.Typed ty) {t : TypeIdx} {l : List ItemId} (hl : ∀ i ∈ l, ty i = t) :
    (fr.setList t l).Typed ty := by
  intro p hp i hi
  rcases mem_set hp with hp | rfl
  · exact h p hp i hi
  · exact hl i hi

theorem removeItemAt_typed {f : FrameId} {it : ItemIt} {s s' : EG E} (hy : AllTyped ty s.gs.g)
    (h : (removeItemAt f it s).st? = some s') : AllTyped ty s'.gs.g := by
  unfold removeItemAt at h
  split at h
  · simp only [Res.st?, Option.some.injEq] at h; subst h; exact hy
  · rename_i v hv
    split at h
    · simp [Res.st?] at h
    · rename_i i hi
      split at h
      · simp [Res.st?] at h
      · split at h
        · simp only [Res.st?, Option.some.injEq] at h; subst h; exact hy
        · rename_i l hl
          split at h
          · simp [Res.st?] at h
          · simp only [Res.st?, Option.some.injEq] at h; subst h
            have hll : ∀ j ∈ l.eraseIdx it.pos, ty j = it.type := by
              intro j hj
              have hj := List.mem_of_mem_eraseIdx hj
              simp only [listOf, hv, Option.bind_some] at hl
              obtain ⟨r, hr, hl⟩ := Option.bind_eq_some_iff.1 hl
              exact hy r (G.findV_some hr).1 _ (AMap.mem_of_get hl) j hj
            have key := AllTyped.modV (v := v) hy (k := EFrame.setList it.type (l.eraseIdx it.pos)) (fun r _ _ h => typed_setList h hll)
            split
            · exact AllTyped.modV (v := v) key (fun r _ _ h => typed_eraseType h it.type)
            · exact key

theorem emplaceFrame_typed {f : FrameId} {p : EFrame} (hp : p.Typed ty) {s s' : EG E} (hy : AllTyped ty s.gs.g)
    (h : (base s.heap (GS.exec (.emplaceFrame f p) s.gs)).st? = some s') : AllTyped ty s'.gs.g := by
  cases hv : s.gs.g.vertexOf f with
  | some v =>
    simp only [GS.exec, emplaceFrame, hv, GS.discard, base, Res.st?, Option.some.injEq] at h
    subst h; exact hy
  | none =>
    simp only [GS.exec, emplaceFrame, hv, GS.discard, base, Res.st?, Option.some.injEq] at h
    subst h
    intro r hr
    simp only [addVertexN, GS.notify, G.addVertex] at hr
    split at hr
    · exact hy r hr
    · rcases List.mem_append.1 hr with hr | hr
      · exact hy r hr
      · simp only [List.mem_singleton] at hr
        subst hr; exact hp

theorem exec_typed {c : Cmd E} (hc : c.typed ty) {s s' : EG E} (hg : EG.Good ty s) (hy : AllTyped ty s.gs.g)
    (h : (exec c s).st? = some s') : AllTyped ty s'.gs.g := by
  have key : c.byPointer → AllTyped ty s'.gs.g := by
    intro hb
    obtain ⟨M, hM⟩ := stocked_of_typed hg.wf hg.tidy hy
    obtain ⟨hg', l, -, h2⟩ := exec_follows hb hg h
    exact typed_of_stocked hg'.tidy (h2 M hM)
  cases c with
  | graph c => 
    cases c with
    | emplaceFrame f p => exact emplaceFrame_typed hc.2 hy h
    | _ => exact key trivial
  | removeItemAt f it => exact removeItemAt_typed hy (by simpa only [exec, GS.st?_discard] using h)
  | _ => exact key trivial

theorem run_typed {cs : List (Cmd E)} : (∀ c ∈ cs, c.typed ty) → ∀ {s s' : EG E}, EG.Good ty s → AllTyped ty s.gs.g → run cs s = some s' →
    EG.Good ty s' ∧ AllTyped ty s'.gs.g := by
  induction cs with
  | nil =>
    intro _ s s' hg hy h
    simp only [run, Option.some.injEq] at h
    subst h; exact ⟨hg, hy⟩
  | cons c cs ih =>
    intro hcs s s' hg hy h
    obtain ⟨s1, h1, h2⟩ := run_cons h
    exact ih (fun c hc => hcs c (by simp [hc])) (exec_good (hcs c (by simp)).tidy hg h1) (exec_typed (hcs c (by simp)) hg hy h1) h2

theorem AllTyped.init (heap : ItemId → ItemObj) : AllTyped ty (EG.init (E := E) heap).gs.g := by
  intro r hr; simp [EG.init, GS.init, G.empty] at hr

end EG
end Verif
