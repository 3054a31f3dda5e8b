import Verif.Lemmas.ItemChain
import Mathlib.Data.List.Perm.Basic
import Mathlib.Data.List.Nodup

set_option linter.unusedSectionVars false
set_option linter.unusedSimpArgs false
/-! The frame name that an item carries. -/

namespace Verif

theorem EFrame.get_perm {m : AMap TypeIdx (List ItemId)} {t : TypeIdx} {l : List ItemId} (h : AMap.get m t = some l) :
    ∃ rest, (m.flatMap (fun p => p.2)).Perm (l ++ rest) ∧
      ∀ l', ((AMap.set m t l').flatMap (fun p => p.2)).Perm (l' ++ rest) := by
  induction m with
  | nil => simp at h
  | cons p m ih =>
    obtain ⟨a, b⟩ := p
    rw [AMap.get_cons] at h
    by_cases ha : a = t
    · simp only [ha, if_true, Option.some.injEq] at h
      subst h
      exact ⟨m.flatMap (fun p => p.2), by simp, fun l' => by simp [AMap.set, ha]⟩
    · simp only [ha, if_false] at h
      obtain ⟨rest, h1, h2⟩ := ih h
      refine ⟨b ++ rest, ?_, fun l' => ?_⟩
      · simp only [List.flatMap_cons]
        exact (h1.append_left b).trans (by rw [← List.append_assoc, ← List.append_assoc]; exact List.perm_append_comm.append_right _)
      · simp only [AMap.set, ha, if_false, List.flatMap_cons]
        exact ((h2 l').append_left b).trans
          (by rw [← List.append_assoc, ← List.append_assoc]; exact List.perm_append_comm.append_right _)

theorem EFrame.get_none_set {m : AMap TypeIdx (List ItemId)} {t : TypeIdx} (h : AMap.get m t = none) (l' : List ItemId) :
    (AMap.set m t l').flatMap (fun p => p.2) = m.flatMap (fun p => p.2) ++ l' := by
  induction m with
  | nil => simp [AMap.set]
  | cons p m ih =>
    obtain ⟨a, b⟩ := p
    rw [AMap.get_cons] at h
    by_cases ha : a = t
    · simp [ha] at h
    · simp only [ha, if_false] at h
      simp only [AMap.set, ha, if_false, List.flatMap_cons, ih h, List.append_assoc]

theorem EFrame.push_perm (fr : EFrame) (t : TypeIdx) (i : ItemId) : (fr.push t i).visit.Perm (fr.visit ++ [i]) := by
  simp only [EFrame.push, EFrame.visit]
  cases h : AMap.get fr.items t with
  | none => simp only [Option.getD_none, List.nil_append]; rw [EFrame.get_none_set h]
  | some l =>
    obtain ⟨rest, h1, h2⟩ := EFrame.get_perm h
    simp only [Option.getD_some]
    refine (h2 _).trans (List.Perm.trans ?_ (h1.symm.append_right [i]))
    rw [List.append_assoc, List.append_assoc]
    exact List.perm_append_comm.append_left l

theorem EFrame.visit_eraseType (fr : EFrame) (t : TypeIdx) : (fr.eraseType t).visit.Sublist fr.visit := by
  simp only [EFrame.eraseType, EFrame.visit, AMap.erase]
  generalize fr.items = m
  induction m with
  | nil => simp
  | cons p m ih =>
    rw [List.filter_cons]
    split
    · simp only [List.flatMap_cons]; exact ih.append_left _
    · simp only [List.flatMap_cons]
      exact ih.trans (List.sublist_append_right _ _)

namespace EG
open GS
variable {E : Type} [EdgeProp E]

/-- `g'` has no items that `g` does not have -/
def Shrinks (g g' : G EFrame E) : Prop := ∀ r' ∈ g'.verts, r'.prop.visit = [] ∨
  ∃ r ∈ g.verts, r.prop.id = r'.prop.id ∧ r'.prop.visit.Sublist r.prop.visit

theorem Shrinks.refl (g : G EFrame E) : Shrinks g g := fun r hr => Or.inr ⟨r, hr, rfl, .refl _⟩

theorem Shrinks.trans {g g' g'' : G EFrame E} (h : Shrinks g g') (h' : Shrinks g' g'') : Shrinks g g'' := by
  intro r hr
  rcases h' r hr with h1 | ⟨r', hr', a, b⟩
  · exact Or.inl h1
  · rcases h r' hr' with h1 | ⟨r0, hr0, a', b'⟩
    · rw [h1] at b
      exact Or.inl (List.sublist_nil.1 b)
    · exact Or.inr ⟨r0, hr0, a'.trans a, b.trans b'⟩

/-- the call leaves the items alone and only takes items out of the graph -/
def Quiet (s s' : EG E) : Prop := s'.heap = s.heap ∧ (WF s.gs.g → WF s'.gs.g ∧ Shrinks s.gs.g s'.gs.g)

theorem Quiet.refl (s : EG E) : Quiet s s := ⟨rfl, fun h => ⟨h, .refl _⟩⟩

theorem Quiet.trans {s s' s'' : EG E} (h : Quiet s s') (h' : Quiet s' s'') : Quiet s s'' :=
  ⟨h'.1.trans h.1, fun hw => ⟨(h'.2 (h.2 hw).1).1, (h.2 hw).2.trans (h'.2 (h.2 hw).1).2⟩⟩

theorem base_quiet {c : GS.Cmd EFrame E} (hc : itemFree c) {s s' : EG E}
    (h : (base s.heap (GS.exec c s.gs)).st? = some s') : Quiet s s' := by
  have hh : (GS.exec c s.gs).st? = some s'.gs ∧ s'.heap = s.heap := by
    cases hx : GS.exec c s.gs <;> rw [hx] at h <;> simp only [base, Res.st?, Option.some.injEq, reduceCtorEq] at h <;>
      subst h <;> exact ⟨rfl, rfl⟩
  refine ⟨hh.2, fun hw => ⟨(GS.exec_advances hw hh.1).wf hw, fun r hr => ?_⟩⟩
  rcases (exec_keeps hc hh.1).2 r hr with h1 | h1
  · exact Or.inr ⟨r, h1, rfl, .refl _⟩
  · exact Or.inl (by simp [EFrame.visit, h1])

theorem clearFrame_quiet {f : FrameId} {s s' : EG E} (hw : WF s.gs.g) (h : (clearFrame f s).st? = some s') : Quiet s s' := by
  cases hv : s.gs.g.vertexOf f with
  | none =>
    simp only [clearFrame, hv, Res.st?, Option.some.injEq] at h
    subst h; exact .refl _
  | some v =>
    obtain ⟨r, tr, h1, h2, -⟩ := clearFrame_eq hw hv
    rw [h2] at h
    simp only [Res.st?, Option.some.injEq] at h
    subst h
    refine ⟨rfl, fun hw => ⟨hw.modV v (h := wipe) (fun _ => rfl), fun r hr => ?_⟩⟩
    obtain ⟨q, hq, rfl⟩ := G.mem_modV.1 hr
    split
    · exact Or.inl rfl
    · exact Or.inr ⟨q, hq, rfl, .refl _⟩

theorem removeFrame_quiet {f : FrameId} {s s' : EG E} (hw : WF s.gs.g) (h : (removeFrame f s).st? = some s') : Quiet s s' := by
  unfold EG.removeFrame at h
  split at h
  · rename_i s1 h1
    have hq := clearFrame_quiet hw (s' := s1) (by rw [h1]; rfl)
    refine hq.trans ?_
    unfold GS.removeFrame at h
    split at h
    · simp only [base, Res.st?, Option.some.injEq] at h
      subst h; exact .refl _
    · rename_i v hv
      split at h
      · simp only [base, Res.st?, Option.some.injEq] at h
        subst h; exact .refl _
      · rename_i hd
        simp only [base, Res.st?, Option.some.injEq] at h
        subst h
        exact ⟨rfl, fun hw1 => ⟨hw1.removeVertex hv (by omega),
          fun r hr => Or.inr ⟨r, (List.mem_filter.1 hr).1, rfl, .refl _⟩⟩⟩
  · rename_i s1 h1
    simp only [Res.st?, Option.some.injEq] at h
    subst h
    exact clearFrame_quiet hw (by rw [h1]; rfl)
  · simp [Res.st?] at h

theorem forFrames_quiet {call : FrameId → EG E → Res (EG E) Unit}
    (hcall : ∀ f s s', WF s.gs.g → (call f s).st? = some s' → Quiet s s') (fs : List FrameId) : ∀ {s s' : EG E}, WF s.gs.g →
    (forFrames call fs s).st? = some s' → Quiet s s' := by
  induction fs with
  | nil =>
    intro s s' hg h
    simp only [forFrames, Res.st?, Option.some.injEq] at h
    subst h; exact .refl _
  | cons f fs ih =>
    intro s s' hg h
    unfold forFrames at h
    split at h
    · rename_i s1 h1
      have hF := hcall f s s1 hg (by rw [h1]; rfl)
      exact hF.trans (ih (hF.2 hg).1 h)
    · rename_i s1 h1
      simp only [Res.st?, Option.some.injEq] at h
      subst h
      exact hcall f s _ hg (by rw [h1]; rfl)
    · simp [Res.st?] at h

theorem clear_quiet {s s' : EG E} (hw : WF s.gs.g) (h : (EG.clear s).st? = some s') : Quiet s s' := by
  have hd : ∀ f s s', WF s.gs.g → ((fun f (s : EG E) => base s.heap (GS.disconnectFrame f s.gs)) f s).st? = some s' →
      Quiet s s' := fun f s s' _ h => base_quiet (c := .disconnectFrame f) trivial h
  unfold EG.clear at h
  simp only at h
  split at h
  · rename_i s1 h1
    have hF := forFrames_quiet hd _ hw (s' := s1) (by rw [h1]; rfl)
    exact hF.trans (forFrames_quiet (fun f s s' hg h => removeFrame_quiet hg h) _ (hF.2 hw).1 h)
  · rename_i s1 h1
    simp only [Res.st?, Option.some.injEq] at h
    subst h
    exact forFrames_quiet hd _ hw (by rw [h1]; rfl)
  · simp [Res.st?] at h

/-- every stored item carries the name of the frame and is stored once -/
structure Named (s : EG E) : Prop where
  wf : WF s.gs.g
  nodup : ∀ r ∈ s.gs.g.verts, r.prop.visit.Nodup
  name : ∀ r ∈ s.gs.g.verts, ∀ i ∈ r.prop.visit, (s.heap i).frame = r.prop.id

theorem Named.quiet {s s' : EG E} (h : Named s) (hq : Quiet s s') : Named s' := by
  obtain ⟨h1, h2⟩ := hq
  obtain ⟨h3, h4⟩ := h2 h.wf
  refine ⟨h3, fun r hr => ?_, fun r hr i hi => ?_⟩
  · rcases h4 r hr with h5 | ⟨q, hq, -, h5⟩
    · rw [h5]; exact List.nodup_nil
    · exact (h.nodup q hq).sublist h5
  · rcases h4 r hr with h5 | ⟨q, hq, h6, h5⟩
    · rw [h5] at hi; simp at hi
    · rw [h1, ← h6]; exact h.name q hq i (h5.subset hi)

/-- an item is stored in no frame -/
def Stored (s : EG E) (i : ItemId) : Prop := ∃ r ∈ s.gs.g.verts, i ∈ r.prop.visit

theorem Named.add {s s' : EG E} (h : Named s) {f : FrameId} {i : ItemId} (hi : ¬ Stored s i)
    (hx : (addItemToFrame f i s).st? = some s') : Named s' := by
  have hw := (addItemToFrame_chain (P := fun _ => True) hx).wf h.wf
  cases hv : s.gs.g.vertexOf f with
  | none =>
    simp only [addItemToFrame, hv, Res.st?, Option.some.injEq] at hx
    subst hx; exact h
  | some v =>
    simp only [addItemToFrame, hv, Res.st?, Option.some.injEq] at hx
    subst hx
    have hid : ∀ q ∈ s.gs.g.verts, q.id = v → q.prop.id = f := by
      intro q hq hqv
      obtain ⟨r, hr, h1, h2⟩ := h.wf.vertexOf_iff.1 hv
      rw [map_inj_of_nodup h.wf.vnodup hq hr (hqv.trans h1.symm)]; exact h2
    refine ⟨hw, fun r hr => ?_, fun r hr j hj => ?_⟩
    · obtain ⟨q, hq, rfl⟩ := G.mem_modV.1 hr
      have hni : i ∉ q.prop.visit := fun hh => hi ⟨q, hq, hh⟩
      split
      · refine (EFrame.push_perm _ _ _).nodup_iff.2 ?_
        rw [List.nodup_append]
        refine ⟨h.nodup q hq, by simp, ?_⟩
        intro a ha b hb
        simp only [List.mem_singleton] at hb
        subst hb
        rintro rfl; exact hni ha
      · exact h.nodup q hq
    · obtain ⟨q, hq, rfl⟩ := G.mem_modV.1 hr
      have hni : i ∉ q.prop.visit := fun hh => hi ⟨q, hq, hh⟩
      show ((setItemFrame i f (modFrame v (EFrame.push (s.heap i).type i) s)).heap j).frame = _
      rw [setItemFrame_frame]
      split at hj
      · rename_i hqv
        rw [if_pos hqv]
        have := (EFrame.push_perm q.prop (s.heap i).type i).mem_iff.1 hj
        rw [List.mem_append, List.mem_singleton] at this
        rcases this with h1 | rfl
        · have hji : j ≠ i := by rintro rfl; exact hni h1
          rw [if_neg hji]; exact h.name q hq j h1
        · rw [if_pos rfl]; exact (hid q hq hqv).symm
      · rename_i hqv
        rw [if_neg hqv]
        have hji : j ≠ i := by rintro rfl; exact hni hj
        rw [if_neg hji]; exact h.name q hq j hj

theorem Named.drop {s s' : EG E} (h : Named s) (hw : WF s'.gs.g) {v : VId} {r : VRec EFrame} (hr : s.gs.g.findV v = some r) {i : ItemId}
    (hn : (s.heap i).frame = r.prop.id) {k : EFrame → EFrame} (hv : s'.gs.g.verts = (s.gs.g.modV v k).verts) (hid : (k r.prop).id = r.prop.id)
    (hnd : (k r.prop).visit.Nodup) (hk : ∀ j ∈ (k r.prop).visit, j ∈ r.prop.visit ∧ j ≠ i)
    (hheap : ∀ j, j ≠ i → s'.heap j = s.heap j) : Named s' ∧ ¬ Stored s' i := by
  have huniq : ∀ q ∈ s.gs.g.verts, q.id = v → q = r := fun q hq hqv =>
    map_inj_of_nodup h.wf.vnodup hq (G.findV_some hr).1 (hqv.trans (G.findV_some hr).2.symm)
  have hother : ∀ q ∈ s.gs.g.verts, q.id ≠ v → i ∉ q.prop.visit := by
    intro q hq hqv hi
    have h1 := h.name q hq i hi
    rw [hn] at h1
    have h2 := h.wf.vertexOf_iff.2 ⟨q, hq, rfl, rfl⟩
    have h3 := h.wf.vertexOf_iff.2 ⟨r, (G.findV_some hr).1, (G.findV_some hr).2, rfl⟩
    have h4 : FrameProp.getId r.prop = FrameProp.getId q.prop := h1
    rw [h4, h2] at h3
    exact hqv (Option.some.inj h3)
  refine ⟨⟨hw, fun q' hq' => ?_, fun q' hq' j hj => ?_⟩, ?_⟩
  · rw [hv] at hq'
    obtain ⟨q, hq, rfl⟩ := G.mem_modV.1 hq'
    split
    · rename_i hqv; rw [huniq q hq hqv]; exact hnd
    · exact h.nodup q hq
  · rw [hv] at hq'
    obtain ⟨q, hq, rfl⟩ := G.mem_modV.1 hq'
    split at hj
    · rename_i hqv
      rw [if_pos hqv]
      rw [huniq q hq hqv] at hj ⊢
      obtain ⟨a, b⟩ := hk j hj
      rw [hheap j b]
      show _ = (k r.prop).id
      rw [hid]
      exact h.name r (G.findV_some hr).1 j a
    · rename_i hqv
      rw [if_neg hqv]
      have : j ≠ i := by rintro rfl; exact hother q hq hqv hj
      rw [hheap j this]
      exact h.name q hq j hj
  · rintro ⟨q', hq', hi⟩
    rw [hv] at hq'
    obtain ⟨q, hq, rfl⟩ := G.mem_modV.1 hq'
    split at hi
    · rename_i hqv
      rw [huniq q hq hqv] at hi
      exact (hk i hi).2 rfl
    · rename_i hqv; exact hother q hq hqv hi

theorem drop_visit {fr : EFrame} {t : TypeIdx} {l : List ItemId} {i : ItemId} (hn : fr.visit.Nodup) (hl : fr.items.get t = some l)
    (hi : i ∈ l) : (fr.setList t (l.erase i)).visit.Nodup ∧ ∀ j ∈ (fr.setList t (l.erase i)).visit, j ∈ fr.visit ∧ j ≠ i := by
  obtain ⟨rest, h1, h2⟩ := EFrame.get_perm hl
  have h3 : (l ++ rest).Nodup := h1.nodup_iff.1 hn
  rw [List.nodup_append] at h3
  obtain ⟨a, b, c⟩ := h3
  have h4 := h2 (l.erase i)
  refine ⟨h4.nodup_iff.2 ?_, ?_⟩
  · rw [List.nodup_append]
    exact ⟨a.erase i, b, fun x hx y hy => c x (List.mem_of_mem_erase hx) y hy⟩
  · intro j hj
    have hj' := h4.mem_iff.1 hj
    rw [List.mem_append] at hj'
    constructor
    · apply h1.mem_iff.2
      rw [List.mem_append]
      exact hj'.imp List.mem_of_mem_erase id
    · rintro rfl
      rcases hj' with hj' | hj'
      · exact a.not_mem_erase hj'
      · exact c j hi j hj' rfl

theorem removeItem_throw {s s' : EG E} {i : ItemId} {x : Exn} (hx : removeItem i s = .throw x s') : s' = s := by
  unfold removeItem at hx
  simp only at hx
  split at hx
  · simp only [Res.throw.injEq] at hx; exact hx.2.symm
  · split at hx
    · cases hx
    · split at hx
      · simp only [Res.throw.injEq] at hx; exact hx.2.symm
      · split at hx
        · cases hx
        · simp only [Res.throw.injEq] at hx; exact hx.2.symm

theorem Named.removeOk {s s' : EG E} (h : Named s) {i : ItemId} (hx : removeItem i s = .ok () s') : Named s' ∧ ¬ Stored s' i := by
  have hw := (removeItem_chain (P := fun _ => True) (i := i) (s := s) (s' := s') (by rw [hx]; rfl)).wf h.wf
  unfold removeItem at hx
  simp only at hx
  split at hx
  · cases hx
  · rename_i v hv
    split at hx
    · cases hx
    · rename_i r hr
      split at hx
      · cases hx
      · rename_i l hl
        split at hx
        · rename_i hi
          simp only [Res.ok.injEq, true_and] at hx
          obtain ⟨d1, d2⟩ := drop_visit (h.nodup r (G.findV_some hr).1) hl hi
          obtain ⟨r', hr', hid⟩ := h.wf.live_of_vertexOf hv
          rw [hr] at hr'; cases hr'
          have hheap : ∀ j, j ≠ i → s'.heap j = s.heap j := by
            intro j hj
            subst hx
            split <;> simp [notify, setItemFrame, modFrame, hj]
          by_cases h0 : (l.erase i).length = 0
          · refine h.drop hw hr hid.symm (k := EFrame.eraseType (s.heap i).type ∘ EFrame.setList (s.heap i).type (l.erase i)) ?_ rfl
              (d1.sublist (EFrame.visit_eraseType _ _)) (fun j hj => d2 j ((EFrame.visit_eraseType _ _).subset hj)) hheap
            subst hx
            rw [if_pos h0, ← G.modV_modV]; rfl
          · refine h.drop hw hr hid.symm (k := EFrame.setList (s.heap i).type (l.erase i)) ?_ rfl d1 d2 hheap
            subst hx
            rw [if_neg h0]; rfl
        · cases hx

theorem Named.remove {s s' : EG E} (h : Named s) {i : ItemId} (hx : (removeItem i s).st? = some s') : Named s' := by
  cases hr : removeItem i s with
  | ok u s1 =>
    rw [hr] at hx
    simp only [Res.st?, Option.some.injEq] at hx
    subst hx; exact (h.removeOk hr).1
  | throw x s1 =>
    rw [hr] at hx
    simp only [Res.st?, Option.some.injEq] at hx
    subst hx
    rw [removeItem_throw hr]; exact h
  | ub m => rw [hr] at hx; simp [Res.st?] at hx

theorem Named.removeAt {s s' : EG E} (h : Named s) {f : FrameId} {it : ItemIt} (hx : (removeItemAt f it s).st? = some s') :
    Named s' := by
  have hw := (removeItemAt_chain (P := fun _ => True) hx).wf h.wf
  unfold removeItemAt at hx
  split at hx
  · simp only [Res.st?, Option.some.injEq] at hx; subst hx; exact h
  · rename_i v hv
    split at hx
    · simp [Res.st?] at hx
    · rename_i i hi
      split at hx
      · simp [Res.st?] at hx
      · rename_i hfr
        simp only [ne_eq, not_not] at hfr
        split at hx
        · simp only [Res.st?, Option.some.injEq] at hx; subst hx; exact h
        · rename_i l hl
          split at hx
          · simp [Res.st?] at hx
          · rename_i hitf
            simp only [ne_eq, not_not] at hitf
            rw [hitf, hl] at hi
            simp only [Option.bind_some] at hi
            simp only [listOf, hv, Option.bind_some] at hl
            cases hr : s.gs.g.findV v with
            | none => simp [hr] at hl
            | some r =>
              simp only [hr, Option.bind_some] at hl
              simp only [Res.st?, Option.some.injEq] at hx
              obtain ⟨hpos, hget⟩ := List.getElem?_eq_some_iff.1 hi
              have him : i ∈ l := hget ▸ List.getElem_mem hpos
              have hnd := h.nodup r (G.findV_some hr).1
              have hln : l.Nodup := by
                obtain ⟨rest, h1, -⟩ := EFrame.get_perm hl
                exact (List.nodup_append.1 (h1.nodup_iff.1 hnd)).1
              have her : l.eraseIdx it.pos = l.erase i := by
                rw [← hget, hln.erase_getElem]
              obtain ⟨d1, d2⟩ := drop_visit hnd hl him
              obtain ⟨r', hr', hid⟩ := h.wf.live_of_vertexOf hv
              rw [hr] at hr'; cases hr'
              have hheap : ∀ j, j ≠ i → s'.heap j = s.heap j := by
                intro j hj
                subst hx
                split <;> simp [notify, setItemFrame, modFrame, hj]
              rw [her] at hx
              by_cases h0 : (l.erase i).drop it.pos = []
              · refine (h.drop hw hr (hfr.trans hid.symm)
                  (k := EFrame.eraseType it.type ∘ EFrame.setList it.type (l.erase i)) ?_ rfl
                  (d1.sublist (EFrame.visit_eraseType _ _)) (fun j hj => d2 j ((EFrame.visit_eraseType _ _).subset hj)) hheap).1
                subst hx
                rw [if_pos h0, ← G.modV_modV]; rfl
              · refine (h.drop hw hr (hfr.trans hid.symm) (k := EFrame.setList it.type (l.erase i)) ?_ rfl d1 d2 hheap).1
                subst hx
                rw [if_neg h0]; rfl

/-- the item that the call adds, removes or renames -/
def Cmd.item (s : EG E) : Cmd E → Option ItemId
  | .addItem i | .addItemToFrame _ i | .removeItem i | .setItemFrame i _ => some i
  | .removeItemAt _ it => (listOf it.frame it.type s).bind (fun l => l[it.pos]?)
  | _ => none

theorem base_heap {α : Type} {heap : ItemId → ItemObj} {x : Res (GS EFrame E) α} {s : EG E} (h : (base heap x).st? = some s) :
    s.heap = heap := by
  cases x <;> simp only [base, Res.st?, Option.some.injEq, reduceCtorEq] at h <;> subst h <;> rfl

theorem clearList_heap (f : FrameId) (v : VId) (t : TypeIdx) (l : List ItemId) : ∀ s : EG E, (clearList f v t l s).heap = s.heap := by
  induction l with
  | nil => intro s; rfl
  | cons i l ih => intro s; rw [clearList, ih]; rfl

theorem clearTypes_heap (f : FrameId) (v : VId) (m : AMap TypeIdx (List ItemId)) : ∀ s : EG E, (clearTypes f v m s).heap = s.heap := by
  induction m with
  | nil => intro s; rfl
  | cons p m ih => intro s; rw [clearTypes, ih]; exact clearList_heap _ _ _ _ _

theorem clearFrame_heap {f : FrameId} {s s' : EG E} (h : (clearFrame f s).st? = some s') : s'.heap = s.heap := by
  unfold clearFrame at h
  split at h
  · simp only [Res.st?, Option.some.injEq] at h; subst h; rfl
  · split at h
    · simp [Res.st?] at h
    · simp only [Res.st?, Option.some.injEq] at h; subst h; exact clearTypes_heap _ _ _ _

theorem removeFrame_heap {f : FrameId} {s s' : EG E} (h : (removeFrame f s).st? = some s') : s'.heap = s.heap := by
  unfold EG.removeFrame at h
  split at h
  · rename_i s1 h1
    exact (base_heap h).trans (clearFrame_heap (by rw [h1]; rfl))
  · rename_i s1 h1
    simp only [Res.st?, Option.some.injEq] at h
    subst h
    exact clearFrame_heap (by rw [h1]; rfl)
  · simp [Res.st?] at h

theorem forFrames_heap {call : FrameId → EG E → Res (EG E) Unit}
    (hcall : ∀ f s s', (call f s).st? = some s' → s'.heap = s.heap) (fs : List FrameId) : ∀ {s s' : EG E},
    (forFrames call fs s).st? = some s' → s'.heap = s.heap := by
  induction fs with
  | nil =>
    intro s s' h
    simp only [forFrames, Res.st?, Option.some.injEq] at h
    subst h; rfl
  | cons f fs ih =>
    intro s s' h
    unfold forFrames at h
    split at h
    · rename_i s1 h1
      exact (ih h).trans (hcall f s s1 (by rw [h1]; rfl))
    · rename_i s1 h1
      simp only [Res.st?, Option.some.injEq] at h
      subst h
      exact hcall f s _ (by rw [h1]; rfl)
    · simp [Res.st?] at h

/-- Only the item that a call is about changes. -/
theorem exec_heap {c : Cmd E} {s s' : EG E} (h : (exec c s).st? = some s') {i : ItemId} (hi : c.item s ≠ some i) :
    s'.heap i = s.heap i := by
  cases c with
  | graph c =>
    cases c with
    | removeFrame f => rw [removeFrame_heap h]
    | emplaceFrame f p => rw [base_heap h]
    | addFrame f => rw [base_heap h]
    | disconnectFrame f => rw [base_heap h]
    | addEdge o t p => rw [base_heap h]
    | removeEdge o t => rw [base_heap h]
    | setEdge o t p => rw [base_heap h]
    | getTree f k p => rw [base_heap h]
    | unsubscribeView p =>
      have h' : (base s.heap (GS.exec (.unsubscribeView p) s.gs)).st? = some s' := h
      rw [base_heap h']
  | addItem j =>
    simp only [Cmd.item, ne_eq, Option.some.injEq] at hi
    simp only [exec, addItem, addItemToFrame] at h
    split at h <;> simp only [Res.st?, Option.some.injEq] at h <;> subst h
    · rfl
    · simp [notify, setItemFrame, modFrame, Ne.symm hi]
  | addItemToFrame f j =>
    simp only [Cmd.item, ne_eq, Option.some.injEq] at hi
    simp only [exec, addItemToFrame] at h
    split at h <;> simp only [Res.st?, Option.some.injEq] at h <;> subst h
    · rfl
    · simp [notify, setItemFrame, modFrame, Ne.symm hi]
  | removeItem j =>
    simp only [Cmd.item, ne_eq, Option.some.injEq] at hi
    simp only [exec, removeItem] at h
    split at h
    · simp only [Res.st?, Option.some.injEq] at h; subst h; rfl
    · split at h
      · simp [Res.st?] at h
      · split at h
        · simp only [Res.st?, Option.some.injEq] at h; subst h; rfl
        · split at h
          · simp only [Res.st?, Option.some.injEq] at h; subst h
            split <;> simp [notify, setItemFrame, modFrame, Ne.symm hi]
          · simp only [Res.st?, Option.some.injEq] at h; subst h; rfl
  | removeItemAt f it =>
    simp only [Cmd.item] at hi
    simp only [exec, GS.st?_discard, removeItemAt] at h
    split at h
    · simp only [Res.st?, Option.some.injEq] at h; subst h; rfl
    · split at h
      · simp [Res.st?] at h
      · rename_i j hj
        rw [hj] at hi
        simp only [ne_eq, Option.some.injEq] at hi
        split at h
        · simp [Res.st?] at h
        · split at h
          · simp only [Res.st?, Option.some.injEq] at h; subst h; rfl
          · split at h
            · simp [Res.st?] at h
            · simp only [Res.st?, Option.some.injEq] at h; subst h
              split <;> simp [notify, setItemFrame, modFrame, Ne.symm hi]
  | clearFrame f => rw [clearFrame_heap h]
  | clear =>
    simp only [exec, EG.clear] at h
    have hd : ∀ f (s s' : EG E), ((fun f (s : EG E) => base s.heap (GS.disconnectFrame f s.gs)) f s).st? = some s' →
      s'.heap = s.heap := fun f s s' h => base_heap h
    split at h
    · rename_i s1 h1
      rw [forFrames_heap (fun f s s' h => removeFrame_heap h) _ h, forFrames_heap hd _ (s' := s1) (by rw [h1]; rfl)]
    · rename_i s1 h1
      simp only [Res.st?, Option.some.injEq] at h
      subst h
      rw [forFrames_heap hd _ (by rw [h1]; rfl)]
    · simp [Res.st?] at h
  | setItemFrame j f =>
    simp only [Cmd.item, ne_eq, Option.some.injEq] at hi
    simp only [exec, Res.st?, Option.some.injEq] at h
    subst h
    simp [setItemFrame, Ne.symm hi]

theorem stored_iff {s : EG E} (hw : WF s.gs.g) {i : ItemId} : Stored s i ↔ ∃ x l, visitItems x s = .ok l s ∧ i ∈ l := by
  constructor
  · rintro ⟨r, hr, hi⟩
    refine ⟨r.prop.id, r.prop.visit, ?_, hi⟩
    have h1 : s.gs.g.vertexOf r.prop.id = some r.id := hw.vertexOf_iff.2 ⟨r, hr, rfl, rfl⟩
    have h2 : s.gs.g.findV r.id = some r := hw.findV_iff.2 ⟨hr, rfl⟩
    simp only [visitItems, readFrame, h1, h2]
  · rintro ⟨x, l, h, hi⟩
    cases hv : s.gs.g.vertexOf x with
    | none => simp [visitItems, readFrame, hv] at h
    | some v =>
      cases hr : s.gs.g.findV v with
      | none => simp [visitItems, readFrame, hv, hr] at h
      | some r =>
        simp only [visitItems, readFrame, hv, hr, Res.ok.injEq, and_true] at h
        exact ⟨r, (G.findV_some hr).1, h ▸ hi⟩

theorem Named.exec {c : EG.Cmd E} {s s' : EG E} (h : Named s)
    (h1 : ∀ i f, (c = .addItem i ∨ c = .addItemToFrame f i ∨ c = .setItemFrame i f) → ∀ x l, visitItems x s = .ok l s → i ∉ l)
    (h2 : ∀ f p, c = .graph (.emplaceFrame f p) → p.items = []) (hx : (EG.exec c s).st? = some s') : Named s' := by
  have hni : ∀ i f, (c = .addItem i ∨ c = .addItemToFrame f i ∨ c = .setItemFrame i f) → ¬ Stored s i := by
    intro i f hc hst
    obtain ⟨x, l, h3, h4⟩ := (stored_iff h.wf).1 hst
    exact h1 i f hc x l h3 h4
  cases c with
  | graph c =>
    cases c with
    | removeFrame f => exact h.quiet (removeFrame_quiet h.wf hx)
    | emplaceFrame f p => exact h.quiet (base_quiet (c := .emplaceFrame f p) (h2 f p rfl) hx)
    | addFrame f => exact h.quiet (base_quiet (c := .addFrame f) trivial hx)
    | disconnectFrame f => exact h.quiet (base_quiet (c := .disconnectFrame f) trivial hx)
    | addEdge o t p => exact h.quiet (base_quiet (c := .addEdge o t p) trivial hx)
    | removeEdge o t => exact h.quiet (base_quiet (c := .removeEdge o t) trivial hx)
    | setEdge o t p => exact h.quiet (base_quiet (c := .setEdge o t p) trivial hx)
    | getTree f k p => exact h.quiet (base_quiet (c := .getTree f k p) trivial hx)
    | unsubscribeView p => exact h.quiet (base_quiet (c := .unsubscribeView p) trivial hx)
  | addItem i => exact h.add (hni i "" (Or.inl rfl)) hx
  | addItemToFrame f i => exact h.add (hni i f (Or.inr (Or.inl rfl))) hx
  | removeItem i => exact h.remove hx
  | removeItemAt f it => exact h.removeAt (by simpa only [EG.exec, GS.st?_discard] using hx)
  | clearFrame f => exact h.quiet (clearFrame_quiet h.wf hx)
  | clear => exact h.quiet (clear_quiet h.wf hx)
  | setItemFrame i f =>
    have hn := hni i f (Or.inr (Or.inr rfl))
    simp only [EG.exec, Res.st?, Option.some.injEq] at hx
    subst hx
    refine ⟨h.wf, h.nodup, fun r hr j hj => ?_⟩
    have : j ≠ i := by rintro rfl; exact hn ⟨r, hr, hj⟩
    rw [setItemFrame_frame, if_neg this]
    exact h.name r hr j hj

end EG
end Verif
