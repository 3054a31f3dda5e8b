import Verif.Lemmas.ItemRestore
/-! # C41: removing an item through an iterator removes only that item -/

namespace Verif
open EG
variable {E : Type} [EdgeProp E]

def C41_heap (_ : ItemId) : ItemObj := ⟨7, ""⟩

/-- The property fails for the last of several items: the other items of that type are gone too and nobody is told. -/
theorem C41_last_of_several_fails : ∃ s s' : EG Int,
    run [.graph (.addFrame "a"), .addItemToFrame "a" 0, .addItemToFrame "a" 1, .addItemToFrame "a" 2] (init C41_heap) = some s ∧
    removeItemAt "a" ⟨"a", 7, 2⟩ s = .ok [] s' ∧
    getItems "a" 7 s = .ok [0, 1, 2] s ∧ getItems "a" 7 s' = .throw (.noItemsOfType "a") s' ∧
    s'.gs.trace.map Prod.fst = s.gs.trace.map Prod.fst ++ [.itemRemoved "a" 2] ∧
    (s'.heap 0).frame = "a" :=
  ⟨_, _, rfl, rfl, rfl, rfl, rfl, rfl⟩

/-- Not only in one graph: in every state, if the iterator points to the last item of its type in the frame, then afterwards the
frame has no items of that type, however many there were. -/
theorem C41_last_removes_all (heap : ItemId → ItemObj) (cs : List (Cmd E)) {s : EG E} (hs : run cs (init heap) = some s)
    {f : FrameId} {t : TypeIdx} {l : List ItemId} {i : ItemId} (hl : getItems f t s = .ok (l ++ [i]) s)
    (hfr : (s.heap i).frame = f) :
    ∃ s', removeItemAt f ⟨f, t, l.length⟩ s = .ok [] s' ∧ getItems f t s' = .throw (.noItemsOfType f) s' ∧
      s'.gs.trace.map Prod.fst = s.gs.trace.map Prod.fst ++ [.itemRemoved f i] := by
  have hw := run_wf hs
  unfold getItems at hl
  cases hv : s.gs.g.vertexOf f with
  | none => simp [hv] at hl
  | some v =>
    simp only [hv] at hl
    cases hr : s.gs.g.findV v with
    | none => simp [hr] at hl
    | some r =>
      simp only [hr] at hl
      cases hg : r.prop.items.get t with
      | none => simp [hg] at hl
      | some l0 =>
        simp only [hg, Res.ok.injEq, and_true] at hl
        subst hl
        have hrid := (G.findV_some hr).2
        have hlist : listOf f t s = some (l ++ [i]) := by simp only [listOf, hv, hr, hg, Option.bind_some]
        have hidx : (l ++ [i])[l.length]? = some i := by simp
        have he : (l ++ [i]).eraseIdx l.length = l := by simp [List.eraseIdx_append_of_length_le]
        refine ⟨modFrame v (EFrame.eraseType t) (notify (.itemRemoved f i) (setItemFrame i "" (modFrame v (EFrame.setList t l) s))),
          ?_, ?_, ?_⟩
        · unfold removeItemAt
          simp only [hv, hlist, Option.bind_some, hidx, hfr, ne_eq, not_true_eq_false, if_false, he, List.drop_length, if_true]
        · unfold getItems
          simp only [modFrame, notify, GS.notify, setItemFrame, G.modV_vertexOf, hv, G.findV_modV, hr, Option.map_some, hrid, if_true,
            EFrame.eraseType, EFrame.setList]
          rw [AMap.get_erase, if_pos rfl]
        · simp [modFrame, notify, GS.notify, setItemFrame]

/-- the second of two items of type 7; the item of the other frame stays -/
example : ∃ s s' : EG Int,
    run [.graph (.addFrame "a"), .addItemToFrame "a" 0, .addItemToFrame "a" 1, .graph (.addFrame "b"), .addItemToFrame "b" 2] (init C41_heap) = some s ∧
    removeItemAt "a" ⟨"a", 7, 1⟩ s = .ok [] s' ∧ getItems "a" 7 s' = .throw (.noItemsOfType "a") s' ∧ getItems "b" 7 s' = .ok [2] s' :=
  ⟨_, _, rfl, rfl, rfl, rfl⟩

/-- Missing compared to C41: the last of several items, see `C41_last_of_several_fails`.  After every history (views, self edges,
removals through iterators included), for every position of a list that is not the last one, and for the only item of a list:
the call removes exactly that item, keeps all other lists of all frames and the order of the rest, clears the frame name of the
item only, publishes exactly one `ItemRemovedEvent` and returns the items behind the removed one. -/
theorem C41_remove_by_iterator_partial (heap : ItemId → ItemObj) (cs : List (Cmd E)) {s : EG E} (hs : run cs (init heap) = some s)
    {f : FrameId} {t : TypeIdx} {before after : List ItemId} {i : ItemId} (hl : getItems f t s = .ok (before ++ i :: after) s)
    (hfr : (s.heap i).frame = f) (hpos : after ≠ [] ∨ before = []) :
    ∃ s', removeItemAt f ⟨f, t, before.length⟩ s = .ok after s' ∧
      getItemsT f t s' = .ok (before ++ after) s' ∧
      (∀ x u, (x, u) ≠ (f, t) → ∀ l, getItems x u s' = .ok l s' ↔ getItems x u s = .ok l s) ∧
      (∀ x, s'.gs.g.vertexOf x = s.gs.g.vertexOf x) ∧ GS.getEdges s'.gs = GS.getEdges s.gs ∧
      s'.gs.subs = s.gs.subs ∧ s'.gs.views = s.gs.views ∧
      (s'.heap i).frame = "" ∧ (∀ j, j ≠ i → s'.heap j = s.heap j) ∧
      s'.gs.trace.map Prod.fst = s.gs.trace.map Prod.fst ++ [.itemRemoved f i] := by
  have hw := run_wf hs
  unfold getItems at hl
  cases hv : s.gs.g.vertexOf f with
  | none => simp [hv] at hl
  | some v =>
    simp only [hv] at hl
    cases hr : s.gs.g.findV v with
    | none => simp [hr] at hl
    | some r =>
      simp only [hr] at hl
      cases hg : r.prop.items.get t with
      | none => simp [hg] at hl
      | some l0 =>
        simp only [hg, Res.ok.injEq, and_true] at hl
        subst hl
        have hrid := (G.findV_some hr).2
        have hlist : listOf f t s = some (before ++ i :: after) := by simp only [listOf, hv, hr, hg, Option.bind_some]
        have hidx : (before ++ i :: after)[before.length]? = some i := by simp
        have he : (before ++ i :: after).eraseIdx before.length = before ++ after := by
          simp [List.eraseIdx_append_of_length_le]
        have hd : (before ++ after).drop before.length = after := by simp
        -- the change of the item map
        let h : EFrame → EFrame := fun p =>
          if after = [] then EFrame.eraseType t (EFrame.setList t (before ++ after) p) else EFrame.setList t (before ++ after) p
        have hother : ∀ (p : EFrame) u, u ≠ t → (h p).items.get u = p.items.get u := by
          intro p u hu
          simp only [h]
          split
          · simp only [EFrame.eraseType, EFrame.setList]
            rw [AMap.get_erase, if_neg (Ne.symm hu), AMap.get_set_ne (Ne.symm hu)]
          · simp only [EFrame.setList]
            rw [AMap.get_set_ne (Ne.symm hu)]
        have hself : (h r.prop).items.get t = if after = [] then none else some (before ++ after) := by
          simp only [h]
          split
          · simp only [EFrame.eraseType]; rw [AMap.get_erase, if_pos rfl]
          · simp only [EFrame.setList]; rw [AMap.get_set_self]
        obtain ⟨s', e1, e2, e3, e4, e5, e6⟩ : ∃ s', removeItemAt f ⟨f, t, before.length⟩ s = .ok after s' ∧
            s'.gs.g = s.gs.g.modV v h ∧ s'.gs.subs = s.gs.subs ∧ s'.gs.views = s.gs.views ∧
            s'.heap = (setItemFrame i "" s).heap ∧
            s'.gs.trace.map Prod.fst = s.gs.trace.map Prod.fst ++ [.itemRemoved f i] := by
          by_cases ha : after = []
          · subst ha
            refine ⟨modFrame v (EFrame.eraseType t) (notify (.itemRemoved f i)
              (setItemFrame i "" (modFrame v (EFrame.setList t (before ++ [])) s))), ?_, ?_, rfl, rfl, rfl, ?_⟩
            · unfold removeItemAt
              simp only [hv, hlist, Option.bind_some, hidx, hfr, ne_eq, not_true_eq_false, if_false, he, hd, if_true]
            · show (s.gs.g.modV v (EFrame.setList t (before ++ []))).modV v (EFrame.eraseType t) = _
              rw [G.modV_modV]
              congr 1
            · simp [modFrame, notify, GS.notify, setItemFrame]
          · refine ⟨notify (.itemRemoved f i) (setItemFrame i "" (modFrame v (EFrame.setList t (before ++ after)) s)),
              ?_, ?_, rfl, rfl, rfl, ?_⟩
            · unfold removeItemAt
              simp only [hv, hlist, Option.bind_some, hidx, hfr, ne_eq, not_true_eq_false, if_false, he, hd, ha]
            · show s.gs.g.modV v (EFrame.setList t (before ++ after)) = _
              congr 1
              funext p; simp [h, ha]
            · simp [modFrame, notify, GS.notify, setItemFrame]
        have hfind : s'.gs.g.findV v = some { r with prop := h r.prop } := by
          rw [e2, G.findV_modV, hr]; simp [hrid]
        refine ⟨s', e1, ?_, ?_, fun x => by rw [e2]; rfl, by simp only [GS.getEdges, e2]; rfl, e3, e4, ?_, ?_, e6⟩
        · unfold getItemsT
          have hv' : s'.gs.g.vertexOf f = some v := by rw [e2]; exact hv
          simp only [hv', hfind, hself]
          by_cases ha : after = []
          · rcases hpos with hp | hp
            · exact absurd ha hp
            · simp [ha, hp]
          · simp [ha]
        · intro x u hxu l
          unfold getItems
          have hvx : s'.gs.g.vertexOf x = s.gs.g.vertexOf x := by rw [e2]; rfl
          rw [hvx]
          cases hx : s.gs.g.vertexOf x with
          | none => simp
          | some w =>
            obtain ⟨q, hq, -⟩ := hw.live_of_vertexOf hx
            simp only [hq]
            by_cases hwv : w = v
            · subst hwv
              have hxf : x = f := hw.vertexOf_inj hx hv
              have hut : u ≠ t := by rintro rfl; exact hxu (by rw [hxf])
              rw [hr] at hq; cases hq
              simp only [hfind, hother _ _ hut]
              cases r.prop.items.get u <;> simp
            · have : s'.gs.g.findV w = some q := by
                rw [e2, G.findV_modV, hq]; simp [(G.findV_some hq).2, hwv]
              simp only [this]
              cases q.prop.items.get u <;> simp
        · rw [e5, setItemFrame_frame, if_pos rfl]
        · intro j hj; rw [e5]; simp [setItemFrame, hj]

/-- the middle one of three items of a type, then the only item of another type -/
example : ∃ s s' s'' : EG Int,
    run [.graph (.addFrame "a"), .addItemToFrame "a" 0, .addItemToFrame "a" 1, .addItemToFrame "a" 2] (init C41_heap) = some s ∧
    removeItemAt "a" ⟨"a", 7, 1⟩ s = .ok [2] s' ∧ getItems "a" 7 s' = .ok [0, 2] s' ∧
    removeItemAt "a" ⟨"a", 7, 0⟩ s' = .ok [2] s'' ∧
    removeItemAt "b" ⟨"a", 7, 0⟩ s' = .throw (.unknownFrame "b") s' := ⟨_, _, _, rfl, rfl, rfl, rfl, rfl⟩

end Verif
