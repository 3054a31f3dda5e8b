import Verif.Lemmas.ItemRestore
import Verif.Lemmas.ItemTidy
/-! # C40: adding and then removing an item restores the frame -/

namespace Verif
open EG
variable {E : Type} [EdgeProp E]

/-- After every history (removal through iterators, self edges and views included; frames given to `emplaceFrame` may hold items,
but no empty lists): adding an item that is not in the frame and
removing it again returns normally, the whole graph (frames, item lists of all frames, edges) is what it was, the item carries
no frame name, the other items the same as before, and exactly the two item events were published. -/
theorem C40_add_remove_restores (heap : ItemId → ItemObj) (cs : List (Cmd E)) (hcs : ∀ c ∈ cs, c.tidy) {s : EG E}
    (hs : run cs (init heap) = some s) {f : FrameId} (hf : GS.containsFrame f s.gs = true) {i : ItemId}
    (hi : ∀ l, visitItems f s = .ok l s → i ∉ l) :
    ∃ s1 s2, addItemToFrame f i s = .ok () s1 ∧ removeItem i s1 = .ok () s2 ∧
      s2.gs.g = s.gs.g ∧ s2.gs.subs = s.gs.subs ∧ s2.gs.views = s.gs.views ∧
      (s2.heap i).frame = "" ∧ (∀ j, j ≠ i → s2.heap j = s.heap j) ∧
      s2.gs.trace.map Prod.fst = s.gs.trace.map Prod.fst ++ [.itemAdded f i, .itemRemoved f i] := by
  have hg := run_good hcs (EG.Good.init heap) hs
  obtain ⟨v, hv⟩ := Option.isSome_iff_exists.1 hf
  obtain ⟨r, hr, hid⟩ := hg.wf.live_of_vertexOf hv
  have hrr := G.findV_some hr
  have hT := hg.tidy r hrr.1
  have hi' : ∀ l, r.prop.items.get (s.heap i).type = some l → i ∉ l := by
    intro l hl hil
    apply hi r.prop.visit (by simp only [visitItems, readFrame, hv, hr])
    exact List.mem_flatMap.2 ⟨(_, l), AMap.mem_of_get hl, hil⟩
  have hni : i ∉ (r.prop.items.get (s.heap i).type).getD [] := by
    cases hl : r.prop.items.get (s.heap i).type with
    | none => simp
    | some l => exact hi' l hl
  let t := (s.heap i).type
  let l0 := (r.prop.items.get t).getD []
  let s1 : EG E := notify (.itemAdded f i) (setItemFrame i f (modFrame v (EFrame.push t i) s))
  have h1 : addItemToFrame f i s = .ok () s1 := by unfold addItemToFrame; rw [hv]
  have hfind : s1.gs.g.findV v = some { r with prop := r.prop.push t i } := by
    show (s.gs.g.modV v (EFrame.push t i)).findV v = _
    rw [G.findV_modV, hr]; simp [hrr.2]
  have hget : (r.prop.push t i).items.get t = some (l0 ++ [i]) := by simp [EFrame.push, l0]
  have hfr : (s1.heap i).frame = f := by
    show ((setItemFrame i f (modFrame v (EFrame.push t i) s)).heap i).frame = f
    rw [setItemFrame_frame, if_pos rfl]
  have hty : (s1.heap i).type = t := setItemFrame_type _ _ _ _
  have herase : (l0 ++ [i]).erase i = l0 := erase_append_self hni
  have uniq : ∀ q ∈ s.gs.g.verts, q.id = v → q = r := fun q hq hqv =>
    map_inj_of_nodup hg.wf.vnodup hq hrr.1 (hqv.trans hrr.2.symm)
  have hv1 : s1.gs.g.vertexOf f = some v := hv
  by_cases h0 : l0.length = 0
  · have hnil : l0 = [] := by simpa using h0
    have hnone : r.prop.items.get t = none := by
      cases hl : r.prop.items.get t with
      | none => rfl
      | some l =>
        exfalso
        have : l = [] := by simpa [l0, hl] using hnil
        exact hT.full (t, l) (AMap.mem_of_get hl) this
    refine ⟨s1, notify (.itemRemoved f i) (modFrame v (EFrame.eraseType t) (setItemFrame i "" (modFrame v (EFrame.setList t l0) s1))),
      h1, ?_, ?_, rfl, rfl, ?_, ?_, ?_⟩
    · unfold removeItem
      simp only [hfr, hty, hv1, hfind, hget, herase, h0, if_true]
      simp
    · show (((s.gs.g.modV v (EFrame.push t i)).modV v (EFrame.setList t l0)).modV v (EFrame.eraseType t)) = s.gs.g
      rw [G.modV_modV, G.modV_modV]
      apply G.modV_id
      intro q hq hqv
      rw [uniq q hq hqv]
      simp only [Function.comp, EFrame.push, EFrame.setList, EFrame.eraseType]
      rw [EFrame.erase_set, erase_set_none hnone]
    · exact (setItemFrame_frame _ _ _ _).trans (if_pos rfl)
    · intro j hj
      show (setItemFrame i "" s1).heap j = _
      simp only [setItemFrame, hj, if_false]
      show (setItemFrame i f s).heap j = _
      simp only [setItemFrame, hj, if_false]
    · simp [s1, notify, GS.notify, modFrame, setItemFrame]
  · have hsome : r.prop.items.get t = some l0 := by
      cases hl : r.prop.items.get t with
      | none => simp [l0, hl] at h0
      | some l => simp [l0, hl]
    refine ⟨s1, notify (.itemRemoved f i) (setItemFrame i "" (modFrame v (EFrame.setList t l0) s1)),
      h1, ?_, ?_, rfl, rfl, ?_, ?_, ?_⟩
    · unfold removeItem
      simp only [hfr, hty, hv1, hfind, hget, herase, h0, if_false]
      simp
    · show ((s.gs.g.modV v (EFrame.push t i)).modV v (EFrame.setList t l0)) = s.gs.g
      rw [G.modV_modV]
      apply G.modV_id
      intro q hq hqv
      rw [uniq q hq hqv]
      simp only [Function.comp, EFrame.push, EFrame.setList]
      rw [set_set_get hsome]
    · exact (setItemFrame_frame _ _ _ _).trans (if_pos rfl)
    · intro j hj
      show (setItemFrame i "" s1).heap j = _
      simp only [setItemFrame, hj, if_false]
      show (setItemFrame i f s).heap j = _
      simp only [setItemFrame, hj, if_false]
    · simp [s1, notify, GS.notify, modFrame, setItemFrame]

def C40_heap (i : ItemId) : ItemObj := ⟨if i < 5 then 7 else 8, "x"⟩

example : ∃ s s1 s2 : EG Int,
    run [.graph (.addEdge "a" "b" 1), .addItemToFrame "a" 0, .addItemToFrame "a" 5, .addItemToFrame "b" 2] (init C40_heap) = some s ∧
    addItemToFrame "a" 1 s = .ok () s1 ∧ removeItem 1 s1 = .ok () s2 ∧ getItems "a" 7 s1 = .ok [0, 1] s1 ∧
    getItems "a" 7 s2 = .ok [0] s2 := ⟨_, _, _, rfl, rfl, rfl, rfl, rfl⟩

/-- The hypothesis matters: an item that is in the frame already moves to the end of its list. -/
example : ∃ s s1 s2 : EG Int,
    run [.graph (.addFrame "a"), .addItemToFrame "a" 0, .addItemToFrame "a" 1] (init C40_heap) = some s ∧
    addItemToFrame "a" 0 s = .ok () s1 ∧ removeItem 0 s1 = .ok () s2 ∧ getItems "a" 7 s = .ok [0, 1] s ∧
    getItems "a" 7 s2 = .ok [1, 0] s2 := ⟨_, _, _, rfl, rfl, rfl, rfl, rfl⟩

end Verif
