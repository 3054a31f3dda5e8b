import Verif.Lemmas.ItemHeap
import Verif.Lemmas.Slots
import Verif.Spec.Demo
/-! # C49: graphs do not influence each other through copied items -/

namespace Verif
open EG
variable {E : Type} [EdgeProp E]

/-- The property fails always: whenever an item can be removed from a graph (without a frame named ""), and the graph is copied,
then each of the two graphs can remove it, but after the first did so the second one throws `UnknownFrameException("")` and keeps
the item for good. -/
theorem C49_statement_fails (heap : ItemId → ItemObj) (cs : List (EG.Cmd E)) {s s1 : EG E} (hs : EG.run cs (EG.init heap) = some s)
    (hg : ¬ Gap (slots (s.gs.trace.map Prod.fst))) (h0 : GS.containsFrame "" s.gs = false) {i : ItemId}
    (hi : removeItem i s = .ok () s1) :
    ∃ w w1, TwoG.ofCopy s = some w ∧ (∃ w2, TwoG.execRight (.removeItem i) w = .ok () w2) ∧
      TwoG.execLeft (.removeItem i) w = .ok () w1 ∧ TwoG.execRight (.removeItem i) w1 = .throw (.unknownFrame "") w1 ∧
      ∃ l, visitItems (s.heap i).frame w1.right = .ok l w1.right ∧ i ∈ l := by
  have hw := EG.run_wf hs
  have hd : s.gs.g.Dense := ((EG.slotted_run hs).dense_iff hw).2 hg
  have h00 : s.gs.g.vertexOf "" = none := by simpa [GS.containsFrame] using h0
  have hi0 := hi
  unfold removeItem at hi
  simp only at hi
  split at hi
  · cases hi
  · rename_i v hv
    split at hi
    · cases hi
    · rename_i r hfind
      split at hi
      · cases hi
      · rename_i l hl
        split at hi
        · rename_i hil
          simp only [Res.ok.injEq, true_and] at hi
          have hfr : (s1.heap i).frame = "" := by
            subst hi
            split <;> simp [notify, setItemFrame, modFrame]
          have hcv : ∀ f, s.gs.g.copied.vertexOf f = (s.gs.g.vertexOf f).map s.gs.g.pos := copied_vertexOf hw
          have hcf := copied_findV hw hfind
          refine ⟨⟨s.gs, ⟨s.gs.g.copied, [], fun _ => TreeView.empty, []⟩, s.heap⟩, ⟨s1.gs, ⟨s.gs.g.copied, [], fun _ => TreeView.empty, []⟩, s1.heap⟩,
            ?_, ?_, ?_, ?_, ?_⟩
          · simp only [TwoG.ofCopy, EG.copy, GS.copy_eq hw hd]; rfl
          · simp only [TwoG.execRight, TwoG.right, EG.exec, removeItem, hcv, hv, Option.map_some, hcf, hl, hil, if_true]
            exact ⟨_, rfl⟩
          · simp only [TwoG.execLeft, TwoG.left, EG.exec]
            have : removeItem i (⟨s.gs, s.heap⟩ : EG E) = .ok () s1 := hi0
            rw [this]
          · simp only [TwoG.execRight, TwoG.right, EG.exec, removeItem, hfr, hcv, h00, Option.map_none]
          · refine ⟨r.prop.visit, ?_, List.mem_flatMap.2 ⟨(_, l), AMap.mem_of_get hl, hil⟩⟩
            simp only [TwoG.right, visitItems, readFrame, hcv, hv, Option.map_some, hcf]
        · cases hi

/-- no call of the history adds, removes or renames item `i` -/
def C49_leaves (i : ItemId) : List (EG.Cmd E) → TwoG E → Prop
  | [], _ => True
  | c :: cs, w => c.item w.right ≠ some i ∧ ∀ w', (TwoG.execRight c w).st? = some w' → C49_leaves i cs w'

/-- Missing compared to C49: calls of the other graph about the same item.  Any history on the second graph that is not about item `i`
leaves the first graph and its future calls alone: every call that is about `i` or about no item has the same outcome, the same
exception and the same resulting first graph as if the second graph had not been used. -/
theorem C49_other_items_partial (ds : List (EG.Cmd E)) (i : ItemId) : ∀ (w w' : TwoG E), TwoG.runRight ds w = some w' →
    C49_leaves i ds w → w'.a = w.a ∧ w'.heap i = w.heap i ∧
      ∀ c : EG.Cmd E, (∀ j, c.item w.left = some j → j = i) → view (EG.exec c w'.left) = view (EG.exec c w.left) := by
  suffices h : ∀ (w w' : TwoG E), TwoG.runRight ds w = some w' → C49_leaves i ds w → w'.a = w.a ∧ w'.heap i = w.heap i by
    intro w w' hr hl
    obtain ⟨h1, h2⟩ := h w w' hr hl
    refine ⟨h1, h2, fun c hc => ?_⟩
    have : w'.left = withHeap w'.heap w.left := by simp [TwoG.left, withHeap, h1]
    rw [this]
    refine exec_view fun j hj => ?_
    rw [hc j hj]; exact h2
  induction ds with
  | nil =>
    intro w w' hr _
    simp only [TwoG.runRight, Option.some.injEq] at hr
    subst hr; exact ⟨rfl, rfl⟩
  | cons c ds ih =>
    intro w w' hr hl
    obtain ⟨hci, hl2⟩ := hl
    have key : ∀ w1, (TwoG.execRight c w).st? = some w1 → w1.a = w.a ∧ w1.heap i = w.heap i := by
      intro w1 h1
      unfold TwoG.execRight at h1
      cases hx : EG.exec c w.right with
      | ok u s =>
        rw [hx] at h1
        simp only [Res.st?, Option.some.injEq] at h1
        subst h1
        exact ⟨rfl, exec_heap (s := w.right) (s' := s) (by rw [hx]; rfl) hci⟩
      | throw x s =>
        rw [hx] at h1
        simp only [Res.st?, Option.some.injEq] at h1
        subst h1
        exact ⟨rfl, exec_heap (s := w.right) (s' := s) (by rw [hx]; rfl) hci⟩
      | ub m => rw [hx] at h1; simp [Res.st?] at h1
    cases hx : TwoG.execRight c w with
    | ok u w1 =>
      simp only [TwoG.runRight, hx] at hr
      obtain ⟨a1, a2⟩ := key w1 (by rw [hx]; rfl)
      obtain ⟨b1, b2⟩ := ih w1 w' hr (hl2 w1 (by rw [hx]; rfl))
      exact ⟨b1.trans a1, b2.trans a2⟩
    | throw x w1 =>
      simp only [TwoG.runRight, hx] at hr
      obtain ⟨a1, a2⟩ := key w1 (by rw [hx]; rfl)
      obtain ⟨b1, b2⟩ := ih w1 w' hr (hl2 w1 (by rw [hx]; rfl))
      exact ⟨b1.trans a1, b2.trans a2⟩
    | ub m => simp only [TwoG.runRight, hx] at hr; cases hr

/-- the condition on the history is easy to meet -/
example (w : TwoG E) : C49_leaves 0 [.removeItem 1, .addItemToFrame "a" 2, .clear] w :=
  ⟨by simp [Cmd.item], fun _ _ => ⟨by simp [Cmd.item], fun _ _ => ⟨by simp [Cmd.item], fun _ _ => trivial⟩⟩⟩

/-- the failure on a small graph -/
example : ∃ (s : EG Int) (w w1 : TwoG Int),
    EG.run [.graph (.addFrame "a"), .addItemToFrame "a" 0] (EG.init (fun _ => ⟨7, ""⟩)) = some s ∧
    ¬ Gap (slots (s.gs.trace.map Prod.fst)) ∧ TwoG.ofCopy s = some w ∧ TwoG.execLeft (.removeItem 0) w = .ok () w1 ∧
    TwoG.execRight (.removeItem 0) w1 = .throw (.unknownFrame "") w1 ∧ visitItems "a" w1.right = .ok [0] w1.right :=
  ⟨_, _, _, rfl, by rw [gap_iff]; decide +kernel, rfl, rfl, rfl, rfl⟩

/-- the copy is used for item 1 only; item 0 can still be removed from the original -/
example : ∃ (s : EG Int) (w w1 w2 : TwoG Int),
    EG.run [.graph (.addFrame "a"), .addItemToFrame "a" 0, .addItemToFrame "a" 1] (EG.init (fun _ => ⟨7, ""⟩)) = some s ∧
    TwoG.ofCopy s = some w ∧ TwoG.runRight [.removeItem 1, .addItemToFrame "a" 2] w = some w1 ∧
    TwoG.execLeft (.removeItem 0) w1 = .ok () w2 ∧ visitItems "a" w2.left = .ok [1] w2.left ∧
    visitItems "a" w2.right = .ok [0, 2] w2.right :=
  ⟨_, _, _, _, rfl, rfl, rfl, rfl, rfl, rfl⟩

end Verif
