import Verif.Props.C48Names
import Verif.Lemmas.ItemCalls
import Verif.Model.TwoGraphs
/-! # C49: exactly when the other graph makes a removal fail -/

namespace Verif
open EG
variable {E : Type} [EdgeProp E]

private theorem exec_type {c : EG.Cmd E} {s s' : EG E} (h : (EG.exec c s).st? = some s') (i : ItemId) :
    (s'.heap i).type = (s.heap i).type := by
  by_cases hi : c.item s = some i
  swap
  · rw [exec_heap h hi]
  · have hs : ∀ (u : EG E) (j : ItemId) (f : FrameId), ((setItemFrame j f u).heap i).type = (u.heap i).type := fun u j f => setItemFrame_type u j i f
    cases c with
    | graph c => simp [Cmd.item] at hi
    | clearFrame f => simp [Cmd.item] at hi
    | clear => simp [Cmd.item] at hi
    | addItem j =>
      simp only [EG.exec, addItem, addItemToFrame] at h
      split at h <;> simp only [Res.st?, Option.some.injEq] at h <;> subst h
      · rfl
      · simp [notify, modFrame, hs]
    | addItemToFrame f j =>
      simp only [EG.exec, addItemToFrame] at h
      split at h <;> simp only [Res.st?, Option.some.injEq] at h <;> subst h
      · rfl
      · simp [notify, modFrame, hs]
    | removeItem j =>
      simp only [EG.exec, removeItem] at h
      split at h
      · simp only [Res.st?, Option.some.injEq] at h; subst h; rfl
      · split at h
        · simp [Res.st?] at h
        · split at h
          · simp only [Res.st?, Option.some.injEq] at h; subst h; rfl
          · split at h
            · simp only [Res.st?, Option.some.injEq] at h; subst h
              split <;> simp [notify, modFrame, hs]
            · simp only [Res.st?, Option.some.injEq] at h; subst h; rfl
    | removeItemAt f it =>
      simp only [EG.exec, GS.st?_discard, removeItemAt] at h
      split at h
      · simp only [Res.st?, Option.some.injEq] at h; subst h; rfl
      · split at h
        · simp [Res.st?] at h
        · split at h
          · simp [Res.st?] at h
          · split at h
            · simp only [Res.st?, Option.some.injEq] at h; subst h; rfl
            · split at h
              · simp [Res.st?] at h
              · simp only [Res.st?, Option.some.injEq] at h; subst h
                split <;> simp [notify, modFrame, hs]
    | setItemFrame j f =>
      simp only [EG.exec, Res.st?, Option.some.injEq] at h
      subst h
      exact hs s j f

private theorem runRight_run {ds : List (EG.Cmd E)} : ∀ {w w' : TwoG E}, TwoG.runRight ds w = some w' →
    EG.run ds w.right = some w'.right ∧ w'.a = w.a ∧ ∀ i, (w'.heap i).type = (w.heap i).type := by
  induction ds with
  | nil =>
    intro w w' h
    simp only [TwoG.runRight, Option.some.injEq] at h
    subst h
    exact ⟨rfl, rfl, fun _ => rfl⟩
  | cons c ds ih =>
    intro w w' h
    simp only [TwoG.runRight, TwoG.execRight] at h
    cases hx : EG.exec c w.right with
    | ub m => simp [hx] at h
    | ok u s =>
      simp only [hx] at h
      obtain ⟨h1, h2, h3⟩ := ih h
      refine ⟨?_, h2, fun i => (h3 i).trans (exec_type (c := c) (s := w.right) (by rw [hx]; rfl) i)⟩
      unfold EG.run
      rw [hx]; exact h1
    | throw x s =>
      simp only [hx] at h
      obtain ⟨h1, h2, h3⟩ := ih h
      refine ⟨?_, h2, fun i => (h3 i).trans (exec_type (c := c) (s := w.right) (by rw [hx]; rfl) i)⟩
      unfold EG.run
      rw [hx]; exact h1

omit [EdgeProp E] in
private theorem removeItem_ok_iff (i : ItemId) (s : EG E) : (∃ s', removeItem i s = .ok () s') ↔
    ∃ l, getItems (s.heap i).frame (s.heap i).type s = .ok l s ∧ i ∈ l := by
  unfold removeItem getItems
  simp only
  cases s.gs.g.vertexOf (s.heap i).frame with
  | none => simp
  | some v =>
    cases hr : s.gs.g.findV v with
    | none => simp only [hr]; simp
    | some r =>
      cases hl : r.prop.items.get (s.heap i).type with
      | none => simp only [hr, hl]; simp
      | some l =>
        simp only [hr, hl]
        by_cases hi : i ∈ l <;> simp [hi]

/-- Missing compared to C49: that removing `i` still works.  For any two graphs and any history of the second one, including all calls about the
item: the first graph can remove `i` exactly if it still lists `i` in the frame that the item now names.  This name was given by the last naming
call that the second graph made, so the second graph decides whether the first one can remove its item. -/
theorem C49_exact_partial (ds : List (EG.Cmd E)) (w w' : TwoG E) (hr : TwoG.runRight ds w = some w') (i : ItemId) :
    ((∃ w2, TwoG.execLeft (.removeItem i) w' = .ok () w2) ↔
      ∃ l, getItems (w'.heap i).frame (w.heap i).type w.left = .ok l w.left ∧ i ∈ l) ∧
    ((C48_Unnamed i ds w.right ∧ (w'.heap i).frame = (w.heap i).frame) ∨
      ∃ ds1 d ds2 s1 s2, ds = ds1 ++ d :: ds2 ∧ EG.run ds1 w.right = some s1 ∧ EG.exec d s1 = .ok () s2 ∧
        C48_Names i s1 d (w'.heap i).frame ∧ C48_Unnamed i ds2 s2) := by
  obtain ⟨h1, h2, h3⟩ := runRight_run hr
  constructor
  · have e : (∃ w2, TwoG.execLeft (.removeItem i) w' = .ok () w2) ↔ ∃ s', removeItem i w'.left = .ok () s' := by
      simp only [TwoG.execLeft, EG.exec]
      cases removeItem i w'.left with
      | ok u s => simp
      | throw x s => simp
      | ub m => simp
    rw [e, removeItem_ok_iff]
    have e1 : (w'.left.heap i).type = (w.heap i).type := h3 i
    have e2 : (w'.left.heap i).frame = (w'.heap i).frame := rfl
    rw [e1, e2]
    have key : ∀ l, getItems (w'.heap i).frame (w.heap i).type w'.left = .ok l w'.left ↔
        getItems (w'.heap i).frame (w.heap i).type w.left = .ok l w.left := by
      intro l
      unfold getItems
      simp only [TwoG.left, h2]
      cases w.a.g.vertexOf (w'.heap i).frame with
      | none => simp
      | some v =>
        cases hr : w.a.g.findV v with
        | none => simp only [hr]; simp
        | some r => simp only [hr]; cases r.prop.items.get (w.heap i).type <;> simp
    exact exists_congr fun l => and_congr_left fun _ => key l
  · rcases C48_last_name i ds w.right w'.right h1 with h | ⟨ds1, d, ds2, s1, s2, a, b, c, _, e, f⟩
    · exact Or.inl h
    · exact Or.inr ⟨ds1, d, ds2, s1, s2, a, b, c, e, f⟩

/-- the copy moves item 0 to frame "b": the original cannot remove it; once the copy puts it back, it can -/
example : ∃ (s : EG Int) (w w1 w2 w3 : TwoG Int),
    EG.run [.graph (.addFrame "a"), .graph (.addFrame "b"), .addItemToFrame "a" 0] (EG.init (fun _ => ⟨7, ""⟩)) = some s ∧
    TwoG.ofCopy s = some w ∧ TwoG.runRight [.removeItem 0, .addItemToFrame "b" 0] w = some w1 ∧
    TwoG.execLeft (.removeItem 0) w1 = .throw (.noItemsOfType "b") w1 ∧ getItems "a" 7 w.left = .ok [0] w.left ∧
    TwoG.runRight [.addItemToFrame "a" 0] w1 = some w2 ∧ TwoG.execLeft (.removeItem 0) w2 = .ok () w3 :=
  ⟨_, _, _, _, _, rfl, rfl, rfl, rfl, rfl, rfl, rfl⟩

end Verif
