import Verif.Lemmas.ItemNames
import Verif.Spec.Demo
/-! # C48: where the frame name of an item comes from -/

namespace Verif
open EG
variable {E : Type} [EdgeProp E]

/-- The call, made in state `s`, gives item `i` the name `f` if it returns. -/
inductive C48_Names (i : ItemId) (s : EG E) : EG.Cmd E → FrameId → Prop
  | add (f : FrameId) : C48_Names i s (.addItemToFrame f i) f
  | set (f : FrameId) : C48_Names i s (.setItemFrame i f) f
  | remove : C48_Names i s (.removeItem i) ""
  | removeAt (f : FrameId) (it : ItemIt) (l : List ItemId) : getItems f it.type s = .ok l s → l[it.pos]? = some i →
      C48_Names i s (.removeItemAt f it) ""

omit [EdgeProp E] in
private theorem getItems_of_listOf {f : FrameId} {t : TypeIdx} {s : EG E} {l : List ItemId} (h : listOf f t s = some l) :
    getItems f t s = .ok l s := by
  unfold listOf at h
  unfold getItems
  cases hv : s.gs.g.vertexOf f with
  | none => simp [hv] at h
  | some v =>
    cases hr : s.gs.g.findV v with
    | none => simp [hv, hr] at h
    | some r =>
      simp only [hv, hr, Option.bind_some] at h
      simp only [hr, h]

omit [EdgeProp E] in
private theorem listOf_of_getItems {f : FrameId} {t : TypeIdx} {s : EG E} {l : List ItemId} (h : getItems f t s = .ok l s) :
    listOf f t s = some l := by
  unfold getItems at h
  unfold listOf
  cases hv : s.gs.g.vertexOf f with
  | none => simp [hv] at h
  | some v =>
    cases hr : s.gs.g.findV v with
    | none => simp [hv, hr] at h
    | some r =>
      cases hl : r.prop.items.get t with
      | none => simp [hv, hr, hl] at h
      | some l' =>
        simp only [hv, hr, hl, Res.ok.injEq, and_true] at h
        simp [hr, hl, h]

/-- In every state: a call that returns gives an item its name if it is one of the four naming calls, and leaves the name otherwise.  In
particular `addItem`, `clearFrame`, `removeFrame` and `clear` leave all names.  A call that throws changes no name. -/
theorem C48_naming_calls (c : EG.Cmd E) (s s' : EG E) (i : ItemId) :
    (EG.exec c s = .ok () s' → (∀ f, C48_Names i s c f → (s'.heap i).frame = f) ∧
      ((∀ f, ¬ C48_Names i s c f) → (s'.heap i).frame = (s.heap i).frame)) ∧
    (∀ x, EG.exec c s = .throw x s' → (s'.heap i).frame = (s.heap i).frame) := by
  by_cases hi : c.item s = some i
  swap
  · refine ⟨fun h => ⟨fun f hf => ?_, fun _ => by rw [exec_heap (by rw [h]; rfl) hi]⟩, fun x h => by rw [exec_heap (by rw [h]; rfl) hi]⟩
    exfalso
    cases hf with
    | add f => exact hi rfl
    | set f => exact hi rfl
    | remove => exact hi rfl
    | removeAt f it l h1 h2 =>
      simp only [EG.exec, removeItemAt] at h
      split at h
      · cases h
      · split at h
        · cases h
        · rename_i j hj
          split at h
          · cases h
          · split at h
            · cases h
            · rename_i hl
              split at h
              · cases h
              · rename_i hf
                have hf : it.frame = f := by simpa using hf
                apply hi
                simp only [Cmd.item, hf, listOf_of_getItems h1, Option.bind_some, h2]
  · cases c with
    | graph c => simp [Cmd.item] at hi
    | clearFrame f => simp [Cmd.item] at hi
    | clear => simp [Cmd.item] at hi
    | addItem j =>
      simp only [Cmd.item, Option.some.injEq] at hi; subst hi
      simp only [EG.exec, addItem, addItemToFrame]
      cases s.gs.g.vertexOf (s.heap j).frame with
      | none =>
        refine ⟨fun h => (by cases h), fun x h => ?_⟩
        cases h; rfl
      | some v =>
        refine ⟨fun h => ⟨fun f hf => (by cases hf), fun _ => ?_⟩, fun x h => by cases h⟩
        cases h
        simp [notify, setItemFrame, modFrame]
    | addItemToFrame f j =>
      simp only [Cmd.item, Option.some.injEq] at hi; subst hi
      simp only [EG.exec, addItemToFrame]
      cases s.gs.g.vertexOf f with
      | none =>
        refine ⟨fun h => (by cases h), fun x h => ?_⟩
        cases h; rfl
      | some v =>
        refine ⟨fun h => ⟨fun f' hf => ?_, fun hn => (hn f (.add f)).elim⟩, fun x h => by cases h⟩
        cases hf
        cases h
        simp [notify, setItemFrame, modFrame]
    | setItemFrame j f =>
      simp only [Cmd.item, Option.some.injEq] at hi; subst hi
      refine ⟨fun h => ⟨fun f' hf => ?_, fun hn => (hn f (.set f)).elim⟩, fun x h => by cases h⟩
      cases hf
      cases h
      simp [setItemFrame]
    | removeItem j =>
      simp only [Cmd.item, Option.some.injEq] at hi; subst hi
      refine ⟨fun h => ⟨fun f hf => ?_, fun hn => (hn "" .remove).elim⟩, fun x h => ?_⟩
      · cases hf
        simp only [EG.exec, removeItem] at h
        split at h
        · cases h
        · split at h
          · cases h
          · split at h
            · cases h
            · split at h
              · simp only [Res.ok.injEq, true_and] at h
                subst h
                split <;> simp [notify, setItemFrame, modFrame]
              · cases h
      · simp only [EG.exec, removeItem] at h
        split at h
        · cases h; rfl
        · split at h
          · cases h
          · split at h
            · cases h; rfl
            · split at h
              · cases h
              · cases h; rfl
    | removeItemAt f it =>
      simp only [Cmd.item] at hi
      simp only [EG.exec, removeItemAt]
      cases hv : s.gs.g.vertexOf f with
      | none =>
        refine ⟨fun h => (by cases h), fun x h => ?_⟩
        cases h; rfl
      | some v =>
        simp only [hi]
        split
        · exact ⟨fun h => (by cases h), fun x h => by cases h⟩
        · cases hl : listOf f it.type s with
          | none =>
            refine ⟨fun h => (by cases h), fun x h => ?_⟩
            cases h; rfl
          | some l =>
            simp only
            split
            · exact ⟨fun h => (by cases h), fun x h => by cases h⟩
            · rename_i hf
              have hf : it.frame = f := by simpa using hf
              rw [hf, hl, Option.bind_some] at hi
              refine ⟨fun h => ⟨fun f' hf => ?_, fun hn => (hn "" (.removeAt f it l (getItems_of_listOf hl) hi)).elim⟩, fun x h => by cases h⟩
              cases hf
              simp only [GS.discard, Res.ok.injEq, true_and] at h
              subst h
              split <;> simp [notify, setItemFrame, modFrame]

/-- no call of the history that returns is a naming call for `i` -/
def C48_Unnamed (i : ItemId) : List (EG.Cmd E) → EG E → Prop
  | [], _ => True
  | c :: cs, s => (∀ s', EG.exec c s = .ok () s' → ∀ f, ¬ C48_Names i s c f) ∧ ∀ s', (EG.exec c s).st? = some s' → C48_Unnamed i cs s'

/-- After every history the name of an item is the one that the last naming call gave it, or the initial one if there was none.  No restriction:
items in several frames, listed twice, cleared or renamed by hand are included, and so are exceptions. -/
theorem C48_last_name (i : ItemId) : ∀ (cs : List (EG.Cmd E)) (s0 s : EG E), EG.run cs s0 = some s →
    (C48_Unnamed i cs s0 ∧ (s.heap i).frame = (s0.heap i).frame) ∨
    ∃ cs1 c cs2 s1 s2, cs = cs1 ++ c :: cs2 ∧ EG.run cs1 s0 = some s1 ∧ EG.exec c s1 = .ok () s2 ∧ EG.run cs2 s2 = some s ∧
      C48_Names i s1 c (s.heap i).frame ∧ C48_Unnamed i cs2 s2 := by
  intro cs
  induction cs with
  | nil =>
    intro s0 s h
    simp only [EG.run, Option.some.injEq] at h
    subst h
    exact Or.inl ⟨trivial, rfl⟩
  | cons c cs ih =>
    intro s0 s h
    obtain ⟨s1, e1, e2⟩ := run_cons h
    have hst : ∀ s', (EG.exec c s0).st? = some s' → s' = s1 := fun s' h => Option.some.inj (h.symm.trans e1)
    rcases ih s1 s e2 with ⟨a1, a2⟩ | ⟨cs1, d, cs2, t1, t2, b1, b2, b3, b4, b5, b6⟩
    · cases hx : EG.exec c s0 with
      | ub m => rw [hx] at e1; cases e1
      | throw x s' =>
        have := hst s' (by rw [hx]; rfl)
        subst this
        refine Or.inl ⟨⟨fun s2 h2 => (by rw [hx] at h2; cases h2), fun s2 h2 => by rw [hst s2 h2]; exact a1⟩, ?_⟩
        rw [a2, (C48_naming_calls c s0 s' i).2 x hx]
      | ok u s' =>
        have := hst s' (by rw [hx]; rfl)
        subst this
        obtain ⟨k1, k2⟩ := (C48_naming_calls c s0 s' i).1 hx
        by_cases hn : ∃ f, C48_Names i s0 c f
        · obtain ⟨f, hf⟩ := hn
          refine Or.inr ⟨[], c, cs, s0, s', rfl, rfl, hx, e2, ?_, a1⟩
          rw [a2, k1 f hf]
          exact hf
        · have hn' : ∀ f, ¬ C48_Names i s0 c f := fun f hf => hn ⟨f, hf⟩
          exact Or.inl ⟨⟨fun _ _ => hn', fun s2 h2 => by rw [hst s2 h2]; exact a1⟩, a2.trans (k2 hn')⟩
    · refine Or.inr ⟨c :: cs1, d, cs2, t1, t2, by rw [b1]; rfl, ?_, b3, b4, b5, b6⟩
      unfold EG.run
      cases hx : EG.exec c s0 with
      | ub m => rw [hx] at e1; cases e1
      | throw x s' =>
        have := hst s' (by rw [hx]; rfl)
        subst this
        exact b2
      | ok u s' =>
        have := hst s' (by rw [hx]; rfl)
        subst this
        exact b2

/-- item 0 is added to two frames, refused by a third, and its last frame is cleared: the name is that of the second `addItemToFrame` -/
example : ∃ s1 s2 s : EG Int,
    EG.run [.graph (.addFrame "a"), .graph (.addFrame "b"), .addItemToFrame "a" 0] (EG.init (fun _ => ⟨7, "z"⟩)) = some s1 ∧
    EG.exec (.addItemToFrame "b" 0) s1 = .ok () s2 ∧
    EG.run [.addItemToFrame "c" 0, .addItem 0, .clearFrame "b", .setItemFrame 1 "q"] s2 = some s ∧ (s.heap 0).frame = "b" ∧
    C48_Names 0 s1 (.addItemToFrame "b" 0) "b" ∧ visitItems "a" s = .ok [0] s ∧ visitItems "b" s = .ok [] s ∧ (s.heap 2).frame = "z" :=
  ⟨_, _, _, rfl, rfl, rfl, rfl, .add _, rfl, rfl, rfl⟩

/-- removal through an iterator takes the name of the item it points to -/
example : ∃ s s' : EG Int,
    EG.run [.graph (.addFrame "a"), .addItemToFrame "a" 0, .addItemToFrame "a" 1] (EG.init (fun _ => ⟨7, ""⟩)) = some s ∧
    C48_Names 0 s (.removeItemAt "a" ⟨"a", 7, 0⟩) "" ∧ EG.exec (.removeItemAt "a" ⟨"a", 7, 0⟩) s = .ok () s' ∧
    (s'.heap 0).frame = "" ∧ (s'.heap 1).frame = "a" :=
  ⟨_, _, rfl, .removeAt _ _ [0, 1] rfl rfl, rfl, rfl, rfl⟩

end Verif
