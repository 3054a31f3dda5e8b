import Verif.Lemmas.Alias
set_option linter.unusedSectionVars false
/-! # C66: removing things by a name owned by the graph is safe -/

namespace Verif
open EG
variable {E : Type} [EdgeProp E]

/-- The full statement: both calls do with the reference what they do with a copy of the name. -/
def C66_statement : Prop :=
  ∀ (heap : ItemId → ItemObj) (cs : List (Cmd Int)) (s : EG Int), run cs (init heap) = some s →
    (∀ v f, GS.getFrameId (some v) s.gs = .ok f s.gs → removeFrameR (fun _ => true) (.vertex v) s = removeFrame f s) ∧
    (∀ i it, listOf it.frame it.type s = some [i] → it.pos = 0 →
      removeItemAtR (fun _ => true) (.item i) it s = removeItemAt (s.heap i).frame it s)

def C66_heap (_ : ItemId) : ItemObj := ⟨7, ""⟩

/-- Whenever `removeFrame(f)` works, `removeFrame(getFrameId(v))` is undefined behaviour: the name is read after it was destroyed together
with the vertex.  If it throws, it throws the same and leaves the same state. -/
theorem C66_removeFrame_fails (heap : ItemId → ItemObj) (cs : List (Cmd E)) {s : EG E} (hs : run cs (init heap) = some s)
    (held : ItemId → Bool) {v : VId} {f : FrameId} (hv : GS.getFrameId (some v) s.gs = .ok f s.gs) :
    (∀ s', removeFrame f s = .ok () s' → ∃ r, removeFrameR held (.vertex v) s = .ub r) ∧
    (∀ x s', removeFrame f s = .throw x s' → removeFrameR held (.vertex v) s = .throw x s') := by
  have hw := run_wf hs
  have : s.gs.g.vertexOf f = some v := by
    cases hr : s.gs.g.findV v with
    | none => simp [GS.getFrameId, hr] at hv
    | some r =>
      have hv' : FrameProp.getId r.prop = f := by simpa [GS.getFrameId, hr] using hv
      exact hw.vertexOf_iff.2 ⟨r, (G.findV_some hr).1, (G.findV_some hr).2, hv'⟩
  exact ⟨(removeFrameR_vertex hw this).1, (removeFrameR_vertex hw this).2.1⟩

/-- both cases occur -/
example : ∃ s s' : EG Int, run [.graph (.addEdge "a" "b" 1), .graph (.addFrame "c")] (init C66_heap) = some s ∧
    removeFrame "c" s = .ok () s' ∧ removeFrameR (fun _ => true) (.vertex 2) s = .ub "removeFrame: dangling reference" ∧
    removeFrameR (fun _ => true) (.vertex 0) s = .throw (.frameStillConnected "a") s := ⟨_, _, rfl, rfl, rfl, rfl⟩

/-- Removing an item by `item->getFrame()` and an iterator removes it as with a copy of the name, but the subscribers are told that it was
removed from the frame "": the name of the item is cleared before the event is made. -/
theorem C66_removeItem_fails (held : ItemId → Bool) (s s' : EG E) (i : ItemId) (it : ItemIt) (rest : List ItemId)
    (hi : (listOf it.frame it.type s).bind (fun l => l[it.pos]?) = some i)
    (h : removeItemAt (s.heap i).frame it s = .ok rest s') :
    (∃ g, s'.gs.trace = s.gs.trace ++ [(.itemRemoved (s.heap i).frame i, g)] ∧
      removeItemAtR held (.item i) it s = .ok rest { s' with gs := { s'.gs with trace := s.gs.trace ++ [(.itemRemoved "" i, g)] } }) := by
  have halive : ∃ r ∈ s.gs.g.verts, ∃ p ∈ r.prop.items, i ∈ p.2 := by
    unfold listOf at hi
    cases hv : s.gs.g.vertexOf it.frame with
    | none => simp [hv] at hi
    | some v =>
      cases hr : s.gs.g.findV v with
      | none => simp [hv, hr] at hi
      | some r =>
        cases hl : r.prop.items.get it.type with
        | none => simp [hv, hr, hl] at hi
        | some l =>
          simp only [hv, hr, hl, Option.bind_some] at hi
          exact ⟨r, (G.findV_some hr).1, _, AMap.mem_of_get hl, List.mem_of_getElem? hi⟩
  have h0 : readRef held none (.item i) s = some (s.heap i).frame := by
    show (if _ then _ else _) = _
    rw [if_pos (.inr (.inr halive))]
  unfold removeItemAt at h
  unfold removeItemAtR
  simp only [h0]
  cases hv : s.gs.g.vertexOf (s.heap i).frame with
  | none => simp [hv] at h
  | some v =>
    simp only [hv, hi, ne_eq, not_true_eq_false, if_false] at h ⊢
    cases hl : listOf (s.heap i).frame it.type s with
    | none => simp [hl] at h
    | some l =>
      simp only [hl] at h ⊢
      split at h
      · simp at h
      · rename_i hf
        rw [if_neg hf]
        have h1 : ∀ s1 : EG E, (s1.heap i).frame = "" → readRef held (some i) (.item i) s1 = some "" := by
          intro s1 hs1
          show (if _ then _ else _) = _
          rw [if_pos (.inr (.inl rfl)), hs1]
        rw [h1 _ (by simp [setItemFrame])]
        simp only [Res.ok.injEq] at h
        obtain ⟨rfl, rfl⟩ := h
        by_cases hd : List.drop it.pos (l.eraseIdx it.pos) = []
        · exact ⟨_, by simp [hd, modFrame, notify, GS.notify, setItemFrame]; rfl, by simp [hd, modFrame, notify, GS.notify, setItemFrame]⟩
        · exact ⟨_, by simp [hd, modFrame, notify, GS.notify, setItemFrame]; rfl, by simp [hd, modFrame, notify, GS.notify, setItemFrame]⟩

example : ∃ s s' : EG Int, run [.graph (.addFrame "a"), .addItemToFrame "a" 0, .addItemToFrame "a" 1] (init C66_heap) = some s ∧
    removeItemAtR (fun _ => false) (.item 0) ⟨"a", 7, 0⟩ s = .ok [1] s' ∧
    s'.gs.trace.map Prod.fst = [.frameAdded "a", .itemAdded "a" 0, .itemAdded "a" 1, .itemRemoved "" 0] := ⟨_, _, rfl, rfl, rfl⟩

/-- Removing a frame by the name of an item that only this frame holds: undefined behaviour, because the item is destroyed by
`clearFrame`. -/
theorem C66_item_of_frame_fails : ∃ s s' : EG Int, run [.graph (.addFrame "a"), .addItemToFrame "a" 0] (init C66_heap) = some s ∧
    removeFrame "a" s = .ok () s' ∧ removeFrameR (fun _ => false) (.item 0) s = .ub "removeFrame: dangling reference" :=
  ⟨_, _, rfl, rfl, rfl⟩

/-- The full statement is false. -/
theorem C66_fails : ¬ C66_statement := by
  intro h
  obtain ⟨s, s', h1, h2, h3⟩ : ∃ s s' : EG Int, run [.graph (.addFrame "a")] (init C66_heap) = some s ∧ removeFrame "a" s = .ok () s' ∧
      GS.getFrameId (some 0) s.gs = .ok "a" s.gs := ⟨_, _, rfl, rfl, rfl⟩
  have h4 := (h C66_heap _ s h1).1 0 "a" h3
  obtain ⟨r, hr⟩ := (C66_removeFrame_fails C66_heap _ h1 (fun _ => true) h3).1 s' h2
  rw [hr, h2] at h4
  exact absurd h4 (by simp)

/-- Missing compared to C66: the two calls above.  With a string of the caller, or the name of an item that the caller also holds,
`removeFrame` and `clearFrame` behave as with a copy. -/
theorem C66_outside_partial (held : ItemId → Bool) (ref : NameRef) (f : FrameId) (s : EG E) (hr : readRef held none ref s = some f)
    (ho : match ref with | .own _ => True | .vertex _ => False | .item i => held i = true) :
    removeFrameR held ref s = removeFrame f s ∧ clearFrameR held ref s = clearFrame f s := by
  have ho' : Outside held ref := by cases ref <;> exact ho
  have h := reads_of_steady ho'.steady hr
  exact ⟨removeFrameR_eq ho' h, (clearFrameR_eq ho'.steady h).1⟩

example : ∃ s s' : EG Int, run [.graph (.addFrame "a"), .addItemToFrame "a" 0] (init C66_heap) = some s ∧
    removeFrameR (fun i => i == 0) (.item 0) s = .ok () s' ∧ s'.gs.trace.map Prod.fst =
      [.frameAdded "a", .itemAdded "a" 0, .itemRemoved "a" 0, .frameRemoved "a"] := ⟨_, _, rfl, rfl, rfl⟩

/-- Missing compared to C66: see above.  With `getFrameId(v)` the calls `clearFrame`, `removeItemFromFrame` and `addItemToFrame` behave as
with a copy. -/
theorem C66_vertex_partial (held : ItemId → Bool) (v : VId) (f : FrameId) (s : EG E) (hv : GS.getFrameId (some v) s.gs = .ok f s.gs) :
    clearFrameR held (.vertex v) s = clearFrame f s ∧ (∀ it, removeItemAtR held (.vertex v) it s = removeItemAt f it s) ∧
    (∀ i, addItemToFrameR held (.vertex v) i s = addItemToFrame f i s) := by
  have h : Reads held (.vertex v) f s := by
    intro tmp
    cases hr : s.gs.g.findV v with
    | none => simp [GS.getFrameId, hr] at hv
    | some r => simpa [GS.getFrameId, readRef, hr] using hv
  refine ⟨(clearFrameR_eq (ref := .vertex v) trivial h).1, ?_, ?_⟩
  · intro it
    unfold removeItemAtR removeItemAt
    simp only [h none]
    cases hvf : s.gs.g.vertexOf f with
    | none => rfl
    | some u =>
      simp only
      cases hi : (listOf it.frame it.type s).bind (fun l => l[it.pos]?) with
      | none => rfl
      | some i =>
        simp only
        split
        · rfl
        · cases hl : listOf f it.type s with
          | none => rfl
          | some l =>
            simp only
            split
            · rfl
            · have h1 : readRef held (some i) (.vertex v) (setItemFrame i "" (modFrame u (EFrame.setList it.type (l.eraseIdx it.pos)) s)) = some f :=
                (h.modFrame (ref := .vertex v) trivial (k := EFrame.setList it.type (l.eraseIdx it.pos)) (fun _ => rfl)) (some i)
              rw [h1]
  · intro i
    unfold addItemToFrameR addItemToFrame
    simp only [h (some i)]
    cases hvf : s.gs.g.vertexOf f with
    | none => rfl
    | some u =>
      have h1 : Reads held (.vertex v) f (modFrame u (EFrame.push (s.heap i).type i) s) := h.modFrame (ref := .vertex v) trivial (fun _ => rfl)
      simp only [h1 (some i)]
      have h2 : readRef held (some i) (.vertex v) (setItemFrame i f (modFrame u (EFrame.push (s.heap i).type i) s)) = some f := h1 (some i)
      rw [h2]

example : ∃ s s' : EG Int, run [.graph (.addFrame "a"), .addItemToFrame "a" 0, .addItemToFrame "a" 1] (init C66_heap) = some s ∧
    removeItemAtR (fun _ => false) (.vertex 0) ⟨"a", 7, 0⟩ s = .ok [1] s' ∧
    s'.gs.trace.map Prod.fst = [.frameAdded "a", .itemAdded "a" 0, .itemAdded "a" 1, .itemRemoved "a" 0] := ⟨_, _, rfl, rfl, rfl⟩

/-- Missing compared to C66: see above.  `addItemToFrame(item->getFrame(), item)`, which is `addItem(item)` (EnvireGraph.cpp:113-116), behaves
as with a copy, although the function assigns the string to itself. -/
theorem C66_addItem_partial (held : ItemId → Bool) (i : ItemId) (s : EG E) : addItemToFrameR held (.item i) i s = addItem i s := by
  have h : ∀ s1 : EG E, readRef held (some i) (.item i) s1 = some (s1.heap i).frame := by
    intro s1
    show (if _ then _ else _) = _
    rw [if_pos (.inr (.inl rfl))]
  unfold addItemToFrameR addItem addItemToFrame
  simp only [h]
  cases hvf : s.gs.g.vertexOf (s.heap i).frame with
  | none => rfl
  | some u => simp [modFrame, setItemFrame]

example : ∃ s s' : EG Int, run [.graph (.addFrame "a"), .setItemFrame 0 "a"] (init C66_heap) = some s ∧
    addItemToFrameR (fun _ => false) (.item 0) 0 s = .ok () s' ∧ getItems "a" 7 s' = .ok [0] s' := ⟨_, _, rfl, rfl, rfl⟩

/-- the event of `addItem` names the frame -/
example : ∃ s s' : EG Int, run [.graph (.addFrame "a"), .setItemFrame 0 "a"] (init C66_heap) = some s ∧
    addItemToFrameR (fun _ => false) (.item 0) 0 s = .ok () s' ∧ s'.gs.trace.map Prod.fst = [.frameAdded "a", .itemAdded "a" 0] :=
  ⟨_, _, rfl, rfl, rfl⟩

end Verif
