import Verif.Lemmas.ItemLoop
/-! # C110: the loop over the items of a frame removes exactly the chosen items -/

namespace Verif
open EG
variable {E : Type} [EdgeProp E]

def C110_cmds : List (Cmd Int) :=
  [.graph (.addFrame "a"), .addItemToFrame "a" 0, .addItemToFrame "a" 1, .addItemToFrame "a" 2, .addItemToFrame "a" 3,
   .graph (.addFrame "b"), .addItemToFrame "b" 4]

def C110_heap (i : ItemId) : ItemObj := ⟨if i = 3 then 8 else 7, ""⟩

/-- The property: if every item is listed once and knows its frame, the loop returns, the items that were not chosen are left in their
order, and each chosen item is announced once. -/
def C110_statement : Prop := ∀ (heap : ItemId → ItemObj) (cs : List (Cmd Int)) (s : EG Int), run cs (init heap) = some s →
  ∀ (f : FrameId) (t : TypeIdx) (l : List ItemId) (chosen : ItemId → Bool), getItemsT f t s = .ok l s → l.Nodup →
    (∀ i ∈ l, (s.heap i).frame = f) → ∃ s', removeChosen f t chosen s = .ok () s' ∧
      getItemsT f t s' = .ok (l.filter (fun i => !chosen i)) s' ∧
      s'.gs.trace.map Prod.fst = s.gs.trace.map Prod.fst ++ (l.filter chosen).map (.itemRemoved f)

/-- Exactly: the loop returns and announces the chosen items; nothing else in the graph changes.  The items that were not chosen are left,
unless the last item of the list is a chosen one: then no item of the type is left. -/
theorem C110_exact (heap : ItemId → ItemObj) (cs : List (Cmd E)) {s : EG E} (hs : run cs (init heap) = some s) {f : FrameId} {t : TypeIdx}
    {l : List ItemId} (chosen : ItemId → Bool) (hl : getItemsT f t s = .ok l s) (hn : l.Nodup)
    (hf : ∀ i ∈ l, chosen i = true → (s.heap i).frame = f) :
    ∃ s', removeChosen f t chosen s = .ok () s' ∧
      (∀ i, l.getLast? = some i → chosen i = true → getItemsT f t s' = .ok [] s') ∧
      ((∀ i, l.getLast? = some i → chosen i = false) → getItemsT f t s' = .ok (l.filter (fun i => !chosen i)) s') ∧
      s'.gs.trace.map Prod.fst = s.gs.trace.map Prod.fst ++ (l.filter chosen).map (.itemRemoved f) ∧
      (∀ j, s'.heap j = if j ∈ l ∧ chosen j then { s.heap j with frame := "" } else s.heap j) ∧
      (∀ x u, (x, u) ≠ (f, t) → ∀ k, getItems x u s' = .ok k s' ↔ getItems x u s = .ok k s) ∧
      (∀ x, s'.gs.g.vertexOf x = s.gs.g.vertexOf x) ∧ GS.getEdges s'.gs = GS.getEdges s.gs ∧
      s'.gs.subs = s.gs.subs ∧ s'.gs.views = s.gs.views := by
  obtain ⟨s', h1, h2, h3, h4, h5⟩ := removeLoop_exact f t chosen l [] s (run_wf hs) (by simpa using hl) hn hf l.length (le_refl _)
  refine ⟨s', ?_, ?_, ?_, h5, h4, h2.lists, h2.verts, by simp [GS.getEdges, h2.edges], h2.subs, h2.views⟩
  · simpa only [removeChosen, hl, List.length_nil] using h1
  · intro i hi hc
    rw [h3]; simp [lastChosen, hi, hc]
  · intro h
    rw [h3]
    have : lastChosen chosen l = false := by
      unfold lastChosen
      cases hg : l.getLast? with
      | none => rfl
      | some i => exact h i hg
    simp [this]

/-- the items 0 and 1 are removed, 2 is left; the item of the other type and that of the other frame stay -/
example : ∃ s s' : EG Int, run C110_cmds (init C110_heap) = some s ∧ getItemsT "a" 7 s = .ok [0, 1, 2] s ∧
    removeChosen "a" 7 (fun i => i ≠ 2) s = .ok () s' ∧ getItemsT "a" 7 s' = .ok [2] s' ∧ getItemsT "a" 8 s' = .ok [3] s' ∧
    getItemsT "b" 7 s' = .ok [4] s' ∧ s'.gs.trace.map Prod.fst = s.gs.trace.map Prod.fst ++ [.itemRemoved "a" 0, .itemRemoved "a" 1] ∧
    (s'.heap 1).frame = "" ∧ (s'.heap 2).frame = "a" :=
  ⟨_, _, rfl, rfl, rfl, rfl, rfl, rfl, rfl, rfl, rfl⟩

/-- Missing compared to `C110_statement`: a chosen item at the end of a list from which something is kept. -/
theorem C110_removes_chosen_partial (heap : ItemId → ItemObj) (cs : List (Cmd E)) {s : EG E} (hs : run cs (init heap) = some s) {f : FrameId}
    {t : TypeIdx} {l : List ItemId} (chosen : ItemId → Bool) (hl : getItemsT f t s = .ok l s) (hn : l.Nodup)
    (hf : ∀ i ∈ l, (s.heap i).frame = f) (hlast : (∀ i, l.getLast? = some i → chosen i = false) ∨ ∀ i ∈ l, chosen i = true) :
    ∃ s', removeChosen f t chosen s = .ok () s' ∧ getItemsT f t s' = .ok (l.filter (fun i => !chosen i)) s' ∧
      s'.gs.trace.map Prod.fst = s.gs.trace.map Prod.fst ++ (l.filter chosen).map (.itemRemoved f) := by
  obtain ⟨s', h1, h2, h3, h4, -⟩ := C110_exact heap cs hs chosen hl hn (fun i hi _ => hf i hi)
  refine ⟨s', h1, ?_, h4⟩
  rcases hlast with h | h
  · exact h3 h
  · have he : l.filter (fun i => !chosen i) = [] := List.filter_eq_nil_iff.2 (fun i hi => by simp [h i hi])
    rw [he]
    cases hg : l.getLast? with
    | none =>
      have := h3 (by simp [hg])
      rwa [he] at this
    | some i => exact h2 i hg (h i (List.mem_of_getLast? hg))

/-- every second item; and all items -/
example : ∃ s s' s'' : EG Int, run C110_cmds (init C110_heap) = some s ∧
    removeChosen "a" 7 (fun i => i == 1) s = .ok () s' ∧ getItemsT "a" 7 s' = .ok [0, 2] s' ∧
    removeChosen "a" 7 (fun _ => true) s = .ok () s'' ∧ getItemsT "a" 7 s'' = .ok [] s'' ∧
    s''.gs.trace.map Prod.fst = s.gs.trace.map Prod.fst ++ [.itemRemoved "a" 0, .itemRemoved "a" 1, .itemRemoved "a" 2] :=
  ⟨_, _, _, rfl, rfl, rfl, rfl, rfl, rfl⟩

/-- In all other cases the items that should be kept are lost: the list is empty although something should be left. -/
theorem C110_loses_the_rest (heap : ItemId → ItemObj) (cs : List (Cmd E)) {s : EG E} (hs : run cs (init heap) = some s) {f : FrameId}
    {t : TypeIdx} {l : List ItemId} (chosen : ItemId → Bool) (hl : getItemsT f t s = .ok l s) (hn : l.Nodup)
    (hf : ∀ i ∈ l, (s.heap i).frame = f) {i j : ItemId} (hi : l.getLast? = some i) (hc : chosen i = true) (hj : j ∈ l) (hk : chosen j = false) :
    ∃ s', removeChosen f t chosen s = .ok () s' ∧ getItemsT f t s' = .ok [] s' ∧ Event.itemRemoved f j ∉ (l.filter chosen).map (Event.itemRemoved f) ∧
      s'.gs.trace.map Prod.fst = s.gs.trace.map Prod.fst ++ (l.filter chosen).map (.itemRemoved f) ∧ (s'.heap j).frame = f := by
  obtain ⟨s', h1, h2, -, h4, h5, -⟩ := C110_exact heap cs hs chosen hl hn (fun i hi _ => hf i hi)
  refine ⟨s', h1, h2 i hi hc, ?_, h4, ?_⟩
  · simp [hk]
  · rw [h5, if_neg (by simp [hk])]; exact hf j hj

/-- the first and the last item are removed: item 1 is gone too, but still names the frame -/
example : ∃ s s' : EG Int, run C110_cmds (init C110_heap) = some s ∧
    removeChosen "a" 7 (fun i => i ≠ 1) s = .ok () s' ∧ getItemsT "a" 7 s' = .ok [] s' ∧
    s'.gs.trace.map Prod.fst = s.gs.trace.map Prod.fst ++ [.itemRemoved "a" 0, .itemRemoved "a" 2] ∧ (s'.heap 1).frame = "a" :=
  ⟨_, _, rfl, rfl, rfl, rfl, rfl⟩

/-- A chosen item that does not know that it is in the frame: undefined (the assert of `removeItemFromFrame`). -/
theorem C110_foreign_frame (heap : ItemId → ItemObj) (cs : List (Cmd E)) {s : EG E} (hs : run cs (init heap) = some s) {f : FrameId}
    {t : TypeIdx} (chosen : ItemId → Bool) {l : List ItemId} (hl : getItemsT f t s = .ok l s) {j : ItemId} (hj : j ∈ l)
    (hc : chosen j = true) (hf : (s.heap j).frame ≠ f) : ∃ r, removeChosen f t chosen s = .ub r := by
  obtain ⟨r, hr⟩ := removeLoop_foreign hc l [] s (run_wf hs) (by simpa using hl) hj hf l.length (le_refl _)
  exact ⟨r, by simpa only [removeChosen, hl, List.length_nil] using hr⟩

/-- item 1 was given another frame name by hand -/
example : ∃ s : EG Int, run (C110_cmds ++ [.setItemFrame 1 "b"]) (init C110_heap) = some s ∧
    removeChosen "a" 7 (fun i => i == 1) s = .ub "removeItemFromFrame: assert" ∧ (∃ s', removeChosen "a" 7 (fun i => i == 0) s = .ok () s') :=
  ⟨_, rfl, rfl, _, rfl⟩

/-- A chosen item that is listed twice: undefined as well, since the first removal takes the name of the frame from it. -/
theorem C110_listed_twice (heap : ItemId → ItemObj) (cs : List (Cmd E)) {s : EG E} (hs : run cs (init heap) = some s) {f : FrameId}
    (hne : f ≠ "") {t : TypeIdx} (chosen : ItemId → Bool) {a b : List ItemId} {j : ItemId}
    (hl : getItemsT f t s = .ok (a ++ j :: b) s) (hj : j ∈ a) (hc : chosen j = true) : ∃ r, removeChosen f t chosen s = .ub r := by
  by_cases hfr : ∀ i ∈ a ++ j :: b, chosen i = true → (s.heap i).frame = f
  · obtain ⟨r, hr⟩ := removeLoop_twice hne hc (a ++ j :: b) [] s (run_wf hs) (by simpa using hl) hfr ⟨a, b, rfl, hj⟩
      (a ++ j :: b).length (le_refl _)
    exact ⟨r, by simpa only [removeChosen, hl, List.length_nil] using hr⟩
  · push Not at hfr
    obtain ⟨i, hi, hci, hfi⟩ := hfr
    exact C110_foreign_frame heap cs hs chosen hl hi hci hfi

/-- item 0 is added a second time -/
example : ∃ s : EG Int, run (C110_cmds ++ [.addItemToFrame "a" 0]) (init C110_heap) = some s ∧ getItemsT "a" 7 s = .ok [0, 1, 2, 0] s ∧
    removeChosen "a" 7 (fun i => i == 0) s = .ub "removeItemFromFrame: assert" :=
  ⟨_, rfl, rfl, rfl⟩

/-- The property does not hold: the last of three items is removed, the other two are gone too. -/
theorem C110_statement_fails : ¬ C110_statement := by
  intro h
  obtain ⟨s', h1, h2, -⟩ := h C110_heap C110_cmds _ rfl "a" 7 [0, 1, 2] (fun i => i == 2) rfl (by decide) (by decide)
  obtain ⟨s'', h3, h4⟩ : ∃ s'' : EG Int, (run C110_cmds (init C110_heap)).map (removeChosen "a" 7 (fun i => i == 2)) = some (.ok () s'') ∧
    getItemsT "a" 7 s'' = .ok [] s'' := ⟨_, rfl, rfl⟩
  have : (run C110_cmds (init C110_heap)).map (removeChosen "a" 7 (fun i => i == 2)) = some (.ok () s') := by
    rw [← h1]; rfl
  rw [h3] at this
  simp only [Option.some.injEq, Res.ok.injEq, true_and] at this
  subst this
  rw [h4] at h2
  simp at h2

/-- the list before and after -/
example : ∃ s s' : EG Int, run C110_cmds (init C110_heap) = some s ∧ getItemsT "a" 7 s = .ok [0, 1, 2] s ∧
    removeChosen "a" 7 (fun i => i == 2) s = .ok () s' ∧ getItemsT "a" 7 s' = .ok [] s' :=
  ⟨_, _, rfl, rfl, rfl, rfl⟩

end Verif
