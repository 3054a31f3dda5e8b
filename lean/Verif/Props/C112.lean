import Verif.Lemmas.ItemClass
import Verif.Spec.Demo
/-! # C112: typed access finds the items of the class

`getItems<T>`, `getItem<T>`, `getItemCount<T>`, `containsItems<T>` and `GraphItemEventDispatcher<T>` search for `typeid(T)`; frames
and events sort the items by what their virtual `getTypeInfo` says. -/

namespace Verif
open EG
variable {E : Type} [EdgeProp E]

/-- After any history that removes items by pointer and creates frames empty, `getItems<T>(frame)` gives items of class `T` or of
classes that derive from it, and every item of the frame whose class is `T` is among them. -/
def C112_statement (E : Type) [EdgeProp E] : Prop :=
  ∀ (heap : ItemId → ItemObj) (C : ItemClasses heap) (cs : List (EG.Cmd E)), (∀ c ∈ cs, c.byPointer) →
    ∀ s : EG E, EG.run cs (EG.init heap) = some s → ∀ (f : FrameId) (all : List ItemId), visitItems f s = .ok all s → ∀ T : ICls,
      ∃ l, typedItems C f T s = .ok l s ∧ (∀ i ∈ l, i ∈ all ∧ (C.cls i).castsTo T = true) ∧ ∀ i ∈ all, C.cls i = T → i ∈ l

/-- the class `SpatialItem<D>` of the examples, `Item<D>`, a class that derives from the first and tells its own type, and one that
derives from that -/
def C112_spatial : ICls := .derived 0 (.item 4) false
def C112_own : ICls := .derived 1 C112_spatial true
def C112_sub : ICls := .derived 2 C112_own false

def C112_cls : ItemId → ICls
  | 0 => .item 4
  | 1 => C112_spatial
  | 2 => C112_own
  | 3 => C112_sub
  | _ => .item 5

def C112_cmds : List (EG.Cmd Int) :=
  [.graph (.addFrame "a"), .addItemToFrame "a" 0, .addItemToFrame "a" 1, .addItemToFrame "a" 2, .addItemToFrame "a" 3,
    .addItemToFrame "a" 4]

omit [EdgeProp E] in
private theorem frame_of_visit {s : EG E} {f : FrameId} {all : List ItemId} (h : visitItems f s = .ok all s) :
    (s.gs.g.vertexOf f).isSome := by
  unfold visitItems readFrame at h
  cases hv : s.gs.g.vertexOf f with
  | none => simp [hv] at h
  | some v => rfl

/-- What typed access gives: the items of the frame whose `getTypeInfo` names `T`, in the order of the visit. No dereference meets a
null pointer, and the number and the test for presence go with the list. -/
theorem C112_exact (heap : ItemId → ItemObj) (C : ItemClasses heap) (cs : List (EG.Cmd E)) (hcs : ∀ c ∈ cs, c.byPointer) {s : EG E}
    (hs : EG.run cs (EG.init heap) = some s) {f : FrameId} {all : List ItemId} (hv : visitItems f s = .ok all s) (T : ICls) :
    typedItems C f T s = .ok (all.filter (fun i => (C.cls i).typeInfo = T)) s ∧
    getItemCount f (C.tid T) s = .ok (all.countP (fun i => (C.cls i).typeInfo = T)) s ∧
    (∃ b, containsItems f (C.tid T) s = .ok b s ∧ (b = true ↔ ∃ i ∈ all, (C.cls i).typeInfo = T)) ∧
    ∀ k : Nat, typedItem C f T k s =
      if ∃ i ∈ all, (C.cls i).typeInfo = T then
        match (all.filter (fun i => (C.cls i).typeInfo = T))[k]? with
        | some i => .ok i s
        | none => .throw .outOfRange s
      else .throw (.noItemsOfType f) s := by
  obtain ⟨L, A⟩ := run_answers hcs hs (frame_of_visit hv)
  obtain ⟨lv, b1, b2, b3⟩ := A.visit
  have hlv : lv = all := by rw [hv] at b1; simpa using b1.symm
  subst hlv
  have hfil : L.filter (fun i => (heap i).type = C.tid T) = lv.filter (fun i => (C.cls i).typeInfo = T) := by
    rw [← b3 (C.tid T)]
    exact List.filter_congr (fun i _ => by simp only [type_eq_iff])
  have hcast : ∀ i ∈ lv.filter (fun i => (C.cls i).typeInfo = T), (C.cls i).castsTo T = true := by
    intro i hi
    have := (List.mem_filter.1 hi).2
    simp only [decide_eq_true_eq] at this
    rw [← this]
    exact ICls.castsTo_typeInfo _
  refine ⟨?_, ?_, ?_, ?_⟩
  · unfold typedItems
    rw [A.itemsT]
    dsimp only
    rw [hfil, if_pos (List.all_eq_true.2 hcast)]
  · rw [A.count, List.countP_eq_length_filter, hfil, ← List.countP_eq_length_filter]
  · obtain ⟨b, c1, c2⟩ := A.contains (C.tid T)
    refine ⟨b, c1, c2.trans ?_⟩
    exact ⟨fun ⟨i, h1, h2⟩ => ⟨i, b2.mem_iff.2 h1, (type_eq_iff C i T).1 h2⟩,
      fun ⟨i, h1, h2⟩ => ⟨i, b2.mem_iff.1 h1, (type_eq_iff C i T).2 h2⟩⟩
  · intro k
    unfold typedItem
    rw [A.item, hfil, if_neg (by omega)]
    by_cases hn : ∃ i ∈ lv, (C.cls i).typeInfo = T
    · have hne : lv.filter (fun i => (C.cls i).typeInfo = T) ≠ [] := by
        obtain ⟨i, h1, h2⟩ := hn
        exact List.ne_nil_of_mem (List.mem_filter.2 ⟨h1, by simpa using h2⟩)
      rw [if_neg hne, if_pos hn, Int.toNat_natCast]
      cases hk : (lv.filter (fun i => (C.cls i).typeInfo = T))[k]? with
      | none => rfl
      | some i => dsimp only; rw [if_pos (hcast i (List.mem_of_getElem? hk))]
    · have he : lv.filter (fun i => (C.cls i).typeInfo = T) = [] := by
        rw [List.filter_eq_nil_iff]
        intro i hi h
        exact hn ⟨i, hi, by simpa using h⟩
      rw [if_pos he, if_neg hn]

/-- five items: the spatial one is listed as a plain item, the class without its own type under its base -/
example : (EG.run C112_cmds (EG.init (ICls.heapOf C112_cls))).map (fun s =>
      ((typedItems (ICls.classes C112_cls) "a" (.item 4) s).val?, (typedItems (ICls.classes C112_cls) "a" C112_spatial s).val?,
       (typedItems (ICls.classes C112_cls) "a" C112_own s).val?, (typedItems (ICls.classes C112_cls) "a" C112_sub s).val?)) =
      some (some [0, 1], some [], some [2, 3], some []) ∧
    (EG.run C112_cmds (EG.init (ICls.heapOf C112_cls))).map (fun s =>
      ((typedItem (ICls.classes C112_cls) "a" C112_own 1 s).val?, (typedItem (ICls.classes C112_cls) "a" C112_own 2 s).exn?.isSome,
       (typedItem (ICls.classes C112_cls) "a" C112_sub 0 s).exn?.isSome)) =
    some (some 3, true, true) := by decide +kernel

/-- The property fails for a `SpatialItem` that is asked for as what it is. -/
theorem C112_statement_fails : ¬ C112_statement Int := by
  intro h
  have hcs : ∀ c ∈ ([.graph (.addFrame "a"), .addItemToFrame "a" 1] : List (EG.Cmd Int)), c.byPointer := by
    intro c hc
    simp only [List.mem_cons, List.not_mem_nil, or_false] at hc
    rcases hc with rfl | rfl <;> trivial
  obtain ⟨s, hs, hv⟩ : ∃ s : EG Int, EG.run [.graph (.addFrame "a"), .addItemToFrame "a" 1] (EG.init (ICls.heapOf C112_cls)) = some s ∧
      visitItems "a" s = .ok [1] s := ⟨_, rfl, rfl⟩
  obtain ⟨l, h1, -, h3⟩ := h (ICls.heapOf C112_cls) (ICls.classes C112_cls) _ hcs s hs "a" [1] hv C112_spatial
  have h4 := h3 1 (by simp) rfl
  rw [(C112_exact (ICls.heapOf C112_cls) (ICls.classes C112_cls) _ hcs hs hv C112_spatial).1] at h1
  cases h1
  exact absurd h4 (by decide)

/-- the part that holds: for a class that tells its own type the statement is true, and the items found are those of `T` and of the
classes below it down to the next class that tells its own type -/
theorem C112_finds_partial (heap : ItemId → ItemObj) (C : ItemClasses heap) (cs : List (EG.Cmd E)) (hcs : ∀ c ∈ cs, c.byPointer)
    {s : EG E} (hs : EG.run cs (EG.init heap) = some s) {f : FrameId} {all : List ItemId} (hv : visitItems f s = .ok all s)
    {T : ICls} (hT : T.typeInfo = T) :
    ∃ l, typedItems C f T s = .ok l s ∧ (∀ i ∈ l, i ∈ all ∧ (C.cls i).castsTo T = true) ∧ ∀ i ∈ all, C.cls i = T → i ∈ l := by
  refine ⟨_, (C112_exact heap C cs hcs hs hv T).1, ?_, ?_⟩
  · intro i hi
    obtain ⟨h1, h2⟩ := List.mem_filter.1 hi
    simp only [decide_eq_true_eq] at h2
    exact ⟨h1, by rw [← h2]; exact ICls.castsTo_typeInfo _⟩
  · intro i hi h
    exact List.mem_filter.2 ⟨hi, by simp [h, hT]⟩

/-- a plain item class and one with its own type -/
example : (ICls.item 4).typeInfo = .item 4 ∧ C112_own.typeInfo = C112_own ∧
    (EG.run C112_cmds (EG.init (ICls.heapOf C112_cls))).map (fun s => (typedItems (ICls.classes C112_cls) "a" C112_own s).val?) =
      some (some [2, 3]) := ⟨rfl, rfl, by decide +kernel⟩

/-- A class that does not tell its own type is never found, whatever the frame holds: the list is empty, the number 0, the test
negative and the single item an exception. -/
theorem C112_never_found (heap : ItemId → ItemObj) (C : ItemClasses heap) (cs : List (EG.Cmd E)) (hcs : ∀ c ∈ cs, c.byPointer)
    {s : EG E} (hs : EG.run cs (EG.init heap) = some s) {f : FrameId} {all : List ItemId} (hv : visitItems f s = .ok all s)
    {T : ICls} (hT : T.typeInfo ≠ T) :
    typedItems C f T s = .ok [] s ∧ getItemCount f (C.tid T) s = .ok 0 s ∧ containsItems f (C.tid T) s = .ok false s ∧
      ∀ k : Nat, typedItem C f T k s = .throw (.noItemsOfType f) s := by
  have hno : ∀ i, (C.cls i).typeInfo ≠ T := fun i h => hT (by rw [← h]; exact ICls.typeInfo_idem _)
  obtain ⟨h1, h2, ⟨b, h3, h4⟩, h5⟩ := C112_exact heap C cs hcs hs hv T
  refine ⟨?_, ?_, ?_, ?_⟩
  · simpa [hno] using h1
  · simpa [hno] using h2
  · cases b with
    | false => exact h3
    | true => obtain ⟨i, -, h⟩ := h4.1 rfl; exact absurd h (hno i)
  · intro k
    rw [h5 k, if_neg]
    exact fun ⟨i, _, h⟩ => hno i h

/-- two spatial items in the frame, none found as such -/
example : C112_spatial.typeInfo ≠ C112_spatial ∧
    (EG.run [.graph (.addFrame "a"), .addItemToFrame "a" 0, .addItemToFrame "a" 9] (EG.init (E := Int) (ICls.heapOf (fun _ => C112_spatial)))).map
      (fun s => ((typedItems (ICls.classes (fun _ => C112_spatial)) "a" C112_spatial s).val?,
        (typedItems (ICls.classes (fun _ => C112_spatial)) "a" (.item 4) s).val?, (getTotalItemCount "a" s).val?)) =
      some (some [], some [0, 9], some 2) := ⟨by decide, by decide +kernel⟩

/-- Exactly the classes that tell their own type can be found: `T` is found if and only if an item of class `T` would be. -/
theorem C112_found_iff (heap : ItemId → ItemObj) (C : ItemClasses heap) (cs : List (EG.Cmd E)) (hcs : ∀ c ∈ cs, c.byPointer)
    {s : EG E} (hs : EG.run cs (EG.init heap) = some s) {f : FrameId} {all : List ItemId} (hv : visitItems f s = .ok all s)
    {i : ItemId} (hi : i ∈ all) :
    (∃ l, typedItems C f (C.cls i) s = .ok l s ∧ i ∈ l) ↔ (C.cls i).typeInfo = C.cls i := by
  constructor
  · rintro ⟨l, h1, h2⟩
    rw [(C112_exact heap C cs hcs hs hv (C.cls i)).1] at h1
    cases h1
    simpa using (List.mem_filter.1 h2).2
  · intro h
    exact ⟨_, (C112_exact heap C cs hcs hs hv (C.cls i)).1, List.mem_filter.2 ⟨hi, by simpa using h⟩⟩

/-- each of the five items, asked for by its class -/
example : (EG.run C112_cmds (EG.init (ICls.heapOf C112_cls))).map (fun s => [0, 1, 2, 3, 4].map (fun i =>
      ((typedItems (ICls.classes C112_cls) "a" (C112_cls i) s).val?.map (fun l => decide (i ∈ l))))) =
    some [some true, some false, some true, some false, some true] := by decide +kernel

/-- The dispatcher of class `T` is called exactly for the items whose `getTypeInfo` names `T`, and never with a null pointer. -/
theorem C112_dispatcher (heap : ItemId → ItemObj) (C : ItemClasses heap) (T : ICls) (e : Event) :
    classNotify C T e = match e with
      | .itemAdded _ i => if (C.cls i).typeInfo = T then [(e, some i)] else []
      | .itemRemoved _ i => if (C.cls i).typeInfo = T then [(e, some i)] else []
      | _ => [] := by
  have h : ∀ i, (C.cls i).typeInfo = T → (C.cls i).castsTo T = true := fun i h => by rw [← h]; exact ICls.castsTo_typeInfo _
  cases e <;> simp only [classNotify, type_eq_iff]
  all_goals
    split
    · rename_i hi; rw [if_pos (h _ hi)]
    · rfl

/-- the dispatchers of four classes get the announcement of a spatial item: only that of the plain item class calls its function -/
example : [.item 4, C112_spatial, C112_own, C112_sub].map (fun T => classNotify (ICls.classes C112_cls) T (.itemAdded "a" 1)) =
    [[(.itemAdded "a" 1, some 1)], [], [], []] := by decide +kernel

/-- A dispatcher of a class that does not tell its own type is never called. -/
theorem C112_dispatcher_never (heap : ItemId → ItemObj) (C : ItemClasses heap) {T : ICls} (hT : T.typeInfo ≠ T) (e : Event) :
    classNotify C T e = [] := by
  have hno : ∀ i, (C.cls i).typeInfo ≠ T := fun i h => hT (by rw [← h]; exact ICls.typeInfo_idem _)
  rw [C112_dispatcher]
  cases e <;> simp [hno]

/-- a dispatcher of spatial items hears nothing of a spatial item that comes and goes -/
example : [Event.frameAdded "a", .itemAdded "a" 1, .itemRemoved "a" 1].flatMap (classNotify (ICls.classes C112_cls) C112_spatial) = [] := by
  decide +kernel

end Verif
