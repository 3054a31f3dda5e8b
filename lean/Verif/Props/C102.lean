import Verif.Lemmas.ItemOrderRuns
import Verif.Props.C52
import Verif.Spec.Demo
/-! # C102: the iteration order of the item types of a frame makes no difference

The items of a frame are kept in a `std::unordered_map<std::type_index, ItemList>` (src/items/Frame.hpp:57-60).  The order in which loops
see the types is not specified.  Calls on a graph do not depend on it, except that items of different types may be reported in another order.
Files do: whether a file with an item of an unknown class can be loaded depends on this order. -/

namespace Verif
open EG
variable {E : Type} [EdgeProp E]

/-- **One call**: in two graphs that differ only in the order of the types, every call has the same outcome, and the graphs afterwards again
differ only in this order.  The events are the same up to exchanging neighbouring removals of items of different types. -/
theorem C102_calls (heap : ItemId → ItemObj) (cs : List (Cmd E)) (hcs : ∀ c ∈ cs, c.Sound (fun i => (heap i).type)) (s s' : EG E)
    (hs : run cs (init heap) = some s) (h : Shuffle (fun i => (heap i).type) s s') (c : Cmd E) (hc : c.Sound (fun i => (heap i).type)) :
    SameOutcome (fun i => (heap i).type) Eq (exec c s) (exec c s') :=
  (exec_linked hc (h.linked (run_proper hcs (Proper.init heap) hs))).outcome

/-- **Histories**: whatever orders the loops see, anew before each call, every call throws the same exception as without shuffles, and the graph, the
views, the items and the events at the end are the same up to the order of the types. -/
theorem C102_histories (heap : ItemId → ItemObj) (cs : List (Cmd E)) (hcs : ∀ c ∈ cs, c.Sound (fun i => (heap i).type)) (xs : List (Option Exn))
    (s' : EG E) (h : RunShuffled (fun i => (heap i).type) cs (init heap) xs s') :
    ∃ s, outcomes cs (init heap) = some (xs, s) ∧ Shuffle (fun i => (heap i).type) s s' := by
  obtain ⟨s, h1, h2⟩ := h.follows hcs ((Shuffle.refl _).linked (Proper.init heap))
  exact ⟨s, h1, h2.shuffle⟩

/-- **Undefined behaviour** comes in all orders or in none. -/
theorem C102_breaks (heap : ItemId → ItemObj) (cs : List (Cmd E)) (hcs : ∀ c ∈ cs, c.Sound (fun i => (heap i).type)) :
    CanBreak (fun i => (heap i).type) cs (init heap : EG E) ↔ outcomes cs (init heap : EG E) = none :=
  ⟨fun h => h.breaks hcs ((Shuffle.refl _).linked (Proper.init heap)), breaks_canBreak cs⟩

/-- **Questions** have the same answers; only lists over all types come in another order. -/
theorem C102_questions (heap : ItemId → ItemObj) (cs : List (Cmd E)) (hcs : ∀ c ∈ cs, c.Sound (fun i => (heap i).type)) (s s' : EG E)
    (hs : run cs (init heap) = some s) (h : Shuffle (fun i => (heap i).type) s s') (f : FrameId) (t : TypeIdx) (k : Int) :
    SameOutcome (fun i => (heap i).type) Eq (getItems f t s) (getItems f t s') ∧
    SameOutcome (fun i => (heap i).type) Eq (getItemsT f t s) (getItemsT f t s') ∧
    SameOutcome (fun i => (heap i).type) Eq (getItem f t k s) (getItem f t k s') ∧
    SameOutcome (fun i => (heap i).type) Eq (containsItems f t s) (containsItems f t s') ∧
    SameOutcome (fun i => (heap i).type) Eq (getItemCount f t s) (getItemCount f t s') ∧
    SameOutcome (fun i => (heap i).type) Eq (getTotalItemCount f s) (getTotalItemCount f s') ∧
    SameOutcome (fun i => (heap i).type) List.Perm (getItemTypes f s) (getItemTypes f s') ∧
    SameOutcome (fun i => (heap i).type) List.Perm (visitItems f s) (visitItems f s') := by
  have hl := h.linked (run_proper hcs (Proper.init heap) hs)
  refine ⟨(getItems_linked f t hl).outcome, (getItemsT_linked f t hl).outcome, (getItem_linked f t k hl).outcome,
    (readFrame_linked f ?_ hl).outcome, (readFrame_linked f ?_ hl).outcome, (readFrame_linked f ?_ hl).outcome,
    (readFrame_linked f ?_ hl).outcome, (readFrame_linked f ?_ hl).outcome⟩
  · intro a b hab ha
    rw [hab.get ha]
  · intro a b hab ha
    rw [hab.get ha]
  · intro a b hab ha
    rw [EFrame.totalItemCount_eq, EFrame.totalItemCount_eq]
    exact (visit_perm hab).length_eq.symm
  · intro a b hab ha
    exact (hab.items.map _).symm
  · intro a b hab ha
    exact (visit_perm hab).symm

/-- **New and leaving subscribers** get the same events up to exchanging neighbouring events on items of different types. -/
theorem C102_subscribers (heap : ItemId → ItemObj) (cs : List (Cmd E)) (hcs : ∀ c ∈ cs, c.Sound (fun i => (heap i).type)) (s s' : EG E)
    (hs : run cs (init heap) = some s) (h : Shuffle (fun i => (heap i).type) s s') :
    Option.Rel (EventsAlike (fun i => (heap i).type)) (publishCurrentState s) (publishCurrentState s') ∧
    Option.Rel (EventsAlike (fun i => (heap i).type)) (unpublishCurrentState s) (unpublishCurrentState s') :=
  have hl := h.linked (run_proper hcs (Proper.init heap) hs)
  ⟨publish_linked hl, unpublish_linked hl⟩

/-- What `EventsAlike` keeps: the events on frames and connections in their order, and for each type the events on items of this type in their
order. -/
theorem C102_events (ty : ItemId → TypeIdx) (l l' : List Event) (h : EventsAlike ty l l') (keep : Event → Bool) (t : TypeIdx)
    (hk : ∀ f i, (keep (.itemAdded f i) = true → ty i = t) ∧ (keep (.itemRemoved f i) = true → ty i = t)) :
    l.filter keep = l'.filter keep ∧ l.Perm l' := by
  induction h with
  | nil => exact ⟨rfl, .nil⟩
  | cons e _ ih => exact ⟨by rw [List.filter_cons, List.filter_cons, ih.1], ih.2.cons e⟩
  | @added f i j l hij =>
    refine ⟨?_, .swap _ _ _⟩
    by_cases h1 : keep (.itemAdded f i) = true <;> by_cases h2 : keep (.itemAdded f j) = true
    · exact absurd (((hk f i).1 h1).trans ((hk f j).1 h2).symm) hij
    all_goals simp [h1, h2]
  | @removed f i j l hij =>
    refine ⟨?_, .swap _ _ _⟩
    by_cases h1 : keep (.itemRemoved f i) = true <;> by_cases h2 : keep (.itemRemoved f j) = true
    · exact absurd (((hk f i).2 h1).trans ((hk f j).2 h2).symm) hij
    all_goals simp [h1, h2]
  | trans _ _ ih1 ih2 => exact ⟨ih1.1.trans ih2.1, ih1.2.trans ih2.2⟩

/-- **Files, as far as it holds**: if the loader knows every class that the saver knows, the maps can be loaded in every order, and the
same types come back with the same items. -/
theorem C102_files_partial {D : Type} (R : Registry) (H : String → Bool) (hH : ∀ c, R.hasHandle c = true → H c = true) (heap : ItemId → SObj D)
    (m m' : AMap TypeIdx (List ItemId)) (hm : C51_Map heap m) (hp : m'.Perm m) :
    ∃ w w' k k' a a', OArchive.saveMap (E := E) R heap m OArchive.new = .ok () w ∧ OArchive.saveMap (E := E) R heap m' OArchive.new = .ok () w' ∧
      IArchive.loadMap H (IArchive.new w.out) = .ok k a ∧ IArchive.loadMap H (IArchive.new w'.out) = .ok k' a' ∧ a.toks = [] ∧ a'.toks = [] ∧
      k'.keys.Perm k.keys ∧
      ∀ t, (k.get t).map (List.map fun i => a.objs[i]?) = (k'.get t).map (List.map fun i => a'.objs[i]?) := by
  have hm' : C51_Map heap m' := ⟨(hp.map _).nodup_iff.2 hm.oneList, fun t l h => hm.noEmpty t l (hp.mem_iff.1 h),
    fun t l i h => hm.types t l i (hp.mem_iff.1 h)⟩
  obtain ⟨w, k, a, ρ, h1, h2, h3, h4, h5, h6, -⟩ := C51_load_saved (E := E) R H hH heap m hm
  obtain ⟨w', k', a', ρ', h1', h2', h3', h4', h5', h6', -⟩ := C51_load_saved (E := E) R H hH heap m' hm'
  refine ⟨w, w', k, k', a, a', h1, h1', h2, h2', h3, h3', ?_, ?_⟩
  · rw [h4, h4']
    exact (hp.map _).filter _
  · intro t
    have hg : m'.get t = m.get t := AMap.get_of_perm hm.oneList hp t
    by_cases hs : R.serializable t = true
    · cases hx : m.get t with
      | none =>
        have n1 : k.get t = none := by
          rw [AMap.get_eq_none_iff, h4]
          intro h
          exact AMap.get_eq_none_iff.1 hx (List.mem_filter.1 h).1
        have n2 : k'.get t = none := by
          rw [AMap.get_eq_none_iff, h4']
          intro h
          exact AMap.get_eq_none_iff.1 (hg.trans hx) (List.mem_filter.1 h).1
        rw [n1, n2]; rfl
      | some l =>
        obtain ⟨b1, b2⟩ := h6 t l hs hx
        obtain ⟨b1', b2'⟩ := h6' t l hs (hg.trans hx)
        rw [b1, b1']
        simp only [Option.map_some, List.map_map]
        congr 1
        apply List.map_congr_left
        intro i hi
        simp only [Function.comp]
        rw [b2 i hi, b2' i hi]
    · have hs' : R.serializable t = false := by simpa using hs
      rw [h5 t hs', h5' t hs']
      rfl

/-- **Files in general**: if the loader does not know the class of one item, then some orders can be loaded and some cannot.  This is so
for every map of items with handles in which a single item is of an unknown class and there is at least one other type. -/
theorem C102_files_depend {D : Type} (R : Registry) (H : String → Bool) (heap : ItemId → SObj D) (m : AMap TypeIdx (List ItemId)) (hm : C51_Map heap m)
    (hs : ∀ t ∈ m.keys, R.serializable t = true) (t : TypeIdx) (i : ItemId) (hg : (t, [i]) ∈ m) (hu : ¬ C52_known R H t)
    (hk : ∀ t' ∈ m.keys, t' ≠ t → C52_known R H t') (h2 : 2 ≤ m.length) :
    ∃ m1 m2, m1.Perm m ∧ m2.Perm m ∧
      (∃ w k a, OArchive.saveMap (E := E) R heap m1 OArchive.new = .ok () w ∧ IArchive.loadMap H (IArchive.new w.out) = .ok k a) ∧
      ∃ w e, OArchive.saveMap (E := E) R heap m2 OArchive.new = .ok () w ∧ IArchive.loadMap H (IArchive.new w.out) = .ub e := by
  have key : ∀ m' : AMap TypeIdx (List ItemId), m'.Perm m → C51_Map heap m' ∧ ∀ t ∈ m'.keys, R.serializable t = true := by
    intro m' hp
    exact ⟨⟨(hp.map _).nodup_iff.2 hm.oneList, fun t l h => hm.noEmpty t l (hp.mem_iff.1 h), fun t l i h => hm.types t l i (hp.mem_iff.1 h)⟩,
      fun t ht => hs t ((hp.map _).mem_iff.1 ht)⟩
  obtain ⟨p, q, hpq⟩ := List.append_of_mem hg
  have hp1 : ((p ++ q) ++ [(t, [i])]).Perm m := by
    rw [hpq, List.append_assoc]
    exact List.Perm.append_left p (List.perm_append_comm (l₁ := q) (l₂ := [(t, [i])]))
  have hp2 : ((t, [i]) :: (p ++ q)).Perm m := by
    rw [hpq]
    exact List.perm_middle.symm
  have hnk : t ∉ AMap.keys (p ++ q) := by
    have : (AMap.keys ((t, [i]) :: (p ++ q))).Nodup := (hp2.map _).nodup_iff.2 hm.oneList
    exact (List.nodup_cons.1 this).1
  refine ⟨(p ++ q) ++ [(t, [i])], (t, [i]) :: (p ++ q), hp1, hp2, ?_, ?_⟩
  · obtain ⟨k1, k2⟩ := key _ hp1
    obtain ⟨w, k, a, h3, h4, -⟩ := C52_last_item_partial (E := E) R H heap (p ++ q) t i k1 k2
      (fun t' ht' => hk t' ((hp1.map Prod.fst).mem_iff.1 (by
          rw [List.map_append]; exact List.mem_append.2 (Or.inl ht'))) (fun h => hnk (h ▸ ht'))) hu
    exact ⟨w, k, a, h3, h4⟩
  · obtain ⟨k1, k2⟩ := key _ hp2
    refine C52_out_of_step (E := E) R H heap _ k1 k2 ⟨t, [i], by simp, hu, ?_⟩
    rintro ⟨h, -⟩
    have hne : p ++ q ≠ [] := by
      intro h0
      rw [← hp2.length_eq, h0] at h2
      simp at h2
    rw [List.getLast?_cons, List.getLast?_eq_some_getLast hne] at h
    simp only [Option.getD_some, Option.some.injEq] at h
    exact hnk (List.mem_map.2 ⟨_, List.getLast_mem hne, by rw [h]⟩)

/-- the property for files: two orders of the same map can both be loaded or both cannot -/
def C102_statement : Prop := ∀ (R : Registry) (H : String → Bool) (heap : ItemId → SObj Int) (m m' : AMap TypeIdx (List ItemId)),
  C51_Map heap m → m'.Perm m → ∀ w w' k a, OArchive.saveMap (E := Unit) R heap m OArchive.new = .ok () w →
    OArchive.saveMap (E := Unit) R heap m' OArchive.new = .ok () w' → IArchive.loadMap H (IArchive.new w.out) = .ok k a →
    ∃ k' a', IArchive.loadMap H (IArchive.new w'.out) = .ok k' a'

/-- one item of class "A" and one of class "B"; the loader knows "A" -/
theorem C102_statement_fails : ¬ C102_statement := by
  intro h
  have hm : C51_Map C51_heap [(1, [5]), (2, [12])] := by
    constructor
    · decide
    · rintro t l h rfl
      simp at h
    · intro t l i h hi
      simp only [List.mem_cons, List.not_mem_nil, or_false, Prod.mk.injEq] at h
      rcases h with ⟨rfl, rfl⟩ | ⟨rfl, rfl⟩ <;> simp only [List.mem_singleton] at hi <;> subst hi <;> rfl
  obtain ⟨k', a', h1⟩ := h C51_reg (fun c => c = "A") C51_heap [(1, [5]), (2, [12])] [(2, [12]), (1, [5])] hm (.swap _ _ _) _ _ _ _ rfl rfl rfl
  cases h1

namespace C102

/-- items 0–9 have type 1, the others type 2 -/
def heap (i : ItemId) : ItemObj := ⟨if i < 10 then 1 else 2, ""⟩

/-- two frames, items of two types in one of them, one item removed again -/
def demo : List (Cmd Int) :=
  [.graph (.addEdge "a" "b" 5), .addItemToFrame "a" 1, .addItemToFrame "a" 12, .addItemToFrame "a" 2, .addItemToFrame "a" 13, .removeItem 1,
    .addItemToFrame "b" 14]

/-- the map of frame "a" with the types exchanged -/
def turned (s : EG Int) : EG Int :=
  { s with gs := { s.gs with g := { s.gs.g with verts := s.gs.g.verts.map fun r => { r with prop := { r.prop with items := r.prop.items.reverse } } } } }

theorem turned_shuffle (s : EG Int) : Shuffle (fun i => (heap i).type) s (turned s) := by
  refine ⟨⟨?_, rfl, rfl, rfl, rfl, rfl⟩, rfl, rfl, rfl, .refl _⟩
  simp only [turned]
  generalize s.gs.g.verts = l
  induction l with
  | nil => exact .nil
  | cons r l ih => exact .cons ⟨rfl, rfl, ⟨rfl, List.reverse_perm _⟩⟩ ih

example : ∀ c ∈ demo, c.Sound (fun i => (heap i).type) := by
  intro c hc
  simp only [demo, List.mem_cons, List.not_mem_nil, or_false] at hc
  rcases hc with rfl | rfl | rfl | rfl | rfl | rfl | rfl <;> trivial

/-- the same answers in both orders; the types come in another order -/
example : (run demo (init heap)).map (fun s => ((getItems "a" 2 s).val?, (getItems "a" 2 (turned s)).val?, (getItemTypes "a" s).val?,
      (getItemTypes "a" (turned s)).val?, (visitItems "a" s).val?, (visitItems "a" (turned s)).val?)) =
    some (some [12, 13], some [12, 13], some [1, 2], some [2, 1], some [2, 12, 13], some [12, 13, 2]) := by rfl

/-- `clearFrame` in both orders: items of one type are removed in the same order -/
example : (run demo (init heap)).bind (fun s => ((exec (.clearFrame "a") s).st?.map fun s' => (s'.gs.trace.drop s.gs.trace.length).map Prod.fst)) =
      some [.itemRemoved "a" 2, .itemRemoved "a" 12, .itemRemoved "a" 13] ∧
    (run demo (init heap)).bind (fun s => ((exec (.clearFrame "a") (turned s)).st?.map fun s' => (s'.gs.trace.drop s.gs.trace.length).map Prod.fst)) =
      some [.itemRemoved "a" 12, .itemRemoved "a" 13, .itemRemoved "a" 2] := by decide +kernel

/-- a history with a shuffle before the last call -/
example : ∀ s s', run demo (init heap) = some s → exec (.clearFrame "a") (turned s) = .ok () s' →
    RunShuffled (fun i => (heap i).type) [.clearFrame "a"] s [none] s' :=
  fun s s' _ h => .ok (turned_shuffle s) h (.nil (.refl s'))

/-- items 0-9, 10-19 and the rest have three types -/
def heap3 (i : ItemId) : ItemObj := ⟨if i < 10 then 1 else if i < 20 then 2 else 3, ""⟩

/-- items of three types in one frame -/
def three : List (Cmd Int) := [.graph (.addFrame "a"), .addItemToFrame "a" 1, .addItemToFrame "a" 12, .addItemToFrame "a" 23, .addItemToFrame "a" 13]

/-- the questions about a frame: numbers, types, single items -/
example : (run three (init heap3)).map (fun s => ((getTotalItemCount "a" s).val?, (getTotalItemCount "a" (turned s)).val?, (getItemTypes "a" s).val?,
      (getItemTypes "a" (turned s)).val?, (getItem "a" 2 1 s).val?, (getItem "a" 2 1 (turned s)).val?)) =
    some (some 4, some 4, some [1, 2, 3], some [3, 2, 1], some 13, some 13) := by rfl

/-- removing the only item of its type removes the type, whether it is the first, the last or in between -/
example : (run three (init heap3)).bind (fun s => (exec (.removeItem 23) s).st?.map fun r => ((getItemTypes "a" r).val?, (getItems "a" 2 r).val?)) =
      some (some [1, 2], some [12, 13]) ∧
    (run three (init heap3)).bind (fun s => (exec (.removeItem 23) (turned s)).st?.map fun r => ((getItemTypes "a" r).val?, (getItems "a" 2 r).val?)) =
      some (some [2, 1], some [12, 13]) ∧
    (run three (init heap3)).bind (fun s => (exec (.removeItem 1) (turned s)).st?.map fun r => ((getItemTypes "a" r).val?, (getItems "a" 2 r).val?)) =
      some (some [3, 2], some [12, 13]) := by decide +kernel

/-- publishing and unpublishing in both orders -/
example : (run three (init heap3)).map (fun s => (publishCurrentState s, publishCurrentState (turned s), unpublishCurrentState s)) =
    some (some [.frameAdded "a", .itemAdded "a" 1, .itemAdded "a" 12, .itemAdded "a" 13, .itemAdded "a" 23],
      some [.frameAdded "a", .itemAdded "a" 23, .itemAdded "a" 12, .itemAdded "a" 13, .itemAdded "a" 1],
      some [.itemRemoved "a" 1, .itemRemoved "a" 12, .itemRemoved "a" 13, .itemRemoved "a" 23, .frameRemoved "a"]) := by decide +kernel

end C102

end Verif
