import Verif.Lemmas.Archive
/-! # C51: saving and loading a frame's items gives the same items back -/

namespace Verif
variable {D E : Type}

/-- An item map as the frames of a graph have them: one list per type, no empty list, every item in the list of its type. -/
structure C51_Map (heap : ItemId → SObj D) (m : AMap TypeIdx (List ItemId)) : Prop where
  oneList : m.keys.Nodup
  noEmpty : ∀ t l, (t, l) ∈ m → l ≠ []
  types : ∀ t l i, (t, l) ∈ m → i ∈ l → (heap i).type = t

/-- If the loader knows every class that the saver knows, saving never throws, loading succeeds and reads everything that was
written.  A type for which the saver has no handle is missing afterwards.  Every other type has its list with the same items in the
same order: the loaded item number `ρ i` has type, time, uuid, frame and data of `i`; the same item is the same object again, and
different items stay different. -/
theorem C51_load_saved (R : Registry) (H : String → Bool) (hH : ∀ c, R.hasHandle c = true → H c = true) (heap : ItemId → SObj D)
    (m : AMap TypeIdx (List ItemId)) (hm : C51_Map heap m) :
    ∃ w m' a ρ, OArchive.saveMap (E := E) R heap m OArchive.new = .ok () w ∧ IArchive.loadMap H (IArchive.new w.out) = .ok m' a ∧
      a.toks = [] ∧
      m'.keys = m.keys.filter R.serializable ∧
      (∀ t, R.serializable t = false → m'.get t = none) ∧
      (∀ t l, R.serializable t = true → m.get t = some l → m'.get t = some (l.map ρ) ∧ ∀ i ∈ l, a.objs[ρ i]? = some (heap i)) ∧
      (∀ t l i t' l' j, R.serializable t = true → m.get t = some l → i ∈ l → R.serializable t' = true → m.get t' = some l' → j ∈ l' →
        ρ i = ρ j → i = j) := by
  have hp : OArchive.Proper heap m := ⟨hm.oneList, fun p h => hm.noEmpty p.1 p.2 h, fun p h i hi => hm.types p.1 p.2 i h hi⟩
  obtain ⟨w, h1, -, -⟩ := OArchive.saveMap_goes (E := E) (S := []) (H := H) (fun t c _ h => hH c h) hp OArchive.new
  obtain ⟨w', h1', h2, h3⟩ := OArchive.saveMap_goes (E := E) (S := w.saved) (H := H) (fun t c _ h => hH c h) hp OArchive.new
  obtain rfl : w = w' := by rw [h1] at h1'; simpa using h1'
  have hr := h2.reads List.prefix_rfl w.out [] rfl
  rw [List.append_nil] at hr
  have hmem : ∀ {t l i}, R.serializable t = true → m.get t = some l → i ∈ l → i ∈ w.saved :=
    fun hs hg hi => h3 _ (AMap.mem_of_get hg) hs _ hi
  refine ⟨w, _, _, w.saved.idxOf, h1, hr, rfl, ?_, ?_, ?_, ?_⟩
  · simp only [AMap.keys, OArchive.renameMap, List.map_map, List.filter_map]
    rfl
  · intro t ht
    rw [OArchive.get_renameMap, AMap.get_filter_key, ht]; rfl
  · intro t l ht hg
    refine ⟨by rw [OArchive.get_renameMap, AMap.get_filter_key, ht, if_pos rfl, hg]; rfl, fun i hi => ?_⟩
    have hlt : w.saved.idxOf i < w.saved.length := List.idxOf_lt_length_iff.2 (hmem ht hg hi)
    simp [List.getElem?_map, List.getElem?_eq_getElem hlt]
  · intro t l i t' l' j ht hg hi ht' hg' hj he
    exact (List.idxOf_inj (hmem ht hg hi)).1 he

/-- The property: if every type in the map has a handle, all types, items, orders and members come back. -/
theorem C51_round_trip (R : Registry) (H : String → Bool) (hH : ∀ c, R.hasHandle c = true → H c = true) (heap : ItemId → SObj D)
    (m : AMap TypeIdx (List ItemId)) (hm : C51_Map heap m) (hs : ∀ t ∈ m.keys, R.serializable t = true) :
    ∃ w m' a, OArchive.saveMap (E := E) R heap m OArchive.new = .ok () w ∧ IArchive.loadMap H (IArchive.new w.out) = .ok m' a ∧
      a.toks = [] ∧ m'.keys = m.keys ∧
      ∀ t l, m.get t = some l → ∃ l', m'.get t = some l' ∧ l'.map (fun k => a.objs[k]?) = l.map (fun i => some (heap i)) := by
  obtain ⟨w, m', a, ρ, h1, h2, h3, h4, -, h5, -⟩ := C51_load_saved (E := E) R H hH heap m hm
  refine ⟨w, m', a, h1, h2, h3, ?_, ?_⟩
  · rw [h4, List.filter_eq_self]; exact hs
  · intro t l hg
    have ht : R.serializable t = true := hs t (List.mem_map.2 ⟨_, AMap.mem_of_get hg, rfl⟩)
    obtain ⟨a1, a2⟩ := h5 t l ht hg
    refine ⟨_, a1, ?_⟩
    rw [List.map_map]
    exact List.map_congr_left (fun i hi => a2 i hi)

/-- two types; the item 5 is in the list twice -/
def C51_heap (i : ItemId) : SObj Int := if i < 10 then ⟨1, 100 + i, i, "f", -3⟩ else ⟨2, 7, i, "g", 8⟩
def C51_reg : Registry := ⟨fun t => if t = 1 then some "A" else if t = 2 then some "B" else none, fun c => c = "A" ∨ c = "B"⟩

example : ∃ w, OArchive.saveMap (E := Unit) C51_reg C51_heap [(1, [5, 3, 5]), (2, [12])] OArchive.new = .ok () w ∧ w.saved = [5, 3, 12] ∧
      ∃ a, IArchive.loadMap C51_reg.hasHandle (IArchive.new w.out) = .ok [(1, [0, 1, 0]), (2, [2])] a ∧
        a.objs = [⟨1, 105, 5, "f", -3⟩, ⟨1, 103, 3, "f", -3⟩, ⟨2, 7, 12, "g", 8⟩] :=
  ⟨_, rfl, rfl, _, rfl, rfl⟩

/-- the saver has no handle for "B" -/
example : ∃ w a, OArchive.saveMap (E := Unit) { C51_reg with hasHandle := fun c => c = "A" } C51_heap [(2, [12]), (1, [5])] OArchive.new =
      .ok () w ∧ IArchive.loadMap C51_reg.hasHandle (IArchive.new w.out) = .ok [(1, [0])] a := ⟨_, _, rfl, rfl⟩

end Verif
