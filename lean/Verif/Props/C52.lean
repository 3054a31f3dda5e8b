import Verif.Props.C51
/-! # C52: unknown item types are dropped without damaging the others

`Serialization::load` returns `false` for an unknown class after it has read the class name, but it leaves the item itself in the
archive.  Whatever is read next is read from the middle of that item. -/

namespace Verif
variable {D E : Type}

/-- does the loader know the class of type `t`? -/
def C52_known (R : Registry) (H : String → Bool) (t : TypeIdx) : Prop := ∀ c, R.className t = some c → H c = true

/-- The property: loading succeeds; exactly the types whose class the loader does not know are missing; all other lists are loaded
and the archive was read to its end. -/
def C52_statement : Prop := ∀ (R : Registry) (H : String → Bool) (heap : ItemId → SObj Int) (m : AMap TypeIdx (List ItemId)),
  C51_Map heap m → (∀ t ∈ m.keys, R.serializable t = true) → ∀ w, OArchive.saveMap (E := Unit) R heap m OArchive.new = .ok () w →
    ∃ m' a, IArchive.loadMap H (IArchive.new w.out) = .ok m' a ∧ a.toks = [] ∧
      (∀ t, ¬ C52_known R H t → m'.get t = none) ∧
      ∀ t l, C52_known R H t → m.get t = some l → ∃ l', m'.get t = some l' ∧ l'.map (fun k => a.objs[k]?) = l.map (fun i => some (heap i))

private theorem splitUnknown {R : Registry} {H : String → Bool} : ∀ (m : AMap TypeIdx (List ItemId)),
    (∃ p ∈ m, ¬ C52_known R H p.1) → ∃ m1 t l m2, m = m1 ++ (t, l) :: m2 ∧ (∀ p ∈ m1, C52_known R H p.1) ∧ ¬ C52_known R H t := by
  intro m
  induction m with
  | nil => simp
  | cons p m ih =>
    intro h
    by_cases hp : C52_known R H p.1
    · have : ∃ q ∈ m, ¬ C52_known R H q.1 := by
        obtain ⟨q, hq, h'⟩ := h
        rcases List.mem_cons.1 hq with rfl | hq
        · exact absurd hp h'
        · exact ⟨q, hq, h'⟩
      obtain ⟨m1, t, l, m2, rfl, h1, h2⟩ := ih this
      refine ⟨p :: m1, t, l, m2, rfl, ?_, h2⟩
      intro q hq
      rcases List.mem_cons.1 hq with rfl | hq
      · exact hp
      · exact h1 q hq
    · exact ⟨[], p.1, p.2, m, rfl, by simp, hp⟩

private theorem loadUnknown (R : Registry) (H : String → Bool) (heap : ItemId → SObj D) (m1 m2 : AMap TypeIdx (List ItemId)) (t : TypeIdx)
    (l : List ItemId) (hm : C51_Map heap (m1 ++ (t, l) :: m2)) (hs : ∀ t' ∈ (m1 ++ (t, l) :: m2).keys, R.serializable t' = true)
    (h1 : ∀ p ∈ m1, C52_known R H p.1) (ht : ¬ C52_known R H t) :
    ∃ w, OArchive.saveMap (E := E) R heap (m1 ++ (t, l) :: m2) OArchive.new = .ok () w ∧
      if l.length = 1 ∧ m2 = [] then
        ∃ ρ p ts os, IArchive.loadMap H (IArchive.new w.out) = .ok (OArchive.renameMap ρ m1) ⟨p :: ts, os⟩ ∧ (IArchive.ptr? p).isSome = true ∧
          ∀ q ∈ m1, ∀ i ∈ q.2, os[ρ i]? = some (heap i)
      else ∃ e, IArchive.loadMap H (IArchive.new w.out) = .ub e := by
  have hp : OArchive.Proper heap (m1 ++ (t, l) :: m2) :=
    ⟨hm.oneList, fun p h => hm.noEmpty p.1 p.2 h, fun p h i hi => hm.types p.1 p.2 i h hi⟩
  have hser : ∀ p ∈ m1 ++ (t, l) :: m2, R.serializable p.1 = true := fun p h => hs p.1 (List.mem_map.2 ⟨p, h, rfl⟩)
  have hf : (m1 ++ (t, l) :: m2).filter (fun p => OArchive.savesList R heap p.2) = m1 ++ (t, l) :: m2 := by
    rw [OArchive.filter_saves hp, List.filter_eq_self]; exact hser
  have hp1 : OArchive.Proper heap m1 := ⟨(List.nodup_append.1 (by simpa [AMap.keys] using hm.oneList)).1,
    fun p h => hp.full p (by simp [h]), fun p h => hp.types p (by simp [h])⟩
  have hp2 : OArchive.Proper heap ((t, l) :: m2) := ⟨(List.nodup_append.1 (by simpa [AMap.keys] using hm.oneList)).2.1,
    fun p h => hp.full p (by simp [List.mem_cons.1 h]), fun p h => hp.types p (by simp [List.mem_cons.1 h])⟩
  have hk : ∀ p ∈ m1, OArchive.Knows R H p.1 := fun p hp c hc _ => h1 p hp c hc
  obtain ⟨w1, a1, -, -⟩ := OArchive.saveTypes_goes (E := E) (S := []) (R := R) m1
    (OArchive.put [.size (m1 ++ (t, l) :: m2).length] OArchive.new) [] hk (fun p h => hser p (by simp [h])) hp1 (by simp [AMap.keys])
  obtain ⟨w1', a1', a2, a3⟩ := OArchive.saveTypes_goes (E := E) (S := w1.saved) (R := R) m1
    (OArchive.put [.size (m1 ++ (t, l) :: m2).length] OArchive.new) [] hk (fun p h => hser p (by simp [h])) hp1 (by simp [AMap.keys])
  obtain rfl : w1 = w1' := by rw [a1] at a1'; simpa using a1'
  obtain ⟨i, l', rfl⟩ : ∃ i l', l = i :: l' := List.exists_cons_of_ne_nil (hp.full (t, l) (by simp))
  obtain ⟨c, hc, hHc⟩ : ∃ c, R.className t = some c ∧ H c = false := by
    simp only [C52_known, not_forall] at ht
    obtain ⟨c, hc, h⟩ := ht
    exact ⟨c, hc, by simpa using h⟩
  have hcs : R.hasHandle c = true := by
    have := hser (t, i :: l') (by simp)
    simpa [Registry.serializable, hc] using this
  obtain ⟨w2, p, ts, b1, b2, b3⟩ := OArchive.saveTypes_unknown hc hcs hp2 (fun p h => hser p (by simp [h])) w1
  have hsave : OArchive.saveMap (E := E) R heap (m1 ++ (t, i :: l') :: m2) OArchive.new = .ok () w2 := by
    simp only [OArchive.saveMap, hf]
    rw [OArchive.saveTypes_append _ _ _ _ a1, b1]
  refine ⟨w2, hsave, ?_⟩
  obtain ⟨t1, e1⟩ := a2.out
  have hout : w2.out = .size (m1 ++ (t, i :: l') :: m2).length :: (t1 ++ .size (l'.length + 1) :: .str c :: p :: ts) := by
    rw [b2, ← e1]; simp [OArchive.put, OArchive.new]
  have hload : IArchive.loadMap H (IArchive.new w2.out) =
      IArchive.loadTypes H (m2.length + 1) (OArchive.renameMap w1.saved.idxOf m1)
        ⟨.size (l'.length + 1) :: .str c :: p :: ts, w1.saved.map heap⟩ := by
    rw [IArchive.loadMap, IArchive.new, hout]
    show IArchive.loadTypes H (m1 ++ (t, i :: l') :: m2).length [] _ = _
    rw [List.length_append, List.length_cons, OArchive.loadTypes_add]
    have := a2.reads List.prefix_rfl t1 (.size (l'.length + 1) :: .str c :: p :: ts) e1.symm
    simp only [OArchive.put, OArchive.new, List.map_nil, List.nil_append] at this
    rw [this]; rfl
  rw [hload, OArchive.loadTypes_stuck hHc b3]
  have hcond : (l'.length = 0 ∧ m2.length = 0) ↔ ((i :: l').length = 1 ∧ m2 = []) := by simp
  by_cases h : (i :: l').length = 1 ∧ m2 = []
  · rw [if_pos h, if_pos (hcond.2 h)]
    refine ⟨_, _, _, _, rfl, b3, ?_⟩
    intro q hq j hj
    have hlt : w1.saved.idxOf j < w1.saved.length := List.idxOf_lt_length_iff.2 (a3 q hq j hj)
    simp [List.getElem?_map, List.getElem?_eq_getElem hlt]
  · rw [if_neg h, if_neg (fun h' => h (hcond.1 h'))]
    exact ⟨_, rfl⟩

/-- If the loader does not know the class of some type, and that is not the type of the very last item saved (a single item in the
last list), the archive is read out of step.  So the property fails for all these maps, whatever the other items are. -/
theorem C52_out_of_step (R : Registry) (H : String → Bool) (heap : ItemId → SObj D) (m : AMap TypeIdx (List ItemId))
    (hm : C51_Map heap m) (hs : ∀ t ∈ m.keys, R.serializable t = true)
    (hu : ∃ t l, (t, l) ∈ m ∧ ¬ C52_known R H t ∧ ¬ (m.getLast? = some (t, l) ∧ l.length = 1)) :
    ∃ w e, OArchive.saveMap (E := E) R heap m OArchive.new = .ok () w ∧ IArchive.loadMap H (IArchive.new w.out) = .ub e := by
  obtain ⟨t, l, hmem, ht, hlast⟩ := hu
  obtain ⟨m1, t0, l0, m2, rfl, h1, h2⟩ := splitUnknown m ⟨(t, l), hmem, ht⟩
  obtain ⟨w, hw, h⟩ := loadUnknown (E := E) R H heap m1 m2 t0 l0 hm hs h1 h2
  rw [if_neg] at h
  · obtain ⟨e, he⟩ := h; exact ⟨w, e, hw, he⟩
  · rintro ⟨h3, rfl⟩
    rcases List.mem_append.1 hmem with h' | h'
    · exact ht (h1 _ h')
    · obtain ⟨rfl, rfl⟩ : t = t0 ∧ l = l0 := by simpa using h'
      exact hlast ⟨by simp, h3⟩

/-- Missing compared to C52: everything but the maps where the only unknown item is the very last one saved.  For these the unknown
item is dropped and all others are loaded, but the content of the unknown item stays in the archive: the next token is a pointer,
where the reader expects a number or a text. -/
theorem C52_last_item_partial (R : Registry) (H : String → Bool) (heap : ItemId → SObj D) (m1 : AMap TypeIdx (List ItemId)) (t : TypeIdx)
    (i : ItemId) (hm : C51_Map heap (m1 ++ [(t, [i])])) (hs : ∀ t' ∈ (m1 ++ [(t, [i])]).keys, R.serializable t' = true)
    (h1 : ∀ t' ∈ m1.keys, C52_known R H t') (ht : ¬ C52_known R H t) :
    ∃ w m' a, OArchive.saveMap (E := E) R heap (m1 ++ [(t, [i])]) OArchive.new = .ok () w ∧ IArchive.loadMap H (IArchive.new w.out) = .ok m' a ∧
      m'.get t = none ∧
      (∀ t' l, m1.get t' = some l → ∃ l', m'.get t' = some l' ∧ l'.map (fun k => a.objs[k]?) = l.map (fun j => some (heap j))) ∧
      (∃ e, a.read IArchive.size? = .ub e) ∧ ∃ e, a.read IArchive.str? = .ub e := by
  obtain ⟨w, hw, h⟩ := loadUnknown (E := E) R H heap m1 [] t [i] hm hs (fun p hp => h1 p.1 (List.mem_map.2 ⟨p, hp, rfl⟩)) ht
  rw [if_pos ⟨rfl, rfl⟩] at h
  obtain ⟨ρ, p, ts, os, h3, h4, h5⟩ := h
  refine ⟨w, _, _, hw, h3, ?_, ?_, ?_⟩
  · rw [OArchive.get_renameMap]
    cases hg : AMap.get m1 t with
    | none => rfl
    | some l => exact absurd (h1 t (List.mem_map.2 ⟨_, AMap.mem_of_get hg, rfl⟩)) ht
  · intro t' l hg
    refine ⟨l.map ρ, by rw [OArchive.get_renameMap, hg]; rfl, ?_⟩
    rw [List.map_map]
    exact List.map_congr_left (fun j hj => h5 _ (AMap.mem_of_get hg) j hj)
  · have e1 : IArchive.str? p = none := by cases p <;> simp_all [IArchive.ptr?, IArchive.str?]
    have e2 : IArchive.size? p = none := by cases p <;> simp_all [IArchive.ptr?, IArchive.size?]
    exact ⟨⟨"archive out of step", by simp [IArchive.read, e2]⟩, ⟨"archive out of step", by simp [IArchive.read, e1]⟩⟩

private theorem loadKnown (R : Registry) (H : String → Bool) (heap : ItemId → SObj D) (m : AMap TypeIdx (List ItemId)) (hm : C51_Map heap m)
    (hs : ∀ t ∈ m.keys, R.serializable t = true) (h1 : ∀ t ∈ m.keys, C52_known R H t) :
    ∃ w ρ a, OArchive.saveMap (E := E) R heap m OArchive.new = .ok () w ∧
      IArchive.loadMap H (IArchive.new w.out) = .ok (OArchive.renameMap ρ m) a := by
  have hp : OArchive.Proper heap m := ⟨hm.oneList, fun p h => hm.noEmpty p.1 p.2 h, fun p h i hi => hm.types p.1 p.2 i h hi⟩
  have hser : ∀ p ∈ m, R.serializable p.1 = true := fun p h => hs p.1 (List.mem_map.2 ⟨p, h, rfl⟩)
  have hf : m.filter (fun p => OArchive.savesList R heap p.2) = m := by rw [OArchive.filter_saves hp, List.filter_eq_self]; exact hser
  have hk : ∀ p ∈ m, OArchive.Knows R H p.1 := fun p hp c hc _ => h1 p.1 (List.mem_map.2 ⟨p, hp, rfl⟩) c hc
  obtain ⟨w1, a1, -, -⟩ := OArchive.saveTypes_goes (E := E) (S := []) (R := R) m
    (OArchive.put [.size m.length] OArchive.new) [] hk hser hp (by simp [AMap.keys])
  obtain ⟨w1', a1', a2, -⟩ := OArchive.saveTypes_goes (E := E) (S := w1.saved) (R := R) m
    (OArchive.put [.size m.length] OArchive.new) [] hk hser hp (by simp [AMap.keys])
  obtain rfl : w1 = w1' := by rw [a1] at a1'; simpa using a1'
  obtain ⟨t1, e1⟩ := a2.out
  refine ⟨w1, w1.saved.idxOf, ⟨[], w1.saved.map heap⟩, by simp only [OArchive.saveMap, hf]; exact a1, ?_⟩
  have hout : w1.out = .size m.length :: t1 := by rw [← e1]; simp [OArchive.put, OArchive.new]
  rw [IArchive.loadMap, IArchive.new, hout]
  show IArchive.loadTypes H m.length [] _ = _
  have := a2.reads List.prefix_rfl t1 [] e1.symm
  simp only [OArchive.put, OArchive.new, List.map_nil, List.nil_append, List.append_nil] at this
  rw [this]

private theorem loadMapLog_eq (H : String → Bool) (n : Nat) (ts : List (Tok D E)) :
    IArchive.loadMapLog H (IArchive.new (.size n :: ts)) =
      IArchive.bind (IArchive.loadMap H (IArchive.new (.size n :: ts))) fun m a =>
        .ok (m, if m.length < n then some (n - m.length) else none) a := rfl

private theorem saveMap_head {R : Registry} {heap : ItemId → SObj D} {m : AMap TypeIdx (List ItemId)} (hm : C51_Map heap m)
    (hs : ∀ t ∈ m.keys, R.serializable t = true) {w : OArchive D E} (h : OArchive.saveMap R heap m OArchive.new = .ok () w) :
    ∃ ts, w.out = .size m.length :: ts := by
  have hp : OArchive.Proper heap m := ⟨hm.oneList, fun p h => hm.noEmpty p.1 p.2 h, fun p h i hi => hm.types p.1 p.2 i h hi⟩
  have hser : ∀ p ∈ m, R.serializable p.1 = true := fun p h => hs p.1 (List.mem_map.2 ⟨p, h, rfl⟩)
  have hf : m.filter (fun p => OArchive.savesList R heap p.2) = m := by rw [OArchive.filter_saves hp, List.filter_eq_self]; exact hser
  obtain ⟨w1, a1, a2, -⟩ := OArchive.saveTypes_goes (E := E) (S := []) (R := R) (H := fun _ => true) m
    (OArchive.put [.size m.length] OArchive.new) [] (fun _ _ _ _ _ => rfl) hser hp (by simp [AMap.keys])
  obtain rfl : w = w1 := by
    simp only [OArchive.saveMap, hf] at h
    rw [a1] at h; simpa using h.symm
  obtain ⟨t1, e1⟩ := a2.out
  exact ⟨t1, by rw [← e1]; simp [OArchive.put, OArchive.new]⟩

/-- Whenever loading what was saved returns normally, the log is right: exactly the types whose class the loader does not know are missing,
the error message tells how many they are, and there is none if nothing is missing. -/
theorem C52_log (R : Registry) (H : String → Bool) (heap : ItemId → SObj D) (m m' : AMap TypeIdx (List ItemId)) (hm : C51_Map heap m)
    (hs : ∀ t ∈ m.keys, R.serializable t = true) (w : OArchive D E) (hw : OArchive.saveMap R heap m OArchive.new = .ok () w)
    (r : Option Nat) (a : IArchive D E) (h : IArchive.loadMapLog H (IArchive.new w.out) = .ok (m', r) a) :
    (∀ t ∈ m.keys, t ∉ m'.keys ↔ ¬ C52_known R H t) ∧ r.getD 0 = (m.keys.filter (fun t => decide (t ∉ m'.keys))).length ∧ r ≠ some 0 := by
  obtain ⟨ts, hts⟩ := saveMap_head hm hs hw
  rw [hts, loadMapLog_eq, ← hts] at h
  by_cases hall : ∀ t ∈ m.keys, C52_known R H t
  · obtain ⟨w', ρ, a', h1, h2⟩ := loadKnown (E := E) R H heap m hm hs hall
    obtain rfl : w = w' := by rw [hw] at h1; simpa using h1
    rw [h2] at h
    simp only [IArchive.bind, Res.ok.injEq, Prod.mk.injEq] at h
    obtain ⟨⟨rfl, rfl⟩, -⟩ := h
    have hkeys : (OArchive.renameMap ρ m).keys = m.keys := by simp [OArchive.renameMap, AMap.keys]
    have hlen : (OArchive.renameMap ρ m).length = m.length := by simp [OArchive.renameMap]
    rw [hkeys, hlen]
    refine ⟨fun t ht => by simp [ht, hall t ht], ?_, by simp⟩
    rw [List.filter_eq_nil_iff.2 (by simp)]
    simp
  · obtain ⟨m1, t0, l0, m2, rfl, h1, h2⟩ := splitUnknown (R := R) (H := H) m (by
      simp only [not_forall] at hall
      obtain ⟨t, ht, hu⟩ := hall
      obtain ⟨p, hp, rfl⟩ := List.mem_map.1 ht
      exact ⟨p, hp, hu⟩)
    obtain ⟨w', hw', hl⟩ := loadUnknown (E := E) R H heap m1 m2 t0 l0 hm hs h1 h2
    obtain rfl : w = w' := by rw [hw] at hw'; simpa using hw'
    by_cases hc : l0.length = 1 ∧ m2 = []
    · rw [if_pos hc] at hl
      obtain ⟨ρ, p, ts', os, h3, -, -⟩ := hl
      obtain ⟨-, rfl⟩ := hc
      rw [h3] at h
      simp only [IArchive.bind, Res.ok.injEq, Prod.mk.injEq] at h
      obtain ⟨⟨rfl, rfl⟩, -⟩ := h
      have hkeys : (OArchive.renameMap ρ m1).keys = AMap.keys m1 := by simp [OArchive.renameMap, AMap.keys]
      have hlen : (OArchive.renameMap ρ m1).length = m1.length := by simp [OArchive.renameMap]
      have hk : AMap.keys (m1 ++ [(t0, l0)]) = AMap.keys m1 ++ [t0] := by simp [AMap.keys]
      have hn := hm.oneList
      rw [hk] at hn
      have hnot : t0 ∉ AMap.keys m1 := fun hin => (List.nodup_append.1 hn).2.2 t0 hin t0 (by simp) rfl
      have h1' : ∀ t ∈ AMap.keys m1, C52_known R H t := by
        intro t ht
        obtain ⟨p, hp, rfl⟩ := List.mem_map.1 ht
        exact h1 p hp
      rw [hkeys, hlen, hk]
      refine ⟨?_, ?_, by simp⟩
      · intro t ht
        rcases List.mem_append.1 ht with ht | ht
        · simp [ht, h1' t ht]
        · obtain rfl : t = t0 := by simpa using ht
          simp [hnot, h2]
      · rw [List.filter_append, List.filter_eq_nil_iff.2 (by simp)]
        simp [hnot]
    · rw [if_neg hc] at hl
      obtain ⟨e, he⟩ := hl
      rw [he] at h
      cases h

/-- nothing missing: no message; the unknown item at the end: one type -/
example : ∃ w w2 a a2, OArchive.saveMap (E := Unit) C51_reg C51_heap [(1, [5]), (2, [12])] OArchive.new = .ok () w ∧
    IArchive.loadMapLog (fun _ => true) (IArchive.new w.out) = .ok ([(1, [0]), (2, [1])], none) a ∧
    OArchive.saveMap (E := Unit) C51_reg C51_heap [(1, [5, 3]), (2, [12])] OArchive.new = .ok () w2 ∧
    IArchive.loadMapLog (fun c => c = "A") (IArchive.new w2.out) = .ok ([(1, [0, 1])], some 1) a2 := ⟨_, _, _, _, rfl, rfl, rfl, rfl⟩

/-- a map with the unknown class "B" before the known class "A" -/
theorem C52_statement_fails : ¬ C52_statement := by
  intro h
  have hm : C51_Map C51_heap [(2, [12]), (1, [5])] := by
    constructor
    · decide
    · rintro t l h rfl
      simp at h
    · intro t l i h hi
      simp only [List.mem_cons, List.not_mem_nil, or_false, Prod.mk.injEq] at h
      rcases h with ⟨rfl, rfl⟩ | ⟨rfl, rfl⟩ <;> simp only [List.mem_singleton] at hi <;> subst hi <;> rfl
  have hs : ∀ t ∈ AMap.keys ([(2, [12]), (1, [5])] : AMap TypeIdx (List ItemId)), C51_reg.serializable t = true := by decide
  obtain ⟨m', a, h1, -⟩ := h C51_reg (fun c => c = "A") C51_heap _ hm hs _ rfl
  cases h1

/-- out of step: the map of `C52_statement_fails` -/
example : ∃ w, OArchive.saveMap (E := Unit) C51_reg C51_heap [(2, [12]), (1, [5])] OArchive.new = .ok () w ∧
    IArchive.loadMap (fun c => c = "A") (IArchive.new w.out) = .ub "archive out of step" := ⟨_, rfl, rfl⟩

/-- the unknown item comes last -/
example : ∃ w a, OArchive.saveMap (E := Unit) C51_reg C51_heap [(1, [5]), (2, [12])] OArchive.new = .ok () w ∧
    IArchive.loadMap (fun c => c = "A") (IArchive.new w.out) = .ok [(1, [0])] a ∧ a.toks.length = 5 := ⟨_, _, rfl, rfl, rfl⟩

end Verif
