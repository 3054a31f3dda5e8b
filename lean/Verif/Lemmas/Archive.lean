import Verif.Model.Archive
import Verif.Lemmas.Copy
import Verif.Lemmas.ItemCopy

set_option linter.unusedSectionVars false
set_option linter.unusedSimpArgs false
/-! # Archives: what was saved can be loaded -/

namespace Verif
variable {D E : Type}

/-- `w'` comes from `w` by saving something, and `ld` reads it back with the result `x`.  `S`: all objects saved in the end. -/
structure Goes (heap : ItemId → SObj D) (S : List ItemId) {α : Type} (w w' : OArchive D E)
    (ld : IArchive D E → Res (IArchive D E) α) (x : α) : Prop where
  out : w.out <+: w'.out
  saved : w.saved <+: w'.saved
  reads : w'.saved <+: S → ∀ ts rest, w'.out = w.out ++ ts →
    ld ⟨ts ++ rest, w.saved.map heap⟩ = .ok x ⟨rest, w'.saved.map heap⟩

namespace Goes
variable {heap : ItemId → SObj D} {S : List ItemId} {α β : Type} {w w1 w2 : OArchive D E}

theorem pure (w : OArchive D E) (x : α) : Goes heap S w w (fun a => .ok x a) x :=
  ⟨List.prefix_rfl, List.prefix_rfl, by
    intro _ ts rest h
    obtain rfl : ts = [] := by simpa using h
    rfl⟩

theorem bind {ld : IArchive D E → Res (IArchive D E) α} {x : α} {k : α → IArchive D E → Res (IArchive D E) β} {y : β}
    (h : Goes heap S w w1 ld x) (h' : Goes heap S w1 w2 (k x) y) : Goes heap S w w2 (fun a => IArchive.bind (ld a) k) y := by
  refine ⟨h.out.trans h'.out, h.saved.trans h'.saved, fun hS ts rest e => ?_⟩
  obtain ⟨t1, e1⟩ := h.out
  obtain ⟨t2, e2⟩ := h'.out
  have : ts = t1 ++ t2 := by
    rw [← e2, ← e1, List.append_assoc] at e
    exact (List.append_cancel_left e).symm
  subst this
  rw [List.append_assoc]
  show IArchive.bind (ld _) k = _
  rw [h.reads (h'.saved.trans hS) t1 (t2 ++ rest) e1.symm]
  exact h'.reads hS t2 rest e2.symm

theorem read {t : Tok D E} {f : Tok D E → Option α} {x : α} (h : f t = some x) (w : OArchive D E) :
    Goes heap S w (w.put [t]) (fun a => a.read f) x := by
  refine ⟨⟨[t], rfl⟩, List.prefix_rfl, fun _ ts rest e => ?_⟩
  obtain rfl : ts = [t] := (List.append_cancel_left e).symm
  simp [IArchive.read, h, OArchive.put]

theorem congr {ld ld' : IArchive D E → Res (IArchive D E) α} {x : α} (h : Goes heap S w w1 ld x) (e : ∀ a, ld' a = ld a) :
    Goes heap S w w1 ld' x := by
  have : ld' = ld := funext e
  rw [this]; exact h

/-- add tokens first -/
theorem after {t : Tok D E} {f : Tok D E → Option α} {x : α} {k : α → IArchive D E → Res (IArchive D E) β} {y : β}
    (h : f t = some x) (h' : Goes heap S (w.put [t]) w2 (k x) y) :
    Goes heap S w w2 (fun a => IArchive.bind (a.read f) k) y := (Goes.read h w).bind h'

end Goes

namespace OArchive

theorem put_put (w : OArchive D E) (a b : List (Tok D E)) : (w.put a).put b = w.put (a ++ b) := by
  simp [put, List.append_assoc]

variable {heap : ItemId → SObj D} {S : List ItemId} {R : Registry} {H : String → Bool}

theorem saveItem_goes (o : SObj D) (w : OArchive D E) :
    Goes heap S w (w.put (saveItem o)) (fun a => IArchive.loadItem o.type a) o := by
  refine (Goes.after (t := .time o.time) rfl <| Goes.after (t := .uuid o.uuid) rfl <| Goes.after (t := .str o.frame) rfl <|
    Goes.after (t := .data o.data) rfl ?_)
  rw [put_put, put_put, put_put]
  exact Goes.pure _ _

theorem savePtr_saved (i : ItemId) (w : OArchive D E) : (w.savePtr heap i).saved = if i ∈ w.saved then w.saved else w.saved ++ [i] := by
  unfold savePtr
  split <;> simp [put, *]

theorem mem_savePtr (i : ItemId) (w : OArchive D E) : i ∈ (w.savePtr heap i).saved := by
  rw [savePtr_saved]; split <;> simp [*]

theorem idxOf_prefix {l S : List ItemId} {i : ItemId} (h : l <+: S) (hi : i ∈ l) : S.idxOf i = l.idxOf i := by
  obtain ⟨t, rfl⟩ := h
  exact List.idxOf_append_of_mem hi

theorem savePtr_goes (i : ItemId) (w : OArchive D E) :
    Goes heap S w (w.savePtr heap i) IArchive.loadPtr (S.idxOf i) := by
  by_cases hi : i ∈ w.saved
  · have e : w.savePtr heap i = w.put [.oldPtr (w.saved.idxOf i)] := by simp [savePtr, hi]
    rw [e]
    refine ⟨⟨_, rfl⟩, List.prefix_rfl, fun hS ts rest h => ?_⟩
    obtain rfl : ts = [.oldPtr (w.saved.idxOf i)] := (List.append_cancel_left h).symm
    have hS' : w.saved <+: S := hS
    have hlt : w.saved.idxOf i < w.saved.length := List.idxOf_lt_length_iff.2 hi
    rw [idxOf_prefix hS' hi]
    simp [IArchive.loadPtr, IArchive.read, IArchive.bind, IArchive.ptr?, hlt, put]
  · have e : w.savePtr heap i = { w.put (.newPtr (heap i).type :: saveItem (heap i)) with saved := w.saved ++ [i] } := by
      simp [savePtr, hi]
    rw [e]
    refine ⟨⟨_, rfl⟩, ⟨[i], rfl⟩, fun hS ts rest h => ?_⟩
    obtain rfl : ts = .newPtr (heap i).type :: saveItem (heap i) := (List.append_cancel_left h).symm
    have hS' : w.saved ++ [i] <+: S := hS
    rw [idxOf_prefix hS' (by simp), List.idxOf_append_of_notMem hi]
    simp [IArchive.loadPtr, IArchive.loadItem, saveItem, IArchive.read, IArchive.bind, IArchive.ptr?, IArchive.time?,
      IArchive.uuid?, IArchive.str?, IArchive.data?, put]

/-- the loader knows the class of a type that the saver saves -/
def Knows (R : Registry) (H : String → Bool) (t : TypeIdx) : Prop := ∀ c, R.className t = some c → R.hasHandle c = true → H c = true

theorem save_goes {i : ItemId} (hH : Knows R H (heap i).type) (hi : R.serializable (heap i).type = true) (w : OArchive D E) :
    (w.save R heap i).1 = true ∧ Goes heap S w (w.save R heap i).2 (IArchive.load H) (some (S.idxOf i)) ∧
      i ∈ (w.save R heap i).2.saved := by
  unfold Registry.serializable at hi
  cases hc : R.className (heap i).type with
  | none => simp [hc] at hi
  | some c =>
    rw [hc] at hi
    replace hi : R.hasHandle c = true := hi
    have e : w.save R heap i = (true, (w.put [.str c]).savePtr heap i) := by simp [save, hc, hi]
    rw [e]
    refine ⟨rfl, Goes.after (t := .str c) (x := c) rfl ?_, mem_savePtr _ _⟩
    simp only [if_pos (hH _ hc hi)]
    exact (savePtr_goes i _).bind (k := fun i a => .ok (some i) a) (Goes.pure _ _)

theorem saveList_goes (l : List ItemId) : ∀ (w : OArchive D E), (∀ i ∈ l, Knows R H (heap i).type) →
    (∀ i ∈ l, R.serializable (heap i).type = true) →
    ∃ w', saveList R heap l w = .ok () w' ∧ Goes heap S w w' (IArchive.loadList H l.length) (l.map S.idxOf) ∧
      ∀ i ∈ l, i ∈ w'.saved := by
  induction l with
  | nil => intro w _ _; exact ⟨w, rfl, Goes.pure _ _, by simp⟩
  | cons i l ih =>
    intro w hH h
    obtain ⟨s1, s2, s3⟩ := save_goes (S := S) (hH i (by simp)) (h i (by simp)) w
    obtain ⟨w', h1, h2, h3⟩ := ih (w.save R heap i).2 (fun j hj => hH j (by simp [hj])) (fun j hj => h j (by simp [hj]))
    refine ⟨w', by simp [saveList, s1, h1], ?_, ?_⟩
    · refine s2.bind (k := fun i a => IArchive.bind (IArchive.loadList H l.length a) fun l a => .ok (i.toList ++ l) a) ?_
      exact h2.bind (k := fun l a => .ok (((some (S.idxOf i) : Option ItemId).toList ++ l)) a) (Goes.pure _ _)
    · intro j hj
      rcases List.mem_cons.1 hj with rfl | hj
      · exact h2.saved.subset s3
      · exact h3 j hj

/-- an item map as the frames of a graph have them -/
structure Proper (heap : ItemId → SObj D) (m : AMap TypeIdx (List ItemId)) : Prop where
  nodup : m.keys.Nodup
  full : ∀ p ∈ m, p.2 ≠ []
  types : ∀ p ∈ m, ∀ i ∈ p.2, (heap i).type = p.1

/-- give the items other numbers -/
def renameMap (ρ : ItemId → ItemId) (m : AMap TypeIdx (List ItemId)) : AMap TypeIdx (List ItemId) :=
  m.map (fun p => (p.1, p.2.map ρ))

theorem get_renameMap (ρ : ItemId → ItemId) (m : AMap TypeIdx (List ItemId)) (t : TypeIdx) :
    (renameMap ρ m).get t = (m.get t).map (List.map ρ) := by
  induction m with
  | nil => rfl
  | cons p m ih =>
    obtain ⟨k, l⟩ := p
    simp only [renameMap, List.map_cons, AMap.get]
    split
    · rfl
    · exact ih

theorem insertNew_absent {K V : Type} [DecidableEq K] {m : AMap K V} {k : K} (h : k ∉ m.keys) (v : V) :
    m.insertNew k v = m ++ [(k, v)] := by
  have : m.get k = none := by
    induction m with
    | nil => rfl
    | cons p m ih =>
      obtain ⟨a, b⟩ := p
      simp only [AMap.keys, List.map_cons, List.mem_cons, not_or] at h
      rw [AMap.get, if_neg (fun e => h.1 e.symm)]
      exact ih h.2
  simp [AMap.insertNew, this]

theorem saveTypes_goes (m : AMap TypeIdx (List ItemId)) : ∀ (w : OArchive D E) (m0 : AMap TypeIdx (List ItemId)),
    (∀ p ∈ m, Knows R H p.1) → (∀ p ∈ m, R.serializable p.1 = true) → Proper heap m → (∀ k ∈ m.keys, k ∉ m0.keys) →
    ∃ w', saveTypes R heap m w = .ok () w' ∧
      Goes heap S w w' (IArchive.loadTypes H m.length m0) (m0 ++ renameMap S.idxOf m) ∧ ∀ p ∈ m, ∀ i ∈ p.2, i ∈ w'.saved := by
  induction m with
  | nil => intro w m0 _ _ _ _; exact ⟨w, rfl, by simpa [renameMap, IArchive.loadTypes] using Goes.pure _ _, by simp⟩
  | cons p m ih =>
    obtain ⟨t, l⟩ := p
    intro w m0 hH hs hp hk
    have hty : ∀ i ∈ l, (heap i).type = t := fun i hi => hp.types (t, l) (by simp) i hi
    have hst : R.serializable t = true := hs (t, l) (by simp)
    obtain ⟨w1, a1, a2, a3⟩ := saveList_goes (S := S) l (w.put [.size l.length])
      (fun i hi => by rw [hty i hi]; exact hH (t, l) (by simp)) (fun i hi => by rw [hty i hi]; exact hst)
    have hn := hp.nodup
    simp only [AMap.keys, List.map_cons, List.nodup_cons] at hn
    have htk : t ∉ m0.keys := hk t (by simp [AMap.keys])
    obtain ⟨w2, b1, b2, b3⟩ := ih w1 (m0 ++ [(t, l.map S.idxOf)]) (fun p hp' => hH p (by simp [hp'])) (fun p hp' => hs p (by simp [hp']))
      ⟨hn.2, fun p h => hp.full p (by simp [h]), fun p h => hp.types p (by simp [h])⟩ (by
        intro k hk'
        simp only [AMap.keys, List.map_append, List.map_cons, List.map_nil, List.mem_append, List.mem_singleton, not_or]
        refine ⟨hk k (by simp only [AMap.keys, List.map_cons, List.mem_cons]; exact Or.inr hk'), ?_⟩
        rintro rfl
        exact hn.1 hk')
    refine ⟨w2, by simp [saveTypes, a1, b1], ?_, ?_⟩
    · refine Goes.after (x := l.length) rfl (a2.bind ?_)
      cases l with
      | nil => exact absurd rfl (hp.full (t, []) (by simp))
      | cons i l =>
        refine ⟨b2.out, b2.saved, fun hS ts rest e => ?_⟩
        have hmem : i ∈ w1.saved := a3 i (by simp)
        have hpre : w1.saved <+: S := b2.saved.trans hS
        have htt : IArchive.typeOf (⟨ts ++ rest, w1.saved.map heap⟩ : IArchive D E) (S.idxOf i) = some t := by
          rw [idxOf_prefix hpre hmem]
          have hlt : w1.saved.idxOf i < w1.saved.length := List.idxOf_lt_length_iff.2 hmem
          simp only [IArchive.typeOf, List.getElem?_map, List.getElem?_eq_getElem hlt, Option.map_some, Option.some.injEq,
            List.getElem_idxOf]
          exact hty i (by simp)
        have := b2.reads hS ts rest e
        simp only [List.map_cons] at this ⊢
        rw [htt]
        simp only [insertNew_absent htk]
        rw [this]
        simp [renameMap, List.append_assoc]
    · intro p hp' i hi
      rcases List.mem_cons.1 hp' with rfl | hp'
      · exact b2.saved.subset (a3 i hi)
      · exact b3 p hp' i hi

theorem Proper.filter {m : AMap TypeIdx (List ItemId)} (h : Proper heap m) (f : TypeIdx × List ItemId → Bool) :
    Proper heap (m.filter f) :=
  ⟨h.nodup.sublist (List.filter_sublist.map _), fun p hp => h.full p (List.mem_filter.1 hp).1,
    fun p hp => h.types p (List.mem_filter.1 hp).1⟩

theorem savesList_eq {m : AMap TypeIdx (List ItemId)} (h : Proper heap m) {p : TypeIdx × List ItemId} (hp : p ∈ m) :
    savesList R heap p.2 = R.serializable p.1 := by
  have h1 := h.full p hp
  have h2 := h.types p hp
  obtain ⟨t, l⟩ := p
  cases l with
  | nil => exact absurd rfl h1
  | cons i l =>
    have := h2 i (by simp)
    simp only at this
    simp [savesList, this]

theorem filter_saves {m : AMap TypeIdx (List ItemId)} (h : Proper heap m) :
    m.filter (fun p => savesList R heap p.2) = m.filter (fun p => R.serializable p.1) :=
  List.filter_congr (fun _ hp => savesList_eq h hp)

theorem saveMap_goes (hH : ∀ t, Knows R H t) {m : AMap TypeIdx (List ItemId)} (hp : Proper heap m) (w : OArchive D E) :
    ∃ w', saveMap R heap m w = .ok () w' ∧
      Goes heap S w w' (IArchive.loadMap H) (renameMap S.idxOf (m.filter (fun p => R.serializable p.1))) ∧
      ∀ p ∈ m, R.serializable p.1 = true → ∀ i ∈ p.2, i ∈ w'.saved := by
  obtain ⟨w', h1, h2, h3⟩ := saveTypes_goes (S := S) (m.filter (fun p => R.serializable p.1))
    (w.put [.size (m.filter (fun p => R.serializable p.1)).length]) [] (fun p _ => hH p.1) (fun p h => (List.mem_filter.1 h).2) (hp.filter _) (by simp [AMap.keys])
  refine ⟨w', by simp only [saveMap, filter_saves hp]; exact h1, ?_, fun p hp' hs => h3 p (List.mem_filter.2 ⟨hp', hs⟩)⟩
  exact Goes.after rfl h2

/-- what the loader gets for a frame -/
def loadedFrame (R : Registry) (ρ : ItemId → ItemId) (fr : EFrame) : EFrame :=
  ⟨fr.id, renameMap ρ (fr.items.filter (fun p => R.serializable p.1))⟩

theorem saveFrame_goes (hH : ∀ t, Knows R H t) {fr : EFrame} (hp : Proper heap fr.items) (w : OArchive D E) :
    ∃ w', saveFrame R heap fr w = .ok () w' ∧ Goes heap S w w' (IArchive.loadFrame H) (loadedFrame R S.idxOf fr) ∧
      ∀ p ∈ fr.items, R.serializable p.1 = true → ∀ i ∈ p.2, i ∈ w'.saved := by
  obtain ⟨w', h1, h2, h3⟩ := saveMap_goes (S := S) hH hp (w.put [.str fr.id])
  refine ⟨w', h1, Goes.after (t := .str fr.id) (x := fr.id) rfl ?_, h3⟩
  exact h2.bind (k := fun m a => .ok (⟨fr.id, m⟩ : EFrame) a) (Goes.pure _ _)

theorem saveFrames_goes (hH : ∀ t, Knows R H t) (rs : List (VRec EFrame)) : ∀ (w : OArchive D E) (g : G EFrame E),
    (∀ r ∈ rs, Proper heap r.prop.items) →
    ∃ w', saveFrames R heap rs w = .ok () w' ∧
      Goes heap S w w' (IArchive.loadFrames H rs.length g)
        { g with verts := g.verts ++ rs.mapIdx (fun i r => ⟨g.nextV + i, g.nextIdx + i, loadedFrame R S.idxOf r.prop⟩),
                 nextV := g.nextV + rs.length, nextIdx := g.nextIdx + rs.length } ∧
      ∀ r ∈ rs, ∀ p ∈ r.prop.items, R.serializable p.1 = true → ∀ i ∈ p.2, i ∈ w'.saved := by
  induction rs with
  | nil =>
    intro w g _
    refine ⟨w, rfl, ?_, by simp⟩
    have := Goes.pure (heap := heap) (S := S) w g
    simpa [IArchive.loadFrames] using this
  | cons r rs ih =>
    intro w g hp
    obtain ⟨w1, a1, a2, a3⟩ := saveFrame_goes (S := S) hH (hp r (by simp)) w
    obtain ⟨w2, b1, b2, b3⟩ := ih w1
      { g with verts := g.verts ++ [⟨g.nextV, g.nextIdx, loadedFrame R S.idxOf r.prop⟩], nextV := g.nextV + 1, nextIdx := g.nextIdx + 1 } (fun r hr => hp r (by simp [hr]))
    refine ⟨w2, by simp [saveFrames, a1, b1], ?_, ?_⟩
    · have := a2.bind (k := fun fr a => IArchive.loadFrames H rs.length
        { g with verts := g.verts ++ [⟨g.nextV, g.nextIdx, fr⟩], nextV := g.nextV + 1, nextIdx := g.nextIdx + 1 } a) b2
      convert this using 1
      · rfl
      · simp only [List.mapIdx_cons, List.append_assoc, List.singleton_append, List.length_cons, Nat.add_zero]
        simp only [Nat.add_assoc, Nat.add_comm 1, Nat.add_left_comm 1]
    · intro r' hr p hp' hs i hi
      rcases List.mem_cons.1 hr with rfl | hr
      · exact b2.saved.subset (a3 p hp' hs i hi)
      · exact b3 r' hr p hp' hs i hi

theorem saveEdges_goes [EdgeProp E] {g : G EFrame E} (hw : WF g) {vs : List VId} (hvs : ∀ k : Nat, k < g.verts.length → vs[k]? = some k)
    (es : List (ERec E)) : ∀ (w : OArchive D E) (h : G EFrame E), (∀ e ∈ es, e ∈ g.edges) →
    Goes heap S w (w.put (es.flatMap (edgeToks g))) (IArchive.loadEdges vs es.length h)
      { h with edges := h.edges ++ es.mapIdx (fun i e => ⟨h.nextE + i, g.pos e.src, g.pos e.tgt, e.prop⟩),
               nextE := h.nextE + es.length } := by
  induction es with
  | nil =>
    intro w h _
    have := Goes.pure (heap := heap) (S := S) w h
    simpa [put, IArchive.loadEdges] using this
  | cons e es ih =>
    intro w h hes
    have he := hes e (by simp)
    have hs := hvs _ (G.pos_lt (hw.esrc e he))
    have ht := hvs _ (G.pos_lt (hw.etgt e he))
    have := ih (w.put (edgeToks g e)) (h.addEdge (g.pos e.src) (g.pos e.tgt) e.prop).1 (fun x hx => hes x (by simp [hx]))
    rw [put_put] at this
    refine Goes.after (t := .size (g.pos e.src)) (x := g.pos e.src) rfl <| Goes.after (t := .size (g.pos e.tgt)) (x := g.pos e.tgt) rfl <|
      Goes.after (t := .edge e.prop) (x := e.prop) rfl ?_
    simp only [hs, ht, put_put]
    convert this using 1
    · rfl
    · rfl
    · simp only [G.addEdge, List.mapIdx_cons, List.append_assoc, List.singleton_append, List.length_cons, Nat.add_zero]
      simp only [Nat.add_assoc, Nat.add_comm 1, Nat.add_left_comm 1]

theorem regen_eq [EdgeProp E] {g : G EFrame E} (hw : WF g) :
    G.regenerateLabelMap ⟨g.verts.mapIdx (fun i r => ⟨i, i, r.prop⟩), g.edges.mapIdx (fun i e => ⟨i, g.pos e.src, g.pos e.tgt, e.prop⟩), [],
      g.verts.length, g.edges.length, g.verts.length⟩ = g.copied := by
  simp only [G.regenerateLabelMap, G.copied, List.nil_append, Nat.zero_add]
  congr 1
  have e1 : (g.verts.mapIdx (fun i r => (⟨i, i, r.prop⟩ : VRec EFrame))).map (fun r => FrameProp.getId r.prop) =
      g.verts.map (fun r => FrameProp.getId r.prop) := by
    apply List.ext_getElem? 
    intro i
    simp only [List.getElem?_map, List.getElem?_mapIdx]
    cases g.verts[i]? <;> rfl
  have hnd : (g.verts.map (fun r => FrameProp.getId r.prop)).Nodup :=
    (List.nodup_map_iff_inj_on (List.Nodup.of_map _ hw.vnodup)).2 (fun r hr r' hr' he => hw.name_inj hr hr' he)
  refine (AMap.foldl_set_new (fun r : VRec EFrame => FrameProp.getId r.prop) VRec.id _ [] (e1 ▸ hnd)
    (by simp [AMap.keys])).trans ?_
  apply List.ext_getElem?
  intro i
  simp only [List.nil_append, List.getElem?_map, List.getElem?_mapIdx]
  cases g.verts[i]? <;> rfl

theorem modAll_wf [EdgeProp E] {g : G EFrame E} (hw : WF g) {φ : EFrame → EFrame} (hφ : ∀ fr, (φ fr).id = fr.id) : WF (g.modAll φ) := by
  have e1 : (g.modAll φ).verts.map VRec.id = g.verts.map VRec.id := by simp [G.modAll, Function.comp_def]
  have e2 : (g.modAll φ).verts.map VRec.idx = g.verts.map VRec.idx := by simp [G.modAll, Function.comp_def]
  have key : ∀ {P : VRec EFrame → Prop}, (∃ r ∈ (g.modAll φ).verts, P r) ↔ ∃ r ∈ g.verts, P { r with prop := φ r.prop } := by
    intro P; simp [G.modAll]
  refine ⟨by rw [e1]; exact hw.vnodup, ?_, by rw [e2]; exact hw.inodup, ?_, hw.lnodup, ?_, hw.enodup, hw.elt, ?_, ?_⟩
  · intro r hr
    obtain ⟨q, hq, rfl⟩ := List.mem_map.1 hr
    exact hw.vlt q hq
  · intro r hr
    obtain ⟨q, hq, rfl⟩ := List.mem_map.1 hr
    exact hw.ilt q hq
  · intro f u
    show (f, u) ∈ g.labels ↔ _
    rw [hw.lab, key]
    have : ∀ fr : EFrame, FrameProp.getId (φ fr) = FrameProp.getId fr := hφ
    simp only [this]
  · intro e he; rw [key]; exact hw.esrc e he
  · intro e he; rw [key]; exact hw.etgt e he

theorem saveGraph_goes [EdgeProp E] (hH : ∀ t, Knows R H t) {g : G EFrame E} (hw : WF g) (hp : ∀ r ∈ g.verts, Proper heap r.prop.items)
    (w : OArchive D E) : ∃ w', saveGraph R heap g w = .ok () w' ∧
      Goes heap S w w' (IArchive.loadGraph H) ((g.modAll (loadedFrame R S.idxOf)).copied) ∧
      ∀ r ∈ g.verts, ∀ p ∈ r.prop.items, R.serializable p.1 = true → ∀ i ∈ p.2, i ∈ w'.saved := by
  obtain ⟨w1, a1, a2, a3⟩ := saveFrames_goes (S := S) hH g.verts (w.put [.size g.verts.length, .size g.edges.length])
    (G.empty : G EFrame E) hp
  have hvs : ∀ k : Nat, k < g.verts.length → ((g.verts.mapIdx (fun i r => (⟨i, i, loadedFrame R S.idxOf r.prop⟩ : VRec EFrame))).map VRec.id)[k]? = some k := by
    intro k hk
    have := map_mapIdx_id g.verts (fun i r => (⟨i, i, loadedFrame R S.idxOf r.prop⟩ : VRec EFrame)) VRec.id (fun _ _ => rfl)
    rw [this, List.getElem?_range hk]
  refine ⟨w1.put (g.edges.flatMap (edgeToks g)), by simp [saveGraph, a1], ?_, a3⟩
  simp only [G.empty, List.nil_append, Nat.zero_add] at a2
  refine Goes.after (t := .size g.verts.length) (x := g.verts.length) rfl <|
    Goes.after (t := .size g.edges.length) (x := g.edges.length) rfl ?_
  rw [put_put]
  refine Goes.bind a2 ?_
  refine Goes.bind (saveEdges_goes hw hvs g.edges w1 _ (fun _ h => h)) ?_
  have hr := regen_eq (modAll_wf hw (φ := loadedFrame R S.idxOf) (fun _ => rfl))
  rw [← hr]
  have e1 : (g.modAll (loadedFrame R S.idxOf)).verts.mapIdx (fun i r => (⟨i, i, r.prop⟩ : VRec EFrame)) =
      g.verts.mapIdx (fun i r => ⟨i, i, loadedFrame R S.idxOf r.prop⟩) := by
    apply List.ext_getElem?
    intro i
    simp only [G.modAll, List.getElem?_map, List.getElem?_mapIdx]
    cases g.verts[i]? <;> rfl
  have e2 : ∀ v, (g.modAll (loadedFrame R S.idxOf)).pos v = g.pos v := by
    intro v; simp [G.modAll, G.pos, Function.comp_def]
  simp only [e1, e2]
  simp only [G.modAll, List.length_map, List.nil_append, Nat.zero_add]
  exact Goes.pure _ _

theorem saveTypes_append (m m' : AMap TypeIdx (List ItemId)) : ∀ (w w1 : OArchive D E), saveTypes R heap m w = .ok () w1 →
    saveTypes R heap (m ++ m') w = saveTypes R heap m' w1 := by
  induction m with
  | nil => intro w w1 h; simp only [saveTypes, Res.ok.injEq, true_and] at h; subst h; rfl
  | cons p m ih =>
    obtain ⟨t, l⟩ := p
    intro w w1 h
    rw [List.cons_append, saveTypes]
    rw [saveTypes] at h
    cases hl : saveList R heap l (w.put [.size l.length]) with
    | ok _ w' => rw [hl] at h; exact ih w' w1 h
    | throw x w' => rw [hl] at h; cases h
    | ub r => rw [hl] at h; cases h

theorem loadTypes_add (n k : Nat) : ∀ (m : AMap TypeIdx (List ItemId)) (a : IArchive D E),
    IArchive.loadTypes H (n + k) m a = IArchive.bind (IArchive.loadTypes H n m a) (IArchive.loadTypes H k) := by
  induction n with
  | zero => intro m a; simp [IArchive.loadTypes, IArchive.bind]
  | succ n ih =>
    intro m a
    rw [Nat.add_right_comm]
    simp only [IArchive.loadTypes]
    cases a.read IArchive.size? with
    | throw x a => rfl
    | ub r => rfl
    | ok k' a =>
      simp only [IArchive.bind]
      cases IArchive.loadList H k' a with
      | throw x a => rfl
      | ub r => rfl
      | ok l a =>
        cases l with
        | nil => exact ih m a
        | cons i l =>
          simp only
          cases a.typeOf i with
          | none => rfl
          | some t => exact ih _ a

theorem savePtr_out (i : ItemId) (w : OArchive D E) : ∃ p ts, (w.savePtr heap i).out = w.out ++ p :: ts ∧ (IArchive.ptr? p).isSome := by
  unfold savePtr
  split
  · exact ⟨_, [], rfl, rfl⟩
  · exact ⟨_, _, rfl, rfl⟩

/-- an unknown class stops the loader before the pointer -/
theorem saveTypes_unknown {t : TypeIdx} {c : String} (hc : R.className t = some c) (hs : R.hasHandle c = true) {i : ItemId}
    {l : List ItemId} {m : AMap TypeIdx (List ItemId)} (hp : Proper heap ((t, i :: l) :: m))
    (hm : ∀ p ∈ m, R.serializable p.1 = true) (w : OArchive D E) :
    ∃ w' p ts, saveTypes R heap ((t, i :: l) :: m) w = .ok () w' ∧
      w'.out = w.out ++ .size (l.length + 1) :: .str c :: p :: ts ∧ (IArchive.ptr? p).isSome := by
  have hst : R.serializable t = true := by simp [Registry.serializable, hc, hs]
  have hty : ∀ j ∈ i :: l, (heap j).type = t := hp.types (t, i :: l) (by simp)
  obtain ⟨w', h1, h2, -⟩ := saveTypes_goes (S := []) (H := fun _ => true) (heap := heap) (R := R) ((t, i :: l) :: m) w [] (fun _ _ _ _ _ => rfl)
    (by
      intro p hp'
      rcases List.mem_cons.1 hp' with rfl | hp'
      · exact hst
      · exact hm p hp') hp (by simp [AMap.keys])
  have hsave : (w.put [.size (l.length + 1)]).save R heap i = (true, ((w.put [.size (l.length + 1)]).put [.str c]).savePtr heap i) := by
    simp only [save, hty i (by simp), hc, hs, if_true]
  obtain ⟨p, ts, e1, e2⟩ := savePtr_out (heap := heap) i ((w.put [.size (l.length + 1)]).put [.str c])
  obtain ⟨wl, b1, b2, -⟩ := saveList_goes (S := []) (H := fun _ => true) (heap := heap) (R := R) l
    (((w.put [.size (l.length + 1)]).put [.str c]).savePtr heap i) (fun _ _ _ _ _ => rfl)
    (fun j hj => by rw [hty j (by simp [hj])]; exact hst)
  have hl : saveList R heap (i :: l) (w.put [.size (i :: l).length]) = .ok () wl := by
    simp only [saveList, List.length_cons, hsave, if_true, b1]
  have hmm : saveTypes R heap m wl = .ok () w' := by
    rw [saveTypes, hl] at h1
    exact h1
  obtain ⟨wm, c1, c2, -⟩ := saveTypes_goes (S := []) (H := fun _ => true) (heap := heap) (R := R) m wl [] (fun _ _ _ _ _ => rfl) hm
    ⟨(List.nodup_cons.1 (by simpa [AMap.keys] using hp.nodup)).2, fun p h => hp.full p (by simp [h]), fun p h => hp.types p (by simp [h])⟩
    (by simp [AMap.keys])
  rw [hmm] at c1
  obtain rfl : w' = wm := by simpa using c1
  obtain ⟨tl, htl⟩ := b2.out
  obtain ⟨tm, htm⟩ := c2.out
  refine ⟨w', p, ts ++ tl ++ tm, h1, ?_, e2⟩
  rw [← htm, ← htl, e1]
  simp [put, List.append_assoc]

/-- the loader at a pointer where it expects something else -/
theorem loadTypes_stuck {c : String} (hc : H c = false) {p : Tok D E} (hp : (IArchive.ptr? p).isSome) (n : Nat) (ts : List (Tok D E))
    (k : Nat) (m : AMap TypeIdx (List ItemId)) (os : List (SObj D)) :
    IArchive.loadTypes H (k + 1) m ⟨.size (n + 1) :: .str c :: p :: ts, os⟩ =
      if n = 0 ∧ k = 0 then .ok m ⟨p :: ts, os⟩ else .ub "archive out of step" := by
  have h1 : IArchive.str? p = none := by cases p <;> simp_all [IArchive.ptr?, IArchive.str?]
  have h2 : IArchive.size? p = none := by cases p <;> simp_all [IArchive.ptr?, IArchive.size?]
  have hl : IArchive.load H (⟨.str c :: p :: ts, os⟩ : IArchive D E) = .ok none ⟨p :: ts, os⟩ := by
    simp [IArchive.load, IArchive.read, IArchive.bind, IArchive.str?, hc]
  have hs : (IArchive.mk (Tok.size (n + 1) :: Tok.str c :: p :: ts) os).read IArchive.size? = .ok (n + 1) ⟨.str c :: p :: ts, os⟩ := rfl
  rw [IArchive.loadTypes, hs]
  simp only [IArchive.bind]
  rw [IArchive.loadList, hl]
  simp only [IArchive.bind]
  cases n with
  | zero =>
    simp only [IArchive.loadList, Option.toList, List.nil_append]
    cases k with
    | zero => rfl
    | succ k => simp [IArchive.loadTypes, IArchive.read, IArchive.bind, h2]
  | succ n =>
    simp [IArchive.loadList, IArchive.load, IArchive.read, IArchive.bind, h1]

end OArchive
end Verif
