import Verif.Spec.ItemsAll
import Verif.Lemmas.ItemAnswers
import Verif.Lemmas.ItemTidy

set_option linter.unusedSectionVars false
set_option linter.unusedSimpArgs false
/-! Item histories with removal through iterators and with frames made from properties that contain items. -/

namespace Verif
open EG GS
variable {E : Type} [EdgeProp E] {ty : ItemId → TypeIdx}

theorem removeNth_filter (p : ItemId → Bool) : ∀ (L : List ItemId) (k : Nat), (removeNth p k L).filter p = (L.filter p).eraseIdx k := by
  intro L
  induction L with
  | nil => intro k; cases k <;> simp [removeNth]
  | cons i L ih =>
    intro k
    cases k with
    | zero => by_cases h : p i <;> simp [removeNth, h, ih]
    | succ k => by_cases h : p i <;> simp [removeNth, h, ih]

theorem removeNth_other (p q : ItemId → Bool) (hpq : ∀ i, p i = true → q i = false) : ∀ (L : List ItemId) (k : Nat),
    (removeNth p k L).filter q = L.filter q := by
  intro L
  induction L with
  | nil => intro k; cases k <;> simp [removeNth]
  | cons i L ih =>
    intro k
    cases k with
    | zero =>
      by_cases h : p i
      · simp [removeNth, h, hpq i h]
      · by_cases hq : q i <;> simp [removeNth, h, hq, ih]
    | succ k =>
      by_cases h : p i
      · simp [removeNth, h, hpq i h, ih]
      · by_cases hq : q i <;> simp [removeNth, h, hq, ih]

theorem EFrame.Sorted.holds {p : EFrame} (h : p.Sorted ty) : p.Holds ty p.visit := by
  obtain ⟨h1, -, h3⟩ := h
  intro t
  unfold EFrame.visit
  revert h1 h3
  generalize p.items = m
  induction m with
  | nil => simp
  | cons e m ih =>
    obtain ⟨a, l⟩ := e
    intro h1 h3
    simp only [AMap.keys, List.map_cons, List.nodup_cons] at h1
    have ih := ih h1.2 (fun e he => h3 e (.tail _ he))
    simp only [AMap.get_cons, List.flatMap_cons, List.filter_append]
    by_cases ha : a = t
    · subst ha
      have hm : AMap.get m a = none := AMap.get_eq_none_iff.2 h1.1
      rw [hm] at ih
      simp only [Option.getD_none] at ih
      rw [if_pos rfl, ← ih, List.append_nil, Option.getD_some]
      symm
      rw [List.filter_eq_self]
      intro i hi
      simpa using h3 (a, l) (.head _) i hi
    · rw [if_neg ha, ih]
      have : l.filter (fun i => decide (ty i = t)) = [] := by
        rw [List.filter_eq_nil_iff]
        intro i hi
        have := h3 (a, l) (.head _) i hi
        simp only at this
        simp [this, ha]
      rw [this, List.nil_append]

namespace HSim
variable {s s' : EG E} {S : ItemSpec}

/-- what a frame holds after a removal through an iterator -/
theorem holds_at {fr : EFrame} {L : List ItemId} (h : fr.Holds ty L) {t : TypeIdx} {l : List ItemId} (hl : fr.items.get t = some l) (k : Nat)
    (hk : k < l.length) :
    (((if (l.eraseIdx k).drop k = [] then EFrame.eraseType t else id) (EFrame.setList t (l.eraseIdx k) fr)).Holds ty
      (if k + 1 = (L.filter (fun j => ty j = t)).length then L.filter (fun j => ty j ≠ t) else removeNth (fun j => ty j = t) k L)) := by
  have hl' := h.get_some hl
  have hcond : (l.eraseIdx k).drop k = [] ↔ k + 1 = (L.filter (fun j => ty j = t)).length := by
    rw [← hl', List.drop_eq_nil_iff, List.length_eraseIdx_of_lt hk]
    omega
  intro u
  by_cases hc : k + 1 = (L.filter (fun j => ty j = t)).length
  · rw [if_pos hc, if_pos (hcond.2 hc)]
    simp only [EFrame.eraseType, EFrame.setList, AMap.get_erase, List.filter_filter]
    by_cases hu : t = u
    · subst hu
      simp
    · rw [if_neg hu, AMap.get_set_ne hu, h u]
      apply List.filter_congr
      intro i _
      by_cases hi : ty i = u
      · simp [hi, Ne.symm hu]
      · simp [hi]
  · rw [if_neg hc, if_neg (fun e => hc (hcond.1 e))]
    simp only [id, EFrame.setList, AMap.get_set]
    by_cases hu : t = u
    · subst hu
      rw [if_pos rfl, Option.getD_some, removeNth_filter, ← hl']
    · rw [if_neg hu, h u, removeNth_other]
      intro i hi
      simp only [decide_eq_true_eq] at hi
      simp [hi, hu]

/-- removal through an iterator: an exception and no change, or what the specification says and one event -/
theorem removeItemAt (h : HSim ty s S) {f : FrameId} {it : ItemIt} {r : Res (EG E) (List ItemId)} (hr : EG.removeItemAt f it s = r) :
    (∃ x, r = .throw x s) ∨ (∃ m, r = .ub m) ∨
    (it.frame = f ∧ ∃ i rest s', r = .ok rest s' ∧ ((S.items f).filter (fun j => ty j = it.type))[it.pos]? = some i ∧ S.name i = f ∧
      rest = (((S.items f).filter (fun j => ty j = it.type)).eraseIdx it.pos).drop it.pos ∧
      getItems f it.type s = .ok ((S.items f).filter (fun j => ty j = it.type)) s ∧
      HSim ty s' ((S.put f (if it.pos + 1 = ((S.items f).filter (fun j => ty j = it.type)).length then (S.items f).filter (fun j => ty j ≠ it.type)
        else removeNth (fun j => ty j = it.type) it.pos (S.items f))).rename i "") ∧
      s'.gs.trace.map Prod.fst = s.gs.trace.map Prod.fst ++ [.itemRemoved f i]) := by
  cases hv : s.gs.g.vertexOf f with
  | none => left; refine ⟨.unknownFrame f, ?_⟩; rw [← hr]; simp only [EG.removeItemAt, hv]
  | some v =>
    obtain ⟨rec, hrec, hmem, hid, hh, hT⟩ := h.record hv
    cases hi : (listOf it.frame it.type s).bind (fun l => l[it.pos]?) with
    | none => right; left; exact ⟨_, by rw [← hr]; simp only [EG.removeItemAt, hv, hi]; rfl⟩
    | some i =>
      by_cases hfr : (s.heap i).frame = f
      swap
      · right; left; exact ⟨"removeItemFromFrame: assert", by rw [← hr]; simp only [EG.removeItemAt, hv, hi]; rw [if_pos hfr]⟩
      cases hl : listOf f it.type s with
      | none =>
        left; refine ⟨.noItemsOfType f, ?_⟩
        rw [← hr]; simp only [EG.removeItemAt, hv, hi, hl]; rw [if_neg (by simpa using hfr)]
      | some l =>
        by_cases hff : it.frame = f
        swap
        · right; left
          refine ⟨"removeItemFromFrame: iterators of different lists", ?_⟩
          rw [← hr]; simp only [EG.removeItemAt, hv, hi, hl]; rw [if_neg (by simpa using hfr), if_pos hff]
        right; right
        have hg : rec.prop.items.get it.type = some l := by simpa [listOf, hv, hrec] using hl
        have hi' : l[it.pos]? = some i := by rw [hff, hl] at hi; simpa using hi
        have hk : it.pos < l.length := by
          rcases Nat.lt_or_ge it.pos l.length with h | h
          · exact h
          · rw [List.getElem?_eq_none h] at hi'; cases hi'
        have hgood := fun s' (hx : (EG.removeItemAt f it s).st? = some s') => removeItemAt_good h.good hx
        have hst := h.stocked.modV h.good.wf hv (h := fun p => (if (l.eraseIdx it.pos).drop it.pos = [] then EFrame.eraseType it.type else id)
            (EFrame.setList it.type (l.eraseIdx it.pos) p)) (L := if it.pos + 1 = ((S.items f).filter (fun j => ty j = it.type)).length then
              (S.items f).filter (fun j => ty j ≠ it.type) else removeNth (fun j => ty j = it.type) it.pos (S.items f)) (by intro p; split <;> rfl) (by
            intro r hr' hr2
            rw [hrec] at hr'
            cases hr'
            exact holds_at hr2 hg it.pos hk)
        have hname : ∀ (s' : EG E), s'.heap = (setItemFrame i "" s).heap →
            ∀ j, (s'.heap j).frame = (S.rename i "").name j := by
          intro s' e j
          rw [e, setItemFrame_frame, h.name j]; rfl
        refine ⟨hff, i, (l.eraseIdx it.pos).drop it.pos,
          (if (l.eraseIdx it.pos).drop it.pos = [] then modFrame v (EFrame.eraseType it.type) (notify (.itemRemoved f i)
            (setItemFrame i "" (modFrame v (EFrame.setList it.type (l.eraseIdx it.pos)) s)))
            else notify (.itemRemoved f i) (setItemFrame i "" (modFrame v (EFrame.setList it.type (l.eraseIdx it.pos)) s))), ?_, ?_, ?_, ?_, ?_, ?_, ?_⟩
        · rw [← hr]; simp only [EG.removeItemAt, hv, hi, hl]; rw [if_neg (by simpa using hfr), if_neg (by simpa using hff)]
        · rw [← hh.get_some hg]; exact hi'
        · rw [← h.name]; exact hfr
        · rw [← hh.get_some hg]
        · simp only [getItems, hv, hrec, hg]; rw [hh.get_some hg]
        · refine ⟨hgood _ ?_, ?_, ?_⟩
          · rw [show EG.removeItemAt f it s = _ from by simp only [EG.removeItemAt, hv, hi, hl]; rw [if_neg (by simpa using hfr), if_neg (by simpa using hff)]]
            rfl
          · by_cases hd : (l.eraseIdx it.pos).drop it.pos = []
            · simp only [hd, if_true] at hst ⊢
              show Stocked ty ((s.gs.g.modV v (EFrame.setList it.type (l.eraseIdx it.pos))).modV v (EFrame.eraseType it.type)) _
              rw [G.modV_modV]
              exact hst
            · simp only [hd, if_false] at hst ⊢
              exact hst
          · intro j
            refine hname _ ?_ j
            split <;> rfl
        · split <;> simp [modFrame, EG.notify, GS.notify, setItemFrame]

/-- a frame made from a property -/
theorem emplaceFrame (h : HSim ty s S) {f : FrameId} {p : EFrame} (hp : p.Sorted ty) :
    (∃ x, EG.exec (.graph (.emplaceFrame f p)) s = .throw x s) ∨
    ∃ s', EG.exec (.graph (.emplaceFrame f p)) s = .ok () s' ∧ HSim ty s' (S.put f p.visit) := by
  cases hv : s.gs.g.vertexOf f with
  | some v =>
    left
    exact ⟨_, by simp only [EG.exec, GS.exec, GS.emplaceFrame, hv, GS.discard, EG.base]; rfl⟩
  | none =>
    right
    refine ⟨⟨(addVertexN f (FrameProp.setId f p) s.gs).1, s.heap⟩, by
      simp only [EG.exec, GS.exec, GS.emplaceFrame, hv, GS.discard, EG.base], ?_⟩
    have hx : (EG.base s.heap (GS.exec (.emplaceFrame f p) s.gs)).st? = some (⟨(addVertexN f (FrameProp.setId f p) s.gs).1, s.heap⟩ : EG E) := by
      simp only [GS.exec, GS.emplaceFrame, hv, GS.discard, EG.base, Res.st?]
    have hgood := emplaceFrame_good (ty := ty) ⟨hp.keys, hp.full⟩ h.good hx
    refine ⟨hgood, ?_, h.name⟩
    constructor
    · intro r hr
      simp only [addVertexN, GS.notify, G.addVertex] at hr
      split at hr
      · rename_i e; rw [G.vertexOf] at hv; simp [hv] at e
      · rcases List.mem_append.1 hr with hr | hr
        · have hne : r.prop.id ≠ f := by
            intro e
            have := h.good.wf.vertexOf_iff.2 ⟨r, hr, rfl, e⟩
            rw [hv] at this; cases this
          simp only [ItemSpec.put, Shelf.put, if_neg hne]
          exact h.stocked.holds r hr
        · simp only [List.mem_singleton] at hr
          subst hr
          show EFrame.Holds ty _ ((S.put f p.visit).items f)
          simp only [ItemSpec.put, Shelf.put, if_true]
          exact hp.holds
    · intro x hx
      by_cases hxf : x = f
      · subst hxf
        exfalso
        have : (addVertexN x (FrameProp.setId x p) s.gs).1.g.vertexOf x ≠ none := by
          simp only [addVertexN, GS.notify]
          rw [G.vertexOf_addVertex _ hv]
          simp
        exact this hx
      · simp only [ItemSpec.put, Shelf.put, if_neg hxf]
        apply h.stocked.absent
        simp only [addVertexN, GS.notify] at hx
        rw [G.vertexOf_addVertex _ hv, if_neg (Ne.symm hxf)] at hx
        exact hx

/-- one call of any kind -/
theorem execAll (h : HSim ty s S) {c : EG.Cmd E} (hc : ∀ f p, c = .graph (.emplaceFrame f p) → p.Sorted ty) (hx : (EG.exec c s).st? = some s') :
    ∃ S', S.AllowedAll ty c (EG.exec c s).exn? S' ∧ HSim ty s' S' := by
  have hby : c.byPointer → (∀ x S', S.Allowed c x S' → S.AllowedAll ty c x S') → ∃ S', S.AllowedAll ty c (EG.exec c s).exn? S' ∧ HSim ty s' S' := by
    intro hb ha
    obtain ⟨S', h1, h2⟩ := h.exec hb hx
    exact ⟨S', ha _ _ h1, h2⟩
  cases c with
  | removeItemAt f it =>
    rcases h.removeItemAt (f := f) (it := it) rfl with ⟨x, hr⟩ | ⟨m, hr⟩ | ⟨hff, i, rest, s1, hr, h1, h2, -, -, h3, -⟩
    · simp only [EG.exec, hr, GS.discard, Res.st?, Option.some.injEq] at hx
      subst hx
      exact ⟨S, by simp only [EG.exec, hr, GS.discard, Res.exn?]; exact rfl, h⟩
    · simp only [EG.exec, hr, GS.discard, Res.st?, reduceCtorEq] at hx
    · simp only [EG.exec, hr, GS.discard, Res.st?, Option.some.injEq] at hx
      subst hx
      exact ⟨_, by simp only [EG.exec, hr, GS.discard, Res.exn?]; exact ⟨hff, i, h1, h2, rfl⟩, h3⟩
  | graph c =>
    cases c with
    | emplaceFrame f p =>
      rcases h.emplaceFrame (f := f) (hc f p rfl) with ⟨x, hr⟩ | ⟨s1, hr, h1⟩
      · simp only [hr, Res.st?, Option.some.injEq] at hx
        subst hx
        exact ⟨S, by simp only [hr, Res.exn?]; exact rfl, h⟩
      · simp only [hr, Res.st?, Option.some.injEq] at hx
        subst hx
        exact ⟨_, by simp only [hr, Res.exn?]; exact rfl, h1⟩
    | _ => exact hby trivial (fun _ _ h => h)
  | _ => exact hby trivial (fun _ _ h => h)

theorem outcomesAll {cs : List (EG.Cmd E)} (hcs : ∀ f p, .graph (.emplaceFrame f p) ∈ cs → p.Sorted ty) :
    ∀ {s s' : EG E} {S : ItemSpec} {xs : List (Option Exn)},
    HSim ty s S → EG.outcomes cs s = some (xs, s') → ∃ S', ItemSpec.ReachesAll ty S cs xs S' ∧ HSim ty s' S' := by
  induction cs with
  | nil =>
    intro s s' S xs h hx
    simp only [EG.outcomes, Option.some.injEq, Prod.mk.injEq] at hx
    obtain ⟨rfl, rfl⟩ := hx
    exact ⟨S, .nil, h⟩
  | cons c cs ih =>
    intro s s' S xs h hx
    unfold EG.outcomes at hx
    have hc : ∀ f p, c = .graph (.emplaceFrame f p) → p.Sorted ty := fun f p e => hcs f p (by rw [e]; exact .head _)
    cases hr : EG.exec c s with
    | ok u s1 =>
      simp only [hr] at hx
      obtain ⟨⟨ys, s2⟩, hy, he⟩ := Option.map_eq_some_iff.1 hx
      simp only [Prod.mk.injEq] at he
      obtain ⟨rfl, rfl⟩ := he
      obtain ⟨S1, a1, a2⟩ := h.execAll (s' := s1) hc (by rw [hr]; rfl)
      rw [hr] at a1
      obtain ⟨S2, b1, b2⟩ := ih (fun f p e => hcs f p (.tail _ e)) a2 hy
      exact ⟨S2, .cons a1 b1, b2⟩
    | «throw» x s1 =>
      simp only [hr] at hx
      obtain ⟨⟨ys, s2⟩, hy, he⟩ := Option.map_eq_some_iff.1 hx
      simp only [Prod.mk.injEq] at he
      obtain ⟨rfl, rfl⟩ := he
      obtain ⟨S1, a1, a2⟩ := h.execAll (s' := s1) hc (by rw [hr]; rfl)
      rw [hr] at a1
      obtain ⟨S2, b1, b2⟩ := ih (fun f p e => hcs f p (.tail _ e)) a2 hy
      exact ⟨S2, .cons a1 b1, b2⟩
    | ub m => simp [hr] at hx

end HSim

/-! ## What an observer keeps -/

theorem removeNth_perm (p : ItemId → Bool) : ∀ (L : List ItemId) (k : Nat) (i : ItemId), (L.filter p)[k]? = some i → (i :: removeNth p k L).Perm L := by
  intro L
  induction L with
  | nil => intro k i h; simp at h
  | cons a L ih =>
    intro k i h
    cases k with
    | zero =>
      by_cases hp : p a
      · simp only [List.filter_cons, hp, if_true, List.getElem?_cons_zero, Option.some.injEq] at h
        subst h
        simp only [removeNth, hp, if_true]
        exact List.Perm.refl _
      · simp only [List.filter_cons, hp] at h
        simp only [removeNth, hp]
        exact (List.Perm.swap _ _ _).trans ((ih 0 i h).cons a)
    | succ k =>
      by_cases hp : p a
      · simp only [List.filter_cons, hp, if_true, List.getElem?_cons_succ] at h
        simp only [removeNth, hp, if_true]
        exact (List.Perm.swap _ _ _).trans ((ih k i h).cons a)
      · simp only [List.filter_cons, hp] at h
        simp only [removeNth, hp]
        exact (List.Perm.swap _ _ _).trans ((ih (k + 1) i h).cons a)

theorem removeNth_erase (p : ItemId → Bool) : ∀ (L : List ItemId) (k : Nat) (i : ItemId), (L.filter p)[k]? = some i → L.count i = 1 →
    removeNth p k L = L.erase i := by
  intro L
  induction L with
  | nil => intro k i h; simp at h
  | cons a L ih =>
    intro k i h hc
    cases k with
    | zero =>
      by_cases hp : p a
      · simp only [List.filter_cons, hp, if_true, List.getElem?_cons_zero, Option.some.injEq] at h
        subst h
        simp [removeNth, hp]
      · simp only [List.filter_cons, hp] at h
        have hai : a ≠ i := by
          rintro rfl
          exact hp (List.mem_filter.1 (List.mem_of_getElem? h)).2
        rw [List.count_cons_of_ne hai] at hc
        simp only [removeNth, hp]
        rw [List.erase_cons_tail (by simpa using hai)]
        simp [ih 0 i h hc]
    | succ k =>
      by_cases hp : p a
      · simp only [List.filter_cons, hp, if_true, List.getElem?_cons_succ] at h
        have hai : a ≠ i := by
          rintro rfl
          have : 1 ≤ L.count a := List.count_pos_iff.2 (List.mem_filter.1 (List.mem_of_getElem? h)).1
          rw [List.count_cons_self] at hc
          omega
        rw [List.count_cons_of_ne hai] at hc
        simp only [removeNth, hp, if_true]
        rw [List.erase_cons_tail (by simpa using hai), ih k i h hc]
      · simp only [List.filter_cons, hp] at h
        have hai : a ≠ i := by
          rintro rfl
          exact hp (List.mem_filter.1 (List.mem_of_getElem? h)).2
        rw [List.count_cons_of_ne hai] at hc
        simp only [removeNth, hp]
        rw [List.erase_cons_tail (by simpa using hai)]
        simp [ih (k + 1) i h hc]

theorem filter_single_erase (p : ItemId → Bool) : ∀ (L : List ItemId) (i : ItemId), L.filter p = [i] → L.filter (fun j => !p j) = L.erase i := by
  intro L
  induction L with
  | nil => intro i h; simp at h
  | cons a L ih =>
    intro i h
    by_cases hp : p a
    · simp only [List.filter_cons, hp, if_true, List.cons.injEq] at h
      obtain ⟨rfl, h⟩ := h
      simp only [List.filter_cons, hp, List.erase_cons_head]
      rw [List.filter_eq_nil_iff] at h
      simp only [Bool.not_true, Bool.false_eq_true, if_false]
      rw [List.filter_eq_self]
      intro j hj
      simpa using h j hj
    · simp only [List.filter_cons, hp] at h
      have hai : a ≠ i := by
        rintro rfl
        have : a ∈ L.filter p := by rw [show L.filter p = [a] from h]; exact .head _
        exact hp (List.mem_filter.1 this).2
      rw [List.erase_cons_tail (by simpa using hai), ← ih i h]
      simp [List.filter_cons, hp]

/-- every frame of `S` has at most the items of `M` -/
def Shelf.Le (S M : Shelf) : Prop := ∀ f i, (S f).count i ≤ (M f).count i

theorem Shelf.Le.apply {S M : Shelf} (h : S.Le M) (e : Event) : (S.apply e).Le (M.apply e) := by
  have hput : ∀ f l l', (∀ i, l.count i ≤ l'.count i) → (S.put f l).Le (M.put f l') := by
    intro f l l' hl x i
    simp only [Shelf.put]
    split
    · exact hl i
    · exact h x i
  cases e <;> simp only [Shelf.apply] <;> try exact h
  · apply hput; intro i; simp
  · rename_i f j
    apply hput; intro i
    have := h f i
    simp only [List.count_append]
    omega
  · rename_i f j
    apply hput; intro i
    have := h f i
    simp only [List.count_erase]
    omega

theorem Shelf.Le.replay (l : List Event) : ∀ {S M : Shelf}, S.Le M → (S.replay l).Le (M.replay l) := by
  induction l with
  | nil => intro S M h; exact h
  | cons e l ih => intro S M h; exact ih (h.apply e)

end Verif
