import Verif.Spec.TreeView
import Verif.Lemmas.AMap
import Mathlib.Data.List.Flatten

set_option linter.unusedSectionVars false
set_option linter.unusedSimpArgs false
/-! The traversals of a tree view. -/

namespace Verif
open TreeView

/-- the part of a correct view that the traversals depend on -/
structure IsForest (w : TreeView) (d : VId → Nat) : Prop where
  children : ∀ p rel, w.tree.get p = some rel → rel.children.Nodup ∧ ∀ c, c ∈ rel.children ↔ w.parentOf c = some p
  rank : ∀ v p, w.parentOf v = some p → d v = d p + 1

namespace IsForest
variable {w : TreeView} {d : VId → Nat}

theorem le (h : IsForest w d) {x v : VId} (hu : w.Under x v) : d v ≤ d x := by
  induction hu with
  | refl => exact Nat.le_refl _
  | tail _ hab ih => have := h.rank _ _ hab; omega

theorem eq_of (h : IsForest w d) {x v : VId} (hu : w.Under x v) (he : d x = d v) : x = v := by
  rcases Relation.ReflTransGen.cases_head hu with rfl | ⟨y, h1, h2⟩
  · rfl
  · have := h.rank _ _ h1
    have := h.le h2
    omega

theorem linear {x u v : VId} (hu : w.Under x u) (hv : w.Under x v) : w.Under u v ∨ w.Under v u := by
  induction hu using Relation.ReflTransGen.head_induction_on with
  | refl => exact Or.inl hv
  | head hab h1 ih =>
    rcases Relation.ReflTransGen.cases_head hv with rfl | ⟨y, h2, h3⟩
    · exact Or.inr (.head hab h1)
    · rw [hab] at h2
      obtain rfl := Option.some.inj h2
      exact ih h3

theorem same_level (h : IsForest w d) {x u v : VId} (hu : w.Under x u) (hv : w.Under x v) (he : d u = d v) : u = v := by
  rcases linear hu hv with h1 | h1
  · exact h.eq_of h1 he
  · exact (h.eq_of h1 he.symm).symm

theorem in_view {x v : VId} (hu : w.Under x v) (hv : (w.tree.get v).isSome) : (w.tree.get x).isSome := by
  rcases Relation.ReflTransGen.cases_head hu with rfl | ⟨y, h1, -⟩
  · exact hv
  · unfold TreeView.parentOf at h1
    cases hg : w.tree.get x with
    | none => simp [hg] at h1
    | some r => rfl

theorem under_iff (h : IsForest w d) {v : VId} {rel : VRel} (hv : w.tree.get v = some rel) {x : VId} :
    w.Under x v ↔ x = v ∨ ∃ c ∈ rel.children, w.Under x c := by
  constructor
  · intro hu
    rcases Relation.ReflTransGen.cases_tail hu with h1 | ⟨c, h1, h2⟩
    · exact Or.inl h1.symm
    · exact Or.inr ⟨c, ((h.children v rel hv).2 c).2 h2, h1⟩
  · rintro (rfl | ⟨c, hc, hu⟩)
    · exact .refl
    · exact hu.tail (((h.children v rel hv).2 c).1 hc)

theorem child_rank (h : IsForest w d) {v : VId} {rel : VRel} (hv : w.tree.get v = some rel) {c : VId} (hc : c ∈ rel.children) :
    d c = d v + 1 := h.rank _ _ (((h.children v rel hv).2 c).1 hc)

theorem child_in (h : IsForest w d) {v : VId} {rel : VRel} (hv : w.tree.get v = some rel) {c : VId} (hc : c ∈ rel.children) :
    (w.tree.get c).isSome :=
  in_view (x := c) (v := v) (.single (((h.children v rel hv).2 c).1 hc)) (by rw [hv]; rfl)

end IsForest

open Classical in
/-- number of entries of the map below one of the vertices of `q` -/
noncomputable def TreeView.below (w : TreeView) (q : List VId) : Nat :=
  ((AMap.keys w.tree).filter (fun x => decide (∃ v ∈ q, w.Under x v))).length

theorem filter_length_lt {α : Type} (p q : α → Bool) : ∀ (l : List α), (∀ x ∈ l, p x = true → q x = true) →
    (∃ x ∈ l, q x = true ∧ p x = false) → (l.filter p).length < (l.filter q).length := by
  intro l
  induction l with
  | nil => rintro _ ⟨x, hx, -⟩; cases hx
  | cons a l ih =>
    intro h1 h2
    have hle : (l.filter p).length ≤ (l.filter q).length := by
      have : (l.filter p).Sublist (l.filter q) := by
        rw [show l.filter p = (l.filter q).filter p from ?_]
        · exact List.filter_sublist
        · rw [List.filter_filter]
          apply List.filter_congr
          intro x hx
          cases hp : p x
          · rfl
          · simp [h1 x (List.mem_cons_of_mem _ hx) hp]
      exact this.length_le
    by_cases ha : q a = true ∧ p a = false
    · simp only [List.filter_cons, ha.1, ha.2, if_true, List.length_cons]
      simp only [Bool.false_eq_true, if_false]
      omega
    · have hlt : (l.filter p).length < (l.filter q).length := by
        refine ih (fun x hx => h1 x (List.mem_cons_of_mem _ hx)) ?_
        obtain ⟨x, hx, hh⟩ := h2
        rcases List.mem_cons.1 hx with rfl | hx
        · exact absurd hh ha
        · exact ⟨x, hx, hh⟩
      simp only [List.filter_cons]
      cases hp : p a with
      | true => simp [h1 a (by simp) hp, hlt]
      | false =>
        cases hq : q a with
        | true => exact absurd ⟨hq, hp⟩ ha
        | false => simpa using hlt

theorem below_lt {w : TreeView} {q q' : List VId} (h1 : ∀ x, (∃ v ∈ q', w.Under x v) → ∃ v ∈ q, w.Under x v) {x : VId}
    (hx : (w.tree.get x).isSome) (h2 : ∃ v ∈ q, w.Under x v) (h3 : ¬ ∃ v ∈ q', w.Under x v) : w.below q' < w.below q := by
  classical
  unfold TreeView.below
  refine filter_length_lt _ _ _ ?_ ⟨x, ?_, ?_, ?_⟩
  · intro y _ hy; exact decide_eq_true (h1 y (of_decide_eq_true hy))
  · obtain ⟨r, hr⟩ := Option.isSome_iff_exists.1 hx
    exact AMap.mem_keys_iff.2 ⟨r, hr⟩
  · exact decide_eq_true h2
  · exact decide_eq_false h3

theorem below_le (w : TreeView) (q : List VId) : w.below q ≤ w.tree.length := by
  unfold TreeView.below
  refine (List.filter_sublist.length_le).trans ?_
  simp [AMap.keys]

/-- what is promised of the calls made by a traversal started at the vertices `q` -/
structure Visits (w : TreeView) (q : List VId) (calls : List (VId × Option VId)) : Prop where
  nodup : (calls.map Prod.fst).Nodup
  mem : ∀ x, x ∈ calls.map Prod.fst ↔ ∃ v ∈ q, w.Under x v
  par : ∀ c ∈ calls, c.2 = w.parentOf c.1
  first : ∀ x p, x ∈ calls.map Prod.fst → x ∉ q → w.parentOf x = some p → [p, x].Sublist (calls.map Prod.fst)

theorem dfs_go {w : TreeView} (n : Nat) (f : VId → List (VId × Option VId)) : ∀ (cs : List VId) (acc : List (VId × Option VId)),
    (∀ c ∈ cs, w.visitDfs n c = .ok (f c) w) → visitDfs.go w n cs acc = .ok (acc ++ cs.flatMap f) w := by
  intro cs
  induction cs with
  | nil => intro acc _; simp [visitDfs.go]
  | cons c cs ih =>
    intro acc h
    unfold visitDfs.go
    rw [h c (by simp)]
    simp only
    rw [ih _ (fun c' hc' => h c' (List.mem_cons_of_mem _ hc'))]
    simp

theorem dfs_visits {w : TreeView} {d : VId → Nat} (h : IsForest w d) : ∀ (n : Nat) (v : VId), (w.tree.get v).isSome →
    w.below [v] ≤ n → ∃ calls, w.visitDfs n v = .ok calls w ∧ Visits w [v] calls := by
  intro n
  induction n with
  | zero =>
    intro v hv hb
    have := below_lt (w := w) (q := [v]) (q' := []) (x := v) (by simp) hv ⟨v, by simp, .refl⟩ (by simp)
    omega
  | succ n ih =>
    intro v hv hb
    obtain ⟨rel, hrel⟩ := Option.isSome_iff_exists.1 hv
    have hpar : w.parentOf v = rel.parent := by simp [TreeView.parentOf, hrel]
    have hkid : ∀ c ∈ rel.children, ∃ calls, w.visitDfs n c = .ok calls w ∧ Visits w [c] calls := by
      intro c hc
      refine ih c (h.child_in hrel hc) ?_
      have := below_lt (w := w) (q := [v]) (q' := [c]) (x := v)
        (by
          rintro x ⟨u, hu, hx⟩
          obtain rfl := List.mem_singleton.1 hu
          exact ⟨v, by simp, (h.under_iff hrel).2 (Or.inr ⟨u, hc, hx⟩)⟩)
        hv ⟨v, by simp, .refl⟩
        (by
          rintro ⟨u, hu, hx⟩
          obtain rfl := List.mem_singleton.1 hu
          have := h.le hx
          have := h.child_rank hrel hc
          omega)
      omega
    choose! f hf using hkid
    refine ⟨(v, rel.parent) :: rel.children.flatMap f, ?_, ?_⟩
    · unfold visitDfs
      rw [hrel]
      simp only
      rw [dfs_go n f _ _ (fun c hc => (hf c hc).1)]
      rfl
    have hmap : ((v, rel.parent) :: rel.children.flatMap f).map Prod.fst =
        v :: rel.children.flatMap (fun c => (f c).map Prod.fst) := by
      rw [List.map_cons, List.map_flatMap]
    have hmem : ∀ x c, c ∈ rel.children → (x ∈ (f c).map Prod.fst ↔ w.Under x c) := by
      intro x c hc
      rw [(hf c hc).2.mem]; simp
    refine ⟨?_, ?_, ?_, ?_⟩
    · rw [hmap, List.nodup_cons]
      constructor
      · intro hh
        obtain ⟨c, hc, hx⟩ := List.mem_flatMap.1 hh
        have := h.le ((hmem v c hc).1 hx)
        have := h.child_rank hrel hc
        omega
      · rw [List.nodup_flatMap]
        refine ⟨fun c hc => (hf c hc).2.nodup, ?_⟩
        refine (h.children v rel hrel).1.imp_of_mem ?_
        intro a b ha hb hab
        rw [Function.onFun, List.disjoint_left]
        intro x hx hx'
        exact hab (h.same_level ((hmem x a ha).1 hx) ((hmem x b hb).1 hx')
          ((h.child_rank hrel ha).trans (h.child_rank hrel hb).symm))
    · intro x
      rw [hmap, List.mem_cons, List.mem_flatMap]
      simp only [List.mem_singleton, exists_eq_left]
      rw [h.under_iff hrel]
      constructor
      · rintro (hx | ⟨c, hc, hx⟩)
        · exact Or.inl hx
        · exact Or.inr ⟨c, hc, (hmem x c hc).1 hx⟩
      · rintro (hx | ⟨c, hc, hx⟩)
        · exact Or.inl hx
        · exact Or.inr ⟨c, hc, (hmem x c hc).2 hx⟩
    · intro c hc
      rcases List.mem_cons.1 hc with rfl | hc
      · exact hpar.symm
      · obtain ⟨k, hk, hc⟩ := List.mem_flatMap.1 hc
        exact (hf k hk).2.par c hc
    · intro x p hx hne hxp
      rw [hmap] at hx ⊢
      have hne' : x ≠ v := by simpa using hne
      rcases List.mem_cons.1 hx with hx | hx
      · exact absurd hx hne'
      · obtain ⟨c, hc, hxc⟩ := List.mem_flatMap.1 hx
        by_cases hcx : x = c
        · subst hcx
          have := ((h.children v rel hrel).2 x).1 hc
          rw [hxp] at this
          obtain rfl := Option.some.inj this
          refine List.Sublist.cons_cons _ ?_
          rw [List.singleton_sublist]
          exact List.mem_flatMap.2 ⟨x, hc, hxc⟩
        · have h1 := (hf c hc).2.first x p hxc (by simpa using hcx) hxp
          refine List.Sublist.cons _ (h1.trans ?_)
          rw [List.flatMap]
          exact List.sublist_flatten_of_mem (List.mem_map.2 ⟨c, hc, rfl⟩)

/-- queue of the breadth first traversal -/
structure GoodQueue (w : TreeView) (d : VId → Nat) (q : List VId) : Prop where
  ins : ∀ v ∈ q, (w.tree.get v).isSome
  apart : q.Pairwise (fun u v => ¬ w.Under u v ∧ ¬ w.Under v u)
  sorted : q.Pairwise (fun u v => d u ≤ d v)
  near : ∀ u ∈ q, ∀ v ∈ q, d v ≤ d u + 1

theorem bfs_visits {w : TreeView} {d : VId → Nat} (h : IsForest w d) : ∀ (n : Nat) (q : List VId), GoodQueue w d q →
    w.below q ≤ n → ∃ calls, w.visitBfs n q = .ok calls w ∧ Visits w q calls ∧
      (calls.map Prod.fst).Pairwise (fun x y => d x ≤ d y) := by
  intro n
  induction n with
  | zero =>
    intro q hq hb
    cases q with
    | nil => exact ⟨[], rfl, ⟨by simp, by simp, by simp, by simp⟩, by simp⟩
    | cons v q =>
      have := below_lt (w := w) (q := v :: q) (q' := []) (x := v) (by simp) (hq.ins v (by simp)) ⟨v, by simp, .refl⟩ (by simp)
      omega
  | succ n ih =>
    intro q hq hb
    cases q with
    | nil => exact ⟨[], rfl, ⟨by simp, by simp, by simp, by simp⟩, by simp⟩
    | cons v q =>
      obtain ⟨rel, hrel⟩ := Option.isSome_iff_exists.1 (hq.ins v (by simp))
      have hpar : w.parentOf v = rel.parent := by simp [TreeView.parentOf, hrel]
      obtain ⟨ha1, ha2⟩ := List.pairwise_cons.1 hq.apart
      obtain ⟨hs1, hs2⟩ := List.pairwise_cons.1 hq.sorted
      have hcp : ∀ c ∈ rel.children, w.parentOf c = some v := fun c hc => ((h.children v rel hrel).2 c).1 hc
      have hcd : ∀ c ∈ rel.children, d c = d v + 1 := fun c hc => h.child_rank hrel hc
      have hq' : GoodQueue w d (q ++ rel.children) := by
        refine ⟨?_, ?_, ?_, ?_⟩
        · intro u hu
          rcases List.mem_append.1 hu with hu | hu
          · exact hq.ins u (List.mem_cons_of_mem _ hu)
          · exact h.child_in hrel hu
        · rw [List.pairwise_append]
          refine ⟨ha2, ?_, ?_⟩
          · refine (h.children v rel hrel).1.imp_of_mem ?_
            intro a b ha hb hab
            have e := (hcd a ha).trans (hcd b hb).symm
            exact ⟨fun hh => hab (h.eq_of hh e), fun hh => hab (h.eq_of hh e.symm).symm⟩
          · intro u hu c hc
            obtain ⟨a1, a2⟩ := ha1 u hu
            constructor
            · intro hh; exact a2 (hh.tail (hcp c hc))
            · intro hh
              rcases Relation.ReflTransGen.cases_head hh with rfl | ⟨y, h1, h2⟩
              · exact a2 (.single (hcp c hc))
              · rw [hcp c hc] at h1
                obtain rfl := Option.some.inj h1
                exact a1 h2
        · rw [List.pairwise_append]
          refine ⟨hs2, ?_, ?_⟩
          · refine (h.children v rel hrel).1.imp_of_mem ?_
            intro a b ha hb _
            rw [hcd a ha, hcd b hb]
          · intro u hu c hc
            rw [hcd c hc]
            exact hq.near v (by simp) u (List.mem_cons_of_mem _ hu)
        · intro a ha b hb
          rcases List.mem_append.1 ha with ha | ha <;> rcases List.mem_append.1 hb with hb | hb
          · exact hq.near a (List.mem_cons_of_mem _ ha) b (List.mem_cons_of_mem _ hb)
          · rw [hcd b hb]; have := hs1 a ha; omega
          · rw [hcd a ha]
            have := hq.near v (by simp) b (List.mem_cons_of_mem _ hb)
            omega
          · rw [hcd a ha, hcd b hb]; omega
      have hunder : ∀ x, (∃ u ∈ v :: q, w.Under x u) ↔ x = v ∨ ∃ u ∈ q ++ rel.children, w.Under x u := by
        intro x
        constructor
        · rintro ⟨u, hu, hx⟩
          rcases List.mem_cons.1 hu with rfl | hu
          · rcases (h.under_iff hrel).1 hx with rfl | ⟨c, hc, hx⟩
            · exact Or.inl rfl
            · exact Or.inr ⟨c, List.mem_append_right _ hc, hx⟩
          · exact Or.inr ⟨u, List.mem_append_left _ hu, hx⟩
        · rintro (rfl | ⟨u, hu, hx⟩)
          · exact ⟨x, by simp, .refl⟩
          · rcases List.mem_append.1 hu with hu | hu
            · exact ⟨u, List.mem_cons_of_mem _ hu, hx⟩
            · exact ⟨v, by simp, (h.under_iff hrel).2 (Or.inr ⟨u, hu, hx⟩)⟩
      have hvno : ¬ ∃ u ∈ q ++ rel.children, w.Under v u := by
        rintro ⟨u, hu, hx⟩
        rcases List.mem_append.1 hu with hu | hu
        · exact (ha1 u hu).1 hx
        · have := h.le hx; have := hcd u hu; omega
      obtain ⟨calls, hc, hv, hsort⟩ := ih (q ++ rel.children) hq' (by
        have := below_lt (w := w) (q := v :: q) (q' := q ++ rel.children) (x := v)
          (fun x hx => (hunder x).2 (Or.inr hx)) (hq.ins v (by simp)) ⟨v, by simp, .refl⟩ hvno
        omega)
      refine ⟨(v, rel.parent) :: calls, ?_, ⟨?_, ?_, ?_, ?_⟩, ?_⟩
      · unfold visitBfs
        rw [hrel]
        simp only
        rw [hc]
      · rw [List.map_cons, List.nodup_cons]
        exact ⟨fun hh => hvno ((hv.mem v).1 hh), hv.nodup⟩
      · intro x
        rw [List.map_cons, List.mem_cons, hv.mem, hunder]
      · intro c hc
        rcases List.mem_cons.1 hc with rfl | hc
        · exact hpar.symm
        · exact hv.par c hc
      · intro x p hx hne hxp
        rw [List.map_cons] at hx ⊢
        have hxv : x ≠ v := fun hh => hne (by simp [hh])
        have hxq : x ∉ q := fun hh => hne (List.mem_cons_of_mem _ hh)
        have hx' := (List.mem_cons.1 hx).resolve_left hxv
        by_cases hxc : x ∈ rel.children
        · rw [hcp x hxc] at hxp
          obtain rfl := Option.some.inj hxp
          exact List.Sublist.cons_cons _ (List.singleton_sublist.2 hx')
        · exact List.Sublist.cons _ (hv.first x p hx' (by
            intro hh
            rcases List.mem_append.1 hh with hh | hh
            · exact hxq hh
            · exact hxc hh) hxp)
      · rw [List.map_cons, List.pairwise_cons]
        refine ⟨?_, hsort⟩
        intro x hx
        obtain ⟨u, hu, hx⟩ := (hunder x).2 (Or.inr ((hv.mem x).1 hx))
        show d v ≤ d x
        have h1 := h.le hx
        rcases List.mem_cons.1 hu with rfl | hu
        · exact h1
        · have := hs1 u hu; omega

theorem IsTreeView.forest {F E : Type} {g : G F E} {root : VId} {w : TreeView} (h : IsTreeView g root w) {d : VId → Nat}
    (hd : ∀ v p, w.parentOf v = some p → d v = d p + 1) : IsForest w d := ⟨h.children, hd⟩

end Verif
