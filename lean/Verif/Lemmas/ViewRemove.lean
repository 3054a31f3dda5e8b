import Verif.Lemmas.ViewVisit
import Verif.Lemmas.ViewHistory
import Mathlib.Data.List.Flatten
import Mathlib.Data.List.Count

set_option linter.unusedSectionVars false
set_option linter.unusedSimpArgs false
/-! Removing a connection from a correct view. -/

namespace Verif
open GS TreeView

/-! ### removing the vertices of the subtree -/

/-- the part of the map that is left -/
def restRel (vs : List VId) (rel : VRel) : VRel := { rel with children := rel.children.filter (fun c => c ∉ vs) }

theorem relOf_of_get {w : TreeView} {v : VId} {rel : VRel} (h : w.tree.get v = some rel) : w.relOf v = rel := by
  simp [relOf, h]

theorem parentOf_some {w : TreeView} {v p : VId} (h : w.parentOf v = some p) :
    ∃ rel, w.tree.get v = some rel ∧ rel.parent = some p := by
  unfold TreeView.parentOf at h
  cases hg : w.tree.get v with
  | none => simp [hg] at h
  | some r => exact ⟨r, rfl, by simpa [hg] using h⟩

theorem rmVerts_eq : ∀ (vs : List VId) (w : TreeView) (d : VId → Nat), IsForest w d → vs.Nodup →
    (∀ v ∈ vs, ∃ p, w.parentOf v = some p ∧ (w.tree.get p).isSome) →
    (∀ c v, v ∈ vs → w.parentOf c = some v → [c, v].Sublist vs) →
    ∃ w', rmVerts w vs = .ok () w' ∧ w'.crossEdges = w.crossEdges ∧ w'.root = w.root ∧ w'.publisher = w.publisher ∧
      ∀ x, w'.tree.get x = if x ∈ vs then none else (w.tree.get x).map (restRel vs) := by
  intro vs
  induction vs with
  | nil =>
    intro w d _ _ _ _
    refine ⟨w, rfl, rfl, rfl, rfl, ?_⟩
    intro x
    simp only [List.not_mem_nil, if_false]
    cases w.tree.get x with
    | none => rfl
    | some rel => simp [restRel]
  | cons v vs ih =>
    intro w d hf hn hp hord
    obtain ⟨hv, hn⟩ := List.nodup_cons.1 hn
    obtain ⟨p, hvp, hpin⟩ := hp v (by simp)
    obtain ⟨rv, hrv, hrvp⟩ := parentOf_some hvp
    obtain ⟨rp, hrp⟩ := Option.isSome_iff_exists.1 hpin
    have hne : p ≠ v := by
      rintro rfl
      have := hf.rank _ _ hvp
      omega
    have hnoc : rv.children = [] := by
      rw [List.eq_nil_iff_forall_not_mem]
      intro c hc
      have hcv := ((hf.children v rv hrv).2 c).1 hc
      have hs := hord c v (by simp) hcv
      rcases List.sublist_cons_iff.1 hs with h1 | ⟨r, h1, h2⟩
      · exact hv (h1.subset (by simp))
      · have : r = [v] := by simpa using (List.cons.inj h1).2.symm
        subst this
        exact hv (h2.subset (by simp))
    generalize hw2 : ({ w with
      tree := (w.tree.set p { rp with children := rp.children.filter (· ≠ v) }).erase v
      signals := w.signals ++ [.edgeRemoved p v] } : TreeView) = w2
    have hstep : rmVerts w (v :: vs) = rmVerts w2 vs := by
      rw [rmVerts]
      simp only [relOf_of_get hrv, hrvp, relOf_of_get hrp]
      have : ({ w with tree := w.tree.set p { rp with children := rp.children.filter (· ≠ v) } } : TreeView).relOf v = rv := by
        apply relOf_of_get
        simp only
        rw [AMap.get_set_ne hne, hrv]
      rw [this, if_pos hnoc, hw2]
    have hget : ∀ x, w2.tree.get x = if x = v then none else if x = p then
        some { rp with children := rp.children.filter (· ≠ v) } else w.tree.get x := by
      intro x
      rw [← hw2]
      simp only
      rw [AMap.get_erase, AMap.get_set]
      by_cases h1 : x = v
      · simp [h1]
      · have : v ≠ x := fun h => h1 h.symm
        by_cases h2 : x = p
        · subst h2; simp [h1, this]
        · have : p ≠ x := fun h => h2 h.symm
          simp [h1, h2, this, Ne.symm h1]
    have hpar : ∀ x, w2.parentOf x = if x = v then none else w.parentOf x := by
      intro x
      simp only [TreeView.parentOf, hget]
      by_cases h1 : x = v
      · simp [h1]
      · by_cases h2 : x = p
        · subst h2; simp [h1, hrp]
        · simp [h1, h2]
    have hf2 : IsForest w2 d := by
      refine ⟨?_, ?_⟩
      · intro q rel hq
        rw [hget] at hq
        by_cases h1 : q = v
        · simp [h1] at hq
        · by_cases h2 : q = p
          · subst h2
            simp only [h1, if_true, if_false, Option.some.injEq] at hq
            subst hq
            obtain ⟨c1, c2⟩ := hf.children q rp hrp
            refine ⟨c1.filter _, ?_⟩
            intro c
            simp only [List.mem_filter, decide_eq_true_eq, hpar, c2 c]
            by_cases h3 : c = v
            · simp [h3]
            · simp [h3]
          · simp only [h1, h2, if_false] at hq
            obtain ⟨c1, c2⟩ := hf.children q rel hq
            refine ⟨c1, ?_⟩
            intro c
            rw [c2 c, hpar]
            by_cases h3 : c = v
            · subst h3
              simp only [if_true]
              rw [hvp]
              simp only [Option.some.injEq]
              constructor
              · intro h; exact absurd h.symm h2
              · intro h; cases h
            · simp [h3]
      · intro x q hx
        rw [hpar] at hx
        by_cases h1 : x = v
        · simp [h1] at hx
        · simp only [h1, if_false] at hx
          exact hf.rank _ _ hx
    obtain ⟨w', h1, h2, h3, h4, h5⟩ := ih w2 d hf2 hn
      (by
        intro x hx
        obtain ⟨q, hq, hqin⟩ := hp x (List.mem_cons_of_mem _ hx)
        have hxv : x ≠ v := by rintro rfl; exact hv hx
        refine ⟨q, by rw [hpar, if_neg hxv, hq], ?_⟩
        have hqv : q ≠ v := by
          rintro rfl
          have := ((hf.children q rv hrv).2 x).2 hq
          rw [hnoc] at this
          cases this
        rw [hget, if_neg hqv]
        by_cases h : q = p
        · simp [h]
        · simpa [h] using hqin)
      (by
        intro c x hx hc
        rw [hpar] at hc
        by_cases hcv : c = v
        · simp [hcv] at hc
        · rw [if_neg hcv] at hc
          have := hord c x (List.mem_cons_of_mem _ hx) hc
          rcases List.sublist_cons_iff.1 this with h1 | ⟨r, h1, h2⟩
          · exact h1
          · exact absurd (List.cons.inj h1).1 hcv)
    refine ⟨w', by rw [hstep, h1], by rw [h2, ← hw2], by rw [h3, ← hw2], by rw [h4, ← hw2], ?_⟩
    intro x
    rw [h5, hget]
    by_cases hx : x = v
    · simp [hx]
    · by_cases hxs : x ∈ vs
      · simp [hxs]
      · simp only [hxs, List.mem_cons, hx, or_self, if_false]
        by_cases hxp : x = p
        · subst hxp
          simp only [if_true, hrp, Option.map_some, restRel, List.filter_filter]
          congr 2
          apply List.filter_congr
          intro c _
          by_cases a : c = v <;> by_cases b : c ∈ vs <;> simp [a, b]
        · simp only [hxp, if_false]
          cases hgx : w.tree.get x with
          | none => rfl
          | some rel =>
            simp only [Option.map_some, restRel]
            congr 2
            apply List.filter_congr
            intro c hc
            have : c ≠ v := by
              rintro rfl
              have := ((hf.children x rel hgx).2 c).1 hc
              rw [hvp] at this
              exact hxp (Option.some.inj this).symm
            simp [this]

/-! ### the cross edges -/

theorem foldlM_append' {α β : Type} (f : β → α → Option β) : ∀ (l l' : List α) (b : β),
    (l ++ l').foldlM f b = (l.foldlM f b).bind (fun b' => l'.foldlM f b') := by
  intro l l' b
  rw [List.foldlM_append]
  rfl

theorem rmVisit_eq (ces : List (Nat × CrossEdge)) : ∀ (vs : List VId) (st : RmSt),
    rmVisit ces st vs = (vs.flatMap (incident ces)).foldlM rmCross st := by
  intro vs
  induction vs with
  | nil => intro st; rfl
  | cons v vs ih =>
    intro st
    rw [rmVisit, List.flatMap_cons, foldlM_append']
    cases h : (incident ces v).foldlM rmCross st with
    | none => rfl
    | some st' => simp [ih]

/-- an iterator is in the set iff it was met an odd number of times -/
theorem foldlM_toggle (j : Nat) : ∀ (l : List Nat) (st st' : RmSt), l.foldlM rmCross st = some st' →
    (j ∈ st'.S ↔ (j ∈ st.S ↔ l.count j % 2 = 0)) := by
  intro l
  induction l with
  | nil =>
    intro st st' h
    simp only [List.foldlM_nil, Option.pure_def, Option.some.injEq] at h
    subst h; simp
  | cons i l ih =>
    intro st st' h
    rw [List.foldlM_cons] at h
    cases h1 : rmCross st i with
    | none => rw [h1] at h; cases h
    | some st1 =>
      rw [h1] at h
      have h2 := ih st1 st' h
      rw [h2, List.count_cons]
      unfold rmCross at h1
      split at h1
      · split at h1
        · rename_i hi
          obtain rfl := Option.some.inj h1
          by_cases hij : i = j
          · subst hij
            simp only [List.mem_filter, ne_eq, not_true_eq_false, decide_false, Bool.false_eq_true, and_false, false_iff, hi,
              beq_self_eq_true, if_true, true_iff]
            omega
          · have : j ≠ i := fun h => hij h.symm
            simp [List.mem_filter, this, hij]
        · rename_i hi
          obtain rfl := Option.some.inj h1
          by_cases hij : i = j
          · subst hij
            simp only [List.mem_append, List.mem_singleton, or_true, true_iff, hi, beq_self_eq_true, if_true, false_iff]
            omega
          · have : j ≠ i := fun h => hij h.symm
            simp [this, hij]
      · cases h1

theorem mem_number {α : Type} : ∀ (l : List α) (n j : Nat) (a : α), (j, a) ∈ number n l ↔ n ≤ j ∧ l[j - n]? = some a := by
  intro l
  induction l with
  | nil => intro n j a; simp [number]
  | cons x l ih =>
    intro n j a
    simp only [number, List.mem_cons, Prod.mk.injEq, ih]
    rcases Nat.lt_trichotomy j n with h | h | h
    · simp only [show ¬ n ≤ j by omega, show ¬ n + 1 ≤ j by omega, false_and, or_false, iff_false]
      omega
    · subst h
      simp only [Nat.sub_self, List.getElem?_cons_zero, Option.some.injEq, true_and, show ¬ j + 1 ≤ j by omega, false_and, or_false,
        Nat.le_refl]
      exact eq_comm
    · obtain ⟨k, rfl⟩ : ∃ k, j = n + 1 + k := ⟨j - (n + 1), by omega⟩
      have e1 : n + 1 + k - (n + 1) = k := by omega
      have e2 : n + 1 + k - n = k + 1 := by omega
      simp only [e1, e2, List.getElem?_cons_succ, show n ≤ n + 1 + k by omega, show n + 1 ≤ n + 1 + k by omega, true_and]
      constructor
      · rintro (⟨h', -⟩ | h')
        · omega
        · exact h'
      · exact Or.inr

theorem number_map_snd {α : Type} : ∀ (l : List α) (n : Nat), (number n l).map Prod.snd = l := by
  intro l
  induction l with
  | nil => intro n; rfl
  | cons a l ih => intro n; simp [number, ih]

theorem number_append {α : Type} : ∀ (l l' : List α) (n : Nat), number n (l ++ l') = number n l ++ number (n + l.length) l' := by
  intro l
  induction l with
  | nil => intro l' n; simp [number]
  | cons a l ih =>
    intro l' n
    simp only [List.cons_append, number, ih, List.length_cons]
    rw [show n + 1 + l.length = n + (l.length + 1) by omega]

theorem number_fst_lt {α : Type} {l : List α} {n : Nat} {p : Nat × α} (h : p ∈ number n l) : n ≤ p.1 ∧ p.1 < n + l.length := by
  obtain ⟨h1, h2⟩ := (mem_number l n p.1 p.2).1 h
  have := (List.getElem?_eq_some_iff.1 h2).1
  omega

theorem incident_append (A B : List (Nat × CrossEdge)) (v : VId) : incident (A ++ B) v = incident A v ++ incident B v := by
  simp [incident]

theorem incident_nil_of {A : List CrossEdge} {v : VId} (h : ∀ c ∈ A, c.origin ≠ v ∧ c.target ≠ v) (n : Nat) :
    incident (number n A) v = [] := by
  unfold incident
  rw [List.flatMap_eq_nil_iff]
  intro p hp
  have hc : p.2 ∈ A := by
    have := List.mem_map_of_mem (f := Prod.snd) hp
    rwa [number_map_snd] at this
  simp [(h _ hc).1, (h _ hc).2]

theorem flatMap_if_eq {L : List VId} (hn : L.Nodup) {o : VId} (ho : o ∈ L) (k : Nat) :
    L.flatMap (fun v => if o = v then [k] else []) = [k] := by
  induction L with
  | nil => cases ho
  | cons a L ih =>
    obtain ⟨ha, hn⟩ := List.nodup_cons.1 hn
    rw [List.flatMap_cons]
    rcases List.mem_cons.1 ho with rfl | ho'
    · have : L.flatMap (fun v => if o = v then [k] else []) = [] := by
        rw [List.flatMap_eq_nil_iff]
        intro x hx
        rw [if_neg]
        rintro rfl; exact ha hx
      rw [this]; simp
    · have : o ≠ a := fun e => ha (e ▸ ho')
      rw [if_neg this, ih hn ho']; rfl

/-- no cross edge touches the removed vertices -/
theorem rmVisit_none {ces : List CrossEdge} {L : List VId} (h : ∀ c ∈ ces, c.origin ∉ L ∧ c.target ∉ L) (st : RmSt) :
    rmVisit (number 0 ces) st L = some st := by
  rw [rmVisit_eq]
  have : L.flatMap (incident (number 0 ces)) = [] := by
    rw [List.flatMap_eq_nil_iff]
    intro v hv
    refine incident_nil_of ?_ 0
    intro c hc
    exact ⟨fun e => (h c hc).1 (e ▸ hv), fun e => (h c hc).2 (e ▸ hv)⟩
  rw [this]; rfl

/-- exactly one cross edge touches the removed vertices, with both ends -/
theorem rmVisit_one {A B : List CrossEdge} {c : CrossEdge} {L : List VId} (hn : L.Nodup)
    (hA : ∀ x ∈ A, x.origin ∉ L ∧ x.target ∉ L) (hB : ∀ x ∈ B, x.origin ∉ L ∧ x.target ∉ L) (h1 : c.origin ∈ L)
    (h2 : c.target ∈ L) :
    ∃ st, rmVisit (number 0 (A ++ c :: B)) ⟨number 0 (A ++ c :: B), none, []⟩ L = some st ∧ st.S = [] ∧
      st.cur.map Prod.snd = A ++ B := by
  rw [rmVisit_eq]
  have hT : L.flatMap (incident (number 0 (A ++ c :: B))) = [A.length, A.length] := by
    have e : L.flatMap (incident (number 0 (A ++ c :: B))) =
        L.flatMap (fun v => (if c.origin = v then [A.length] else []) ++ (if c.target = v then [A.length] else [])) := by
      rw [List.flatMap_def, List.flatMap_def]
      congr 1
      apply List.map_congr_left
      intro v hv
      rw [number_append, incident_append]
      rw [incident_nil_of (A := A) (fun x hx => ⟨fun e => (hA x hx).1 (e ▸ hv), fun e => (hA x hx).2 (e ▸ hv)⟩)]
      simp only [List.nil_append, number, Nat.zero_add]
      have : ∀ (k : Nat) (l : List (Nat × CrossEdge)), incident ((k, c) :: l) v =
          ((if c.origin = v then [k] else []) ++ (if c.target = v then [k] else [])) ++ incident l v := by
        intro k l; simp [incident]
      rw [this, incident_nil_of (A := B) (fun x hx => ⟨fun e => (hB x hx).1 (e ▸ hv), fun e => (hB x hx).2 (e ▸ hv)⟩)]
      simp
    rw [e]
    have hperm := List.flatMap_append_perm L (fun v => if c.origin = v then [A.length] else [])
      (fun v => if c.target = v then [A.length] else [])
    rw [flatMap_if_eq hn h1, flatMap_if_eq hn h2] at hperm
    exact (List.perm_replicate (n := 2) (a := A.length)).1 hperm.symm
  rw [hT]
  refine ⟨⟨(number 0 (A ++ c :: B)).filter (fun p => p.1 ≠ A.length), some A.length, []⟩, ?_, rfl, ?_⟩
  · simp [rmCross, RmSt.valid]
  · simp only
    rw [number_append, List.filter_append, List.map_append]
    congr 1
    · rw [List.filter_eq_self.2, number_map_snd]
      intro p hp
      have := number_fst_lt hp
      simp only [decide_eq_true_eq]; omega
    · simp only [number, Nat.zero_add, List.filter_cons, ne_eq, not_true_eq_false, decide_false, Bool.false_eq_true, if_false]
      rw [List.filter_eq_self.2, number_map_snd]
      intro p hp
      have := number_fst_lt hp
      simp only [decide_not, Bool.not_eq_eq_eq_not, Bool.not_true, decide_eq_false_iff_not]; omega

/-! ### the whole of `removeEdge` -/

variable {F E : Type} [FrameProp F] [EdgeProp E]

theorem tree_edge_cases {w : TreeView} {d : VId → Nat} (hf : IsForest w d) {a b : VId} (h : w.TreeEdge a b) :
    ∃ rt p0, w.parentOf rt = some p0 ∧ ((a = p0 ∧ b = rt) ∨ (a = rt ∧ b = p0)) ∧
      (∀ x, w.Cut a b x ↔ w.Under x rt) := by
  rcases h with h | h
  · refine ⟨a, b, h, Or.inr ⟨rfl, rfl⟩, ?_⟩
    intro x
    have hn : w.parentOf b ≠ some a := by
      intro h'
      have := hf.rank _ _ h
      have := hf.rank _ _ h'
      omega
    simp [TreeView.Cut, h, hn]
  · refine ⟨b, a, h, Or.inl ⟨rfl, rfl⟩, ?_⟩
    intro x
    have hn : w.parentOf a ≠ some b := by
      intro h'
      have := hf.rank _ _ h
      have := hf.rank _ _ h'
      omega
    simp [TreeView.Cut, h, hn]

/-- what `removeEdge` does on a tree edge of a correct view -/
theorem removeEdge_unfold {g : G F E} (hp : Paired g) {root : VId} {w : TreeView} (h : IsTreeView g root w) {a b : VId}
    (ht : w.TreeEdge a b) :
    ∃ L : List VId, L.Nodup ∧ (∀ x, x ∈ L ↔ w.Cut a b x) ∧
      w.removeEdge a b =
        (match rmVisit (number 0 w.crossEdges) ⟨number 0 w.crossEdges, none, []⟩ L with
        | none => .ub "removeEdge: use of an invalidated iterator"
        | some st =>
          match rmVerts { w with crossEdges := st.cur.map (·.2) } L.reverse with
          | .ub m => .ub m
          | .throw e s => .throw e s
          | .ok _ w' =>
            if st.S = [] then .ok () w'
            else .throw (.runtimeError "NOT IMPLEMENTED") w') ∧
      (∀ ces, ∃ w', rmVerts { w with crossEdges := ces } L.reverse = .ok () w' ∧ w'.crossEdges = ces ∧ w'.root = w.root ∧
        ∀ x, w'.tree.get x = if x ∈ L then none else (w.tree.get x).map (restRel L)) := by
  obtain ⟨d, hd⟩ := h.rank
  have hf := h.forest hd
  obtain ⟨rt, p0, hrt, hab, hcut⟩ := tree_edge_cases hf ht
  obtain ⟨rr, hrr, hrrp⟩ := parentOf_some hrt
  have hin : (w.tree.get rt).isSome := by rw [hrr]; rfl
  obtain ⟨calls, h1, h2, -⟩ := bfs_visits hf (w.tree.length + 1) [rt] ⟨by simpa using hin, by simp, by simp, by simp⟩
    ((below_le w [rt]).trans (Nat.le_succ _))
  have hmem : ∀ x, x ∈ calls.map Prod.fst ↔ w.Under x rt := by intro x; rw [h2.mem]; simp
  refine ⟨calls.map Prod.fst, h2.nodup, fun x => by rw [hmem, hcut], ?_, ?_⟩
  · have hreal : (if (w.relOf b).parent = some a then some b else if (w.relOf a).parent = some b then some a else none)
        = some rt := by
      have hpo : ∀ x, (w.relOf x).parent = w.parentOf x := by
        intro x
        unfold relOf TreeView.parentOf
        cases w.tree.get x <;> rfl
      rw [hpo, hpo]
      rcases hab with ⟨rfl, rfl⟩ | ⟨rfl, rfl⟩
      · rw [if_pos hrt]
      · rw [if_neg, if_pos hrt]
        intro h'
        have := hf.rank _ _ hrt
        have := hf.rank _ _ h'
        omega
    unfold TreeView.removeEdge
    simp only [hreal, h1]
    rfl
  · intro ces
    have hf' : IsForest ({ w with crossEdges := ces } : TreeView) d := ⟨hf.children, hf.rank⟩
    have hpo : ∀ x, ({ w with crossEdges := ces } : TreeView).parentOf x = w.parentOf x := fun _ => rfl
    obtain ⟨w', r1, r2, r3, -, r5⟩ := rmVerts_eq (calls.map Prod.fst).reverse { w with crossEdges := ces } d hf'
      (List.nodup_reverse.2 h2.nodup)
      (by
        intro v hv
        rw [List.mem_reverse, hmem] at hv
        rcases Relation.ReflTransGen.cases_head hv with rfl | ⟨y, hy, -⟩
        · exact ⟨p0, hrt, h.parent_in hp hrt⟩
        · exact ⟨y, hy, h.parent_in hp hy⟩)
      (by
        intro c v hv hcv
        rw [hpo] at hcv
        rw [List.mem_reverse, hmem] at hv
        have hcu : w.Under c rt := .head hcv hv
        have hne : c ≠ rt := by
          rintro rfl
          have := hf.rank _ _ hcv
          have := hf.le hv
          omega
        have := (h2.first c v ((hmem c).2 hcu) (by simpa using hne) hcv).reverse
        simpa using this)
    refine ⟨w', r1, r2, r3, ?_⟩
    intro x
    rw [r5]
    have : restRel (calls.map Prod.fst).reverse = restRel (calls.map Prod.fst) := by
      funext rel
      simp only [restRel, List.mem_reverse]
    rw [this]
    simp only [List.mem_reverse]

/-- the component that remains after the subtree was cut off -/
theorem IsTreeView.cut {g : G F E} (hp : Paired g) {root : VId} {w w' : TreeView} (h : IsTreeView g root w) {a b : VId}
    (ht : w.TreeEdge a b) {L : List VId} (hL : ∀ x, x ∈ L ↔ w.Cut a b x) (hroot : w'.root = w.root)
    (hget : ∀ x, w'.tree.get x = if x ∈ L then none else (w.tree.get x).map (restRel L))
    (hin : ∀ c ∈ w.crossEdges, (c.origin ∈ L ↔ c.target ∈ L))
    (hces : w'.crossEdges = w.crossEdges.filter (fun c => c.origin ∉ L)) : IsTreeView (g.cut a b) root w' := by
  obtain ⟨d, hd⟩ := h.rank
  have hf := h.forest hd
  obtain ⟨rt, p0, hrt, hab, hcut⟩ := tree_edge_cases hf ht
  have hu : ∀ x, x ∈ L ↔ w.Under x rt := fun x => (hL x).trans (hcut x)
  have hadj : ∀ x y, (g.cut a b).Adj x y ↔ g.Adj x y ∧ ¬ ((x = p0 ∧ y = rt) ∨ (x = rt ∧ y = p0)) := by
    intro x y
    have hiff : ((x = a ∧ y = b) ∨ (x = b ∧ y = a)) ↔ ((x = p0 ∧ y = rt) ∨ (x = rt ∧ y = p0)) := by
      rcases hab with ⟨rfl, rfl⟩ | ⟨rfl, rfl⟩ <;> tauto
    rw [← hiff]
    simp only [G.Adj, G.cut, List.mem_filter, decide_eq_true_eq]
    constructor
    · rintro ⟨e, ⟨he, hn⟩, rfl, rfl⟩
      exact ⟨⟨e, he, rfl, rfl⟩, hn⟩
    · rintro ⟨⟨e, he, rfl, rfl⟩, hn⟩
      exact ⟨e, ⟨he, hn⟩, rfl, rfl⟩
  have hpar : ∀ x, w'.parentOf x = if x ∈ L then none else w.parentOf x := by
    intro x
    simp only [TreeView.parentOf, hget]
    by_cases hx : x ∈ L
    · simp [hx]
    · simp only [hx, if_false]
      cases w.tree.get x <;> simp [restRel]
  have hex : ∀ x, w'.vertexExists x = true ↔ w.vertexExists x = true ∧ x ∉ L := by
    intro x
    simp only [TreeView.vertexExists, hget]
    by_cases hx : x ∈ L
    · simp [hx]
    · simp [hx]
  have hrootL : root ∉ L := by
    rw [hu]
    intro hh
    rcases Relation.ReflTransGen.cases_head hh with rfl | ⟨y, hy, -⟩
    · rw [h.root_parent] at hrt; cases hrt
    · rw [h.root_parent] at hy; cases hy
  have hpL : ∀ v p, v ∉ L → w.parentOf v = some p → p ∉ L := by
    intro v p hv hvp hpL
    exact hv ((hu v).2 (.head hvp ((hu p).1 hpL)))
  have hrtL : rt ∈ L := (hu rt).2 .refl
  have hnorem : ∀ v p, v ∉ L → w.parentOf v = some p → ¬ ((p = p0 ∧ v = rt) ∨ (p = rt ∧ v = p0)) := by
    rintro v p hv hvp (⟨-, rfl⟩ | ⟨rfl, -⟩)
    · exact hv hrtL
    · exact hpL v _ hv hvp hrtL
  have hreach1 : ∀ v, (g.cut a b).Reach root v → g.Reach root v ∧ v ∉ L := by
    intro v hv
    induction hv with
    | refl => exact ⟨.refl, hrootL⟩
    | @tail x y _ hxy ih =>
      obtain ⟨hgxy, hnr⟩ := (hadj x y).1 hxy
      refine ⟨ih.1.tail hgxy, ?_⟩
      intro hyL
      by_cases hte : w.TreeEdge x y
      · rcases hte with hte | hte
        · exact hpL x y ih.2 hte hyL
        · by_cases hyr : y = rt
          · subst hyr
            rw [hrt] at hte
            exact hnr (Or.inl ⟨(Option.some.inj hte).symm, rfl⟩)
          · rcases Relation.ReflTransGen.cases_head ((hu y).1 hyL) with h1 | ⟨z, h1, h2⟩
            · exact hyr h1
            · rw [hte] at h1
              obtain rfl := Option.some.inj h1
              exact ih.2 ((hu _).2 h2)
      · have hc := h.cross_once x y hgxy ih.1 hte
        obtain ⟨c, hc'⟩ := List.length_eq_one_iff.1 hc
        have hcm : c ∈ w.crossEdges.filter (fun c => c.Joins x y) := by rw [hc']; simp
        simp only [List.mem_filter, decide_eq_true_eq] at hcm
        have h3 := hin c hcm.1
        rcases hcm.2 with ⟨h4, h5⟩ | ⟨h4, h5⟩
        · rw [h4, h5] at h3; exact ih.2 (h3.2 hyL)
        · rw [h4, h5] at h3; exact ih.2 (h3.1 hyL)
  have hreach2 : ∀ n v, d v ≤ n → w.vertexExists v = true → v ∉ L → (g.cut a b).Reach root v := by
    intro n
    induction n with
    | zero =>
      intro v hdv hv hvL
      by_cases hvr : v = root
      · subst hvr; exact .refl
      · obtain ⟨p, hvp, -⟩ := h.parent v hv hvr
        have := hd v p hvp
        omega
    | succ n ih =>
      intro v hdv hv hvL
      by_cases hvr : v = root
      · subst hvr; exact .refl
      · obtain ⟨p, hvp, hga⟩ := h.parent v hv hvr
        have := hd v p hvp
        exact (ih p (by omega) (h.parent_in hp hvp) (hpL v p hvL hvp)).tail ((hadj p v).2 ⟨hga, hnorem v p hvL hvp⟩)
  have hreach : ∀ v, (g.cut a b).Reach root v ↔ g.Reach root v ∧ v ∉ L := by
    intro v
    exact ⟨hreach1 v, fun hh => hreach2 (d v) v (Nat.le_refl _) ((h.span v).2 hh.1) hh.2⟩
  have hte : ∀ u v, u ∉ L → v ∉ L → (w'.TreeEdge u v ↔ w.TreeEdge u v) := by
    intro u v h1 h2
    simp [TreeView.TreeEdge, hpar, h1, h2]
  have hfil : ∀ u v, u ∉ L → v ∉ L → w'.crossEdges.filter (fun c => c.Joins u v) = w.crossEdges.filter (fun c => c.Joins u v) := by
    intro u v h1 h2
    rw [hces, List.filter_filter]
    apply List.filter_congr
    intro c _
    by_cases hj : c.Joins u v
    · have : c.origin ∉ L := by
        rcases hj with ⟨h3, -⟩ | ⟨h3, -⟩ <;> rw [h3] <;> assumption
      simp [hj, this]
    · simp [hj]
  have hadjL : ∀ u v, (g.cut a b).Adj u v → (g.cut a b).Reach root u → v ∉ L := fun u v h1 h2 => (hreach1 v (h2.tail h1)).2
  refine ⟨by rw [hroot, h.root_eq], ?_, ?_, ?_, ?_, ⟨d, ?_⟩, ?_, ?_, ?_⟩
  · intro v; rw [hex, hreach, h.span]
  · rw [hpar, if_neg hrootL, h.root_parent]
  · intro v hv hvr
    obtain ⟨hv1, hv2⟩ := (hex v).1 hv
    obtain ⟨p, hvp, hga⟩ := h.parent v hv1 hvr
    exact ⟨p, by rw [hpar, if_neg hv2, hvp], (hadj p v).2 ⟨hga, hnorem v p hv2 hvp⟩⟩
  · intro p rel hrel
    rw [hget] at hrel
    by_cases hpl : p ∈ L
    · simp [hpl] at hrel
    · simp only [hpl, if_false, Option.map_eq_some_iff] at hrel
      obtain ⟨r0, hr0, rfl⟩ := hrel
      obtain ⟨c1, c2⟩ := h.children p r0 hr0
      refine ⟨c1.filter _, ?_⟩
      intro c
      simp only [restRel, List.mem_filter, decide_eq_true_eq, c2, hpar]
      by_cases hcL : c ∈ L <;> simp [hcL]
  · intro v p hvp
    rw [hpar] at hvp
    by_cases hv : v ∈ L
    · simp [hv] at hvp
    · simp only [hv, if_false] at hvp
      exact hd v p hvp
  · intro c hc
    rw [hces, List.mem_filter] at hc
    have hco : c.origin ∉ L := by simpa using hc.2
    have hct : c.target ∉ L := fun hh => hco ((hin c hc.1).2 hh)
    obtain ⟨e, he, h1, h2, h3, h4⟩ := h.cross_edge c hc.1
    refine ⟨e, ?_, h1, h2, h3, (hreach _).2 ⟨h4, by rw [h2]; exact hco⟩⟩
    simp only [G.cut, List.mem_filter, decide_eq_true_eq]
    refine ⟨he, ?_⟩
    rw [h2, h3]
    have ha : a ∈ L ∨ b ∈ L := by
      rcases hab with ⟨-, rfl⟩ | ⟨rfl, -⟩
      · exact Or.inr hrtL
      · exact Or.inl hrtL
    rintro (⟨rfl, rfl⟩ | ⟨rfl, rfl⟩)
    · exact ha.elim hco hct
    · exact ha.elim hct hco
  · intro u v huv hur ht'
    have hul := (hreach1 u hur).2
    have hvl := hadjL u v huv hur
    rw [hfil u v hul hvl]
    exact h.tree_not_cross u v ((hadj u v).1 huv).1 (hreach1 u hur).1 ((hte u v hul hvl).1 ht')
  · intro u v huv hur ht'
    have hul := (hreach1 u hur).2
    have hvl := hadjL u v huv hur
    rw [hfil u v hul hvl]
    exact h.cross_once u v ((hadj u v).1 huv).1 (hreach1 u hur).1 (fun hh => ht' ((hte u v hul hvl).2 hh))

/-- at most one element of the list has the property -/
theorem split_pairwise {α : Type} (P : α → Prop) [DecidablePred P] : ∀ (l : List α), l.Pairwise (fun x y => ¬ (P x ∧ P y)) →
    (∀ x ∈ l, ¬ P x) ∨ ∃ A c B, l = A ++ c :: B ∧ P c ∧ (∀ x ∈ A, ¬ P x) ∧ (∀ x ∈ B, ¬ P x) := by
  intro l
  induction l with
  | nil => intro _; exact Or.inl (by simp)
  | cons a l ih =>
    intro h
    obtain ⟨h1, h2⟩ := List.pairwise_cons.1 h
    by_cases ha : P a
    · exact Or.inr ⟨[], a, l, rfl, ha, by simp, fun x hx hxp => h1 x hx ⟨ha, hxp⟩⟩
    · rcases ih h2 with h3 | ⟨A, c, B, rfl, h4, h5, h6⟩
      · left
        intro x hx
        rcases List.mem_cons.1 hx with rfl | hx
        · exact ha
        · exact h3 x hx
      · refine Or.inr ⟨a :: A, c, B, rfl, h4, ?_, h6⟩
        intro x hx
        rcases List.mem_cons.1 hx with rfl | hx
        · exact ha
        · exact h5 x hx

/-- a tree edge whose subtree has no cross edges to the rest and at most one inside -/
theorem removeEdge_follows {g : G F E} (hp : Paired g) {root : VId} {w : TreeView} (h : IsTreeView g root w) {a b : VId}
    (ht : w.TreeEdge a b) (hin : ∀ c ∈ w.crossEdges, (w.Cut a b c.origin ↔ w.Cut a b c.target))
    (hone : w.crossEdges.Pairwise (fun c c' => ¬ (w.Cut a b c.origin ∧ w.Cut a b c'.origin))) :
    ∃ w', w.removeEdge a b = .ok () w' ∧ IsTreeView (g.cut a b) root w' := by
  obtain ⟨L, hn, hL, heq, hrm⟩ := removeEdge_unfold hp h ht
  have hin' : ∀ c ∈ w.crossEdges, (c.origin ∈ L ↔ c.target ∈ L) := by
    intro c hc; rw [hL, hL]; exact hin c hc
  have hone' : w.crossEdges.Pairwise (fun c c' => ¬ (c.origin ∈ L ∧ c'.origin ∈ L)) := by
    refine hone.imp ?_
    intro c c' h1; rw [hL, hL]; exact h1
  rcases split_pairwise (fun c : CrossEdge => c.origin ∈ L) _ hone' with hnone | ⟨A, c, B, hces, hc, hA, hB⟩
  · rw [rmVisit_none (fun c hc => ⟨hnone c hc, fun hh => hnone c hc ((hin' c hc).2 hh)⟩)] at heq
    simp only at heq
    obtain ⟨w', r1, r2, r3, r4⟩ := hrm ((number 0 w.crossEdges).map (·.2))
    rw [r1] at heq
    refine ⟨w', by rw [heq]; rfl, h.cut hp ht hL r3 r4 hin' ?_⟩
    rw [r2, number_map_snd, eq_comm, List.filter_eq_self]
    intro c hc
    simpa using hnone c hc
  · obtain ⟨st, s1, s2, s3⟩ := rmVisit_one hn
      (A := A) (B := B) (c := c)
      (fun x hx => ⟨hA x hx, fun hh => hA x hx ((hin' x (by rw [hces]; simp [hx])).2 hh)⟩)
      (fun x hx => ⟨hB x hx, fun hh => hB x hx ((hin' x (by rw [hces]; simp [hx])).2 hh)⟩)
      hc ((hin' c (by rw [hces]; simp)).1 hc)
    rw [← hces] at s1
    rw [s1] at heq
    simp only at heq
    obtain ⟨w', r1, r2, r3, r4⟩ := hrm (st.cur.map (·.2))
    rw [r1] at heq
    simp only [s2, if_true] at heq
    refine ⟨w', heq, h.cut hp ht hL r3 r4 hin' ?_⟩
    rw [r2]
    rw [show st.cur.map (·.2) = A ++ B from s3, hces, List.filter_append, List.filter_cons]
    simp only [hc, not_true_eq_false, decide_false, Bool.false_eq_true, if_false]
    congr 1
    · rw [eq_comm, List.filter_eq_self]; intro x hx; simpa using hA x hx
    · rw [eq_comm, List.filter_eq_self]; intro x hx; simpa using hB x hx

/-- a cross edge from the subtree to the rest: the call never succeeds -/
theorem removeEdge_leaving {g : G F E} (hp : Paired g) {root : VId} {w : TreeView} (h : IsTreeView g root w) {a b : VId}
    (ht : w.TreeEdge a b) {c : CrossEdge} (hc : c ∈ w.crossEdges) (hl : ¬ (w.Cut a b c.origin ↔ w.Cut a b c.target)) :
    ∀ w', w.removeEdge a b ≠ .ok () w' := by
  intro w' hok
  obtain ⟨L, hn, hL, heq, -⟩ := removeEdge_unfold hp h ht
  rw [heq] at hok
  cases hst : rmVisit (number 0 w.crossEdges) ⟨number 0 w.crossEdges, none, []⟩ L with
  | none => rw [hst] at hok; cases hok
  | some st =>
    rw [hst] at hok
    simp only at hok
    have hS : st.S = [] := by
      split at hok
      · cases hok
      · cases hok
      · split at hok
        · assumption
        · cases hok
    obtain ⟨j, hj⟩ := List.getElem?_of_mem hc
    have hjn : (j, c) ∈ number 0 w.crossEdges := (mem_number _ 0 j c).2 ⟨Nat.zero_le _, hj⟩
    rw [rmVisit_eq] at hst
    have htog := foldlM_toggle j _ _ _ hst
    rw [hS] at htog
    simp only [List.not_mem_nil, false_iff] at htog
    have hl' : ¬ (c.origin ∈ L ↔ c.target ∈ L) := by rw [hL, hL]; exact hl
    have hcount : (L.flatMap (incident (number 0 w.crossEdges))).count j = 1 := by
      -- split off the entry of `c`
      obtain ⟨A, B, hAB⟩ := List.append_of_mem hc
      obtain ⟨A', B', hsplit⟩ := List.append_of_mem hjn
      have hfst : ∀ p ∈ A' ++ B', p.1 ≠ j := by
        have hnd : ((number 0 w.crossEdges).map Prod.fst).Nodup := by
          have : ∀ (l : List CrossEdge) (n : Nat), (number n l).map Prod.fst = List.range' n l.length := by
            intro l
            induction l with
            | nil => intro n; rfl
            | cons a l ih => intro n; simp [number, ih, List.range'_succ]
          rw [this]; exact List.nodup_range'
        rw [hsplit] at hnd
        have hnd' : (j :: (A' ++ B').map Prod.fst).Nodup := by
          refine (List.Perm.nodup_iff ?_).1 hnd
          simp only [List.map_append, List.map_cons]
          exact List.perm_middle
        intro p hp e
        exact (List.nodup_cons.1 hnd').1 (List.mem_map.2 ⟨p, hp, e⟩)
      have hno : ∀ (Q : List (Nat × CrossEdge)) (v : VId), (∀ p ∈ Q, p.1 ≠ j) → (incident Q v).count j = 0 := by
        intro Q v hQ
        rw [List.count_eq_zero]
        intro hm
        obtain ⟨p, hp, hpj⟩ := List.mem_flatMap.1 hm
        have : j = p.1 := by
          rw [List.mem_append] at hpj
          rcases hpj with h1 | h1 <;> split at h1 <;> simp at h1 <;> exact h1
        exact hQ p hp this.symm
      have hone : ∀ v, (incident (number 0 w.crossEdges) v).count j =
          (if c.origin = v then 1 else 0) + (if c.target = v then 1 else 0) := by
        intro v
        have e : incident (number 0 w.crossEdges) v = incident A' v ++
            (((if c.origin = v then [j] else []) ++ (if c.target = v then [j] else [])) ++ incident B' v) := by
          rw [hsplit, incident_append]
          congr 1
        rw [e, List.count_append, List.count_append, List.count_append,
          hno A' v (fun p hp => hfst p (List.mem_append_left _ hp)), hno B' v (fun p hp => hfst p (List.mem_append_right _ hp))]
        by_cases h1 : c.origin = v <;> by_cases h2 : c.target = v <;> simp [h1, h2]
      rw [List.count_flatMap]
      have e2 : (List.count j ∘ incident (number 0 w.crossEdges)) =
          fun v => (if c.origin = v then 1 else 0) + (if c.target = v then 1 else 0) := by
        funext v; exact hone v
      rw [e2]
      have hsum : ∀ (o : VId) (l : List VId), l.Nodup → (l.map (fun v => if o = v then 1 else 0)).sum = if o ∈ l then 1 else 0 := by
        intro o l
        induction l with
        | nil => intro _; rfl
        | cons x l ih =>
          intro hnx
          obtain ⟨n1, n2⟩ := List.nodup_cons.1 hnx
          rw [List.map_cons, List.sum_cons, ih n2]
          by_cases hx : o = x
          · subst hx; simp [n1]
          · simp [hx]
      have hsplit2 : ∀ (l : List VId), (l.map (fun v => (if c.origin = v then 1 else 0) + (if c.target = v then 1 else 0))).sum =
          (l.map (fun v => if c.origin = v then 1 else 0)).sum + (l.map (fun v => if c.target = v then 1 else 0)).sum := by
        intro l
        induction l with
        | nil => rfl
        | cons x l ih => simp only [List.map_cons, List.sum_cons, ih]; omega
      rw [hsplit2, hsum _ L hn, hsum _ L hn]
      by_cases h1 : c.origin ∈ L <;> by_cases h2 : c.target ∈ L
      · exact absurd (by simp [h1, h2]) hl'
      · simp [h1, h2]
      · simp [h1, h2]
      · exact absurd (by simp [h1, h2]) hl'
    rw [hcount] at htog
    simp at htog

/-! ### several views -/

theorem IsTreeView.edgeExists_true {g : G F E} (hp : Paired g) {root : VId} {w : TreeView} (h : IsTreeView g root w) {a b : VId}
    (ht : w.TreeEdge a b) : w.edgeExists a b = some true := by
  have key : ∀ u v, w.parentOf u = some v → ∃ ru rv, w.tree.get u = some ru ∧ w.tree.get v = some rv ∧ ru.parent = some v ∧
      u ∈ rv.children := by
    intro u v huv
    obtain ⟨ru, h1, h2⟩ := parentOf_some huv
    obtain ⟨rv, h3⟩ := Option.isSome_iff_exists.1 (h.parent_in hp huv)
    exact ⟨ru, rv, h1, h3, h2, ((h.children v rv h3).2 u).2 huv⟩
  obtain ⟨d, hd⟩ := h.rank
  rcases ht with ht | ht
  · obtain ⟨ra, rb, h1, h2, h3, h4⟩ := key _ _ ht
    simp [edgeExists, h1, h2, h3, h4]
  · obtain ⟨rb, ra, h1, h2, h3, h4⟩ := key _ _ ht
    have : ra.parent ≠ some b := by
      intro hh
      have e1 := hd _ _ ht
      have e2 := hd a b (by simp [TreeView.parentOf, h2, hh])
      omega
    simp [edgeExists, h1, h2, h3, h4, this]

theorem IsTreeView.edgeExists_false {g : G F E} {root : VId} {w : TreeView} (_h : IsTreeView g root w) {a b : VId}
    (ht : ¬ w.TreeEdge a b) : w.edgeExists a b = some false := by
  unfold edgeExists
  cases ha : w.tree.get a with
  | none => rfl
  | some ra =>
    cases hb : w.tree.get b with
    | none => rfl
    | some rb =>
      have h1 : ra.parent ≠ some b := fun hh => ht (Or.inl (by simp [TreeView.parentOf, ha, hh]))
      have h2 : rb.parent ≠ some a := fun hh => ht (Or.inr (by simp [TreeView.parentOf, hb, hh]))
      simp [h1, h2]

theorem cut_adj {g : G F E} {a b x y : VId} :
    (g.cut a b).Adj x y ↔ g.Adj x y ∧ ¬ ((x = a ∧ y = b) ∨ (x = b ∧ y = a)) := by
  simp only [G.Adj, G.cut, List.mem_filter, decide_eq_true_eq]
  constructor
  · rintro ⟨e, ⟨he, hn⟩, rfl, rfl⟩
    exact ⟨⟨e, he, rfl, rfl⟩, hn⟩
  · rintro ⟨⟨e, he, rfl, rfl⟩, hn⟩
    exact ⟨e, ⟨he, hn⟩, rfl, rfl⟩

/-- the removed connection is not in the component of the view -/
theorem IsTreeView.cut_outside {g : G F E} {root : VId} {w : TreeView} (h : IsTreeView g root w) {a b : VId}
    (ha : ¬ g.Reach root a) (hb : ¬ g.Reach root b) : IsTreeView (g.cut a b) root w := by
  have hadj : ∀ x y, g.Reach root x → ((g.cut a b).Adj x y ↔ g.Adj x y) := by
    intro x y hx
    rw [cut_adj]
    constructor
    · exact And.left
    · intro hxy
      refine ⟨hxy, ?_⟩
      rintro (⟨rfl, -⟩ | ⟨rfl, -⟩)
      · exact ha hx
      · exact hb hx
  have hreach : ∀ v, (g.cut a b).Reach root v ↔ g.Reach root v := by
    intro v
    constructor
    · intro hv; exact hv.mono (fun x y hxy => (cut_adj.1 hxy).1)
    · intro hv
      induction hv with
      | refl => exact .refl
      | tail hx hxy ih => exact ih.tail ((hadj _ _ hx).2 hxy)
  refine ⟨h.root_eq, ?_, h.root_parent, ?_, h.children, h.rank, ?_, ?_, ?_⟩
  · intro v; rw [hreach]; exact h.span v
  · intro v hv hvr
    obtain ⟨p, hvp, hga⟩ := h.parent v hv hvr
    refine ⟨p, hvp, cut_adj.2 ⟨hga, ?_⟩⟩
    have hv' := (h.span v).1 hv
    rintro (⟨-, rfl⟩ | ⟨-, rfl⟩)
    · exact hb hv'
    · exact ha hv'
  · intro c hc
    obtain ⟨e, he, h1, h2, h3, h4⟩ := h.cross_edge c hc
    refine ⟨e, ?_, h1, h2, h3, (hreach _).2 h4⟩
    simp only [G.cut, List.mem_filter, decide_eq_true_eq]
    refine ⟨he, ?_⟩
    rintro (⟨h5, -⟩ | ⟨h5, -⟩)
    · exact ha (h5 ▸ h4)
    · exact hb (h5 ▸ h4)
  · intro u v huv hu
    exact h.tree_not_cross u v (cut_adj.1 huv).1 ((hreach u).1 hu)
  · intro u v huv hu
    exact h.cross_once u v (cut_adj.1 huv).1 ((hreach u).1 hu)

/-- a connection that is no tree edge and not listed as cross edge lies outside -/
theorem IsTreeView.outside {g : G F E} (hp : Paired g) {root : VId} {w : TreeView} (h : IsTreeView g root w) {a b : VId}
    (hab : g.Adj a b) (ht : ¬ w.TreeEdge a b) (hc : ∀ c ∈ w.crossEdges, ¬ c.Joins a b) : ¬ g.Reach root a ∧ ¬ g.Reach root b := by
  have key : ¬ g.Reach root a := by
    intro ha
    obtain ⟨c, hc'⟩ := List.length_eq_one_iff.1 (h.cross_once a b hab ha ht)
    have hcm : c ∈ w.crossEdges.filter (fun c => c.Joins a b) := by rw [hc']; simp
    simp only [List.mem_filter, decide_eq_true_eq] at hcm
    exact hc c hcm.1 hcm.2
  exact ⟨key, fun hb => key (hb.tail (hab.symm hp))⟩

theorem removeEdgeFromTreeViews_correct {g : G F E} (hp : Paired g) {a b : VId} (hab : g.Adj a b) :
    ∀ (ps : List Nat) (vs : Nat → TreeView), ps.Nodup → (∀ p ∈ ps, ∃ root, IsTreeView g root (vs p)) →
    (∀ p ∈ ps, (vs p).CleanCut a b) →
    ∃ vs', removeEdgeFromTreeViews a b ps vs = .ok () vs' ∧
      ∀ p ∈ ps, ∀ root, IsTreeView g root (vs p) → IsTreeView (g.cut a b) root (vs' p) := by
  classical
  intro ps
  induction ps with
  | nil => intro vs _ _ _; exact ⟨vs, rfl, by simp⟩
  | cons p ps ih =>
    intro vs hnd hok hcl
    obtain ⟨hpn, hnd⟩ := List.nodup_cons.1 hnd
    obtain ⟨root, hroot⟩ := hok p (by simp)
    have hc := hcl p (by simp)
    have hw' : ∃ w', (if (vs p).TreeEdge a b then (vs p).removeEdge a b = .ok () w' else w' = vs p) ∧
        IsTreeView (g.cut a b) root w' := by
      by_cases ht : (vs p).TreeEdge a b
      · obtain ⟨w', h1, h2⟩ := removeEdge_follows hp hroot ht hc.inside hc.one
        exact ⟨w', by rw [if_pos ht]; exact h1, h2⟩
      · obtain ⟨h1, h2⟩ := hroot.outside hp hab ht hc.no_cross
        exact ⟨vs p, by rw [if_neg ht], hroot.cut_outside h1 h2⟩
    obtain ⟨w', hw1, hw2⟩ := hw'
    have hsame : ∀ q ∈ ps, setView vs p w' q = vs q := by
      intro q hq
      have : q ≠ p := by rintro rfl; exact hpn hq
      simp [setView, this]
    obtain ⟨vs', h3, h4⟩ := ih (setView vs p w') hnd
      (by intro q hq; rw [hsame q hq]; exact hok q (List.mem_cons_of_mem _ hq))
      (by intro q hq; rw [hsame q hq]; exact hcl q (List.mem_cons_of_mem _ hq))
    refine ⟨vs', ?_, ?_⟩
    · unfold removeEdgeFromTreeViews
      by_cases ht : (vs p).TreeEdge a b
      · rw [if_pos ht] at hw1
        rw [hroot.edgeExists_true hp ht]
        simp only [hw1]
        exact h3
      · rw [if_neg ht] at hw1
        subst hw1
        rw [hroot.edgeExists_false ht]
        simp only
        have : setView vs p (vs p) = vs := by
          funext q; unfold setView; split
          · rename_i hq; rw [hq]
          · rfl
        rw [this] at h3
        exact h3
    · intro q hq root' hr'
      rcases List.mem_cons.1 hq with rfl | hq
      · have hv' : vs' q = w' := by
          have := (removeEdgeFromTreeViews_same ps (setView vs q w') vs' (by rw [h3]; rfl)).1 q hpn
          rw [this]; simp [setView]
        rw [hv']
        have : root' = root := by
          have e1 := hr'.root_eq
          rw [hroot.root_eq] at e1
          exact (Option.some.inj e1).symm
        rw [this]; exact hw2
      · exact h4 q hq root' (by rw [hsame q hq]; exact hr')

/-- a view in which the connection is no tree edge is not touched -/
theorem removeEdgeFromTreeViews_stale {a b : VId} {q : Nat} :
    ∀ (ps : List Nat) (vs vs' : Nat → TreeView), (vs q).edgeExists a b = some false →
    (removeEdgeFromTreeViews a b ps vs).st? = some vs' → vs' q = vs q := by
  intro ps
  induction ps with
  | nil => intro vs vs' _ h; simp only [removeEdgeFromTreeViews, Res.st?, Option.some.injEq] at h; rw [h]
  | cons p ps ih =>
    intro vs vs' hq h
    unfold removeEdgeFromTreeViews at h
    cases he : (vs p).edgeExists a b with
    | none => simp [he, Res.st?] at h
    | some r =>
      cases r with
      | false => simp only [he] at h; exact ih vs vs' hq h
      | true =>
        have hne : q ≠ p := by rintro rfl; rw [hq] at he; cases he
        have hsv : ∀ w, setView vs p w q = vs q := fun w => by simp [setView, hne]
        simp only [he] at h
        cases hx : (vs p).removeEdge a b with
        | ok x w =>
          rw [hx] at h
          simp only at h
          rw [ih (setView vs p w) vs' (by rw [hsv]; exact hq) h, hsv]
        | throw x w =>
          rw [hx] at h
          simp only [Res.st?, Option.some.injEq] at h
          rw [← h, hsv]
        | ub r => rw [hx] at h; cases h

/-- when the call succeeds, so did the removal from every view that has the tree edge -/
theorem removeEdgeFromTreeViews_ok {a b : VId} {q : Nat} :
    ∀ (ps : List Nat) (vs vs' : Nat → TreeView), ps.Nodup → q ∈ ps → (vs q).edgeExists a b = some true →
    removeEdgeFromTreeViews a b ps vs = .ok () vs' → ∃ w', (vs q).removeEdge a b = .ok () w' := by
  intro ps
  induction ps with
  | nil => intro vs vs' _ h; cases h
  | cons p ps ih =>
    intro vs vs' hn hq he h
    obtain ⟨hpn, hn⟩ := List.nodup_cons.1 hn
    unfold removeEdgeFromTreeViews at h
    by_cases hqp : q = p
    · subst hqp
      rw [he] at h
      simp only at h
      cases hx : (vs q).removeEdge a b with
      | ok x w => exact ⟨w, rfl⟩
      | throw x w => rw [hx] at h; cases h
      | ub r => rw [hx] at h; cases h
    · have hq' := (List.mem_cons.1 hq).resolve_left hqp
      have hsv : ∀ w, setView vs p w q = vs q := fun w => by simp [setView, hqp]
      cases hep : (vs p).edgeExists a b with
      | none => rw [hep] at h; cases h
      | some r =>
        cases r with
        | false => rw [hep] at h; exact ih vs vs' hn hq' he h
        | true =>
          rw [hep] at h
          simp only at h
          cases hx : (vs p).removeEdge a b with
          | ok x w =>
            rw [hx] at h
            simp only at h
            have := ih (setView vs p w) vs' hn hq' (by rw [hsv]; exact he) h
            rw [hsv] at this
            exact this
          | throw x w => rw [hx] at h; cases h
          | ub r => rw [hx] at h; cases h

end Verif
