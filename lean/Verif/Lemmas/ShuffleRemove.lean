import Verif.Lemmas.Shuffle
import Verif.Lemmas.ViewRemoveExact
set_option linter.unusedSectionVars false
/-! `TreeView::removeEdge` on views that differ only in the order of the children. -/

namespace Verif
namespace TreeView

/-- a signal for each removed vertex, with the parent it had -/
theorem rmVerts_signals (vs : List VId) : ∀ {w w' : TreeView}, vs.Nodup → rmVerts w vs = .ok () w' →
    w'.signals = w.signals ++ vs.map (fun v => .edgeRemoved ((w.relOf v).parent.getD 0) v) := by
  induction vs with
  | nil => intro w w' _ h; simp only [rmVerts, Res.ok.injEq, true_and] at h; subst h; simp
  | cons v vs ih =>
    intro w w' hn h
    obtain ⟨hv, hn⟩ := List.nodup_cons.1 hn
    unfold rmVerts at h
    cases hp : (w.relOf v).parent with
    | none => rw [hp] at h; cases h
    | some p =>
      rw [hp] at h
      simp only at h
      split at h
      · have h1 := ih hn h
        rw [h1]
        simp only [List.map_cons, hp, Option.getD_some, List.append_assoc, List.cons_append, List.nil_append]
        congr 2
        refine List.map_congr_left (fun u hu => ?_)
        have hne : v ≠ u := by rintro rfl; exact hv hu
        congr 2
        unfold relOf
        simp only [AMap.get_erase, AMap.get_set, if_neg hne]
        by_cases hpu : p = u
        · subst hpu; simp
        · simp [hpu]
      · cases h

/-- the iterators that remain after the touches `l` -/
theorem foldlM_cur (l : List Nat) : ∀ {st st' : RmSt}, l.foldlM rmCross st = some st' →
    st'.cur = st.cur.filter (fun p => l.count p.1 + (if p.1 ∈ st.S then 1 else 0) < 2) := by
  induction l with
  | nil =>
    intro st st' h
    simp only [List.foldlM_nil, Option.pure_def, Option.some.injEq] at h
    subst h
    symm
    rw [List.filter_eq_self]
    intro p _
    simp only [List.count_nil, Nat.zero_add, decide_eq_true_eq]
    split <;> omega
  | cons i l ih =>
    intro st st' h
    rw [List.foldlM_cons] at h
    cases h1 : rmCross st i with
    | none => rw [h1] at h; cases h
    | some st1 =>
      rw [h1] at h
      have h2 := ih h
      rw [h2]
      unfold rmCross at h1
      split at h1
      · split at h1
        · rename_i hi
          obtain rfl := Option.some.inj h1
          rw [List.filter_filter]
          refine List.filter_congr (fun p _ => ?_)
          by_cases hpi : p.1 = i
          · subst hpi
            simp [hi]
          · have hpi' : ¬ i = p.1 := fun h => hpi h.symm
            simp [List.count_cons, hpi, hpi', List.mem_filter]
        · rename_i hi
          obtain rfl := Option.some.inj h1
          refine List.filter_congr (fun p _ => ?_)
          by_cases hpi : p.1 = i
          · subst hpi
            simp [hi]
          · have hpi' : ¬ i = p.1 := fun h => hpi h.symm
            simp [List.count_cons, hpi, hpi']
      · cases h1

/-- whatever the order of the touches, if no invalid iterator is used the same cross edges remain -/
theorem rmVisit_perm {ces : List (Nat × CrossEdge)} {L L' : List VId} (h : L.Perm L') {st st' : RmSt}
    (h1 : rmVisit ces ⟨ces, none, []⟩ L = some st) (h2 : rmVisit ces ⟨ces, none, []⟩ L' = some st') :
    st'.cur = st.cur ∧ (st'.S = [] ↔ st.S = []) := by
  rw [rmVisit_eq] at h1 h2
  have hp : (L.flatMap (incident ces)).Perm (L'.flatMap (incident ces)) := h.flatMap_right _
  constructor
  · rw [foldlM_cur _ h1, foldlM_cur _ h2]
    refine List.filter_congr (fun p _ => ?_)
    rw [hp.count_eq]
  · simp only [List.eq_nil_iff_forall_not_mem]
    refine forall_congr' (fun j => not_congr ?_)
    rw [foldlM_toggle j _ _ _ h1, foldlM_toggle j _ _ _ h2, hp.count_eq]

theorem parentOf_relOf (w : TreeView) (x : VId) : (w.relOf x).parent = w.parentOf x := by
  unfold relOf TreeView.parentOf
  cases w.tree.get x <;> rfl

/-- what `removeEdge` does on a tree edge of a tidy view -/
theorem Tidy.removeEdge_eq {w : TreeView} (h : w.Tidy) {a b : VId} (ht : w.TreeEdge a b) :
    ∃ L : List VId, L.Nodup ∧ (∀ x, x ∈ L ↔ w.Cut a b x) ∧
      w.removeEdge a b =
        (match rmVisit (number 0 w.crossEdges) ⟨number 0 w.crossEdges, none, []⟩ L with
        | none => .ub "removeEdge: use of an invalidated iterator"
        | some st =>
          match rmVerts { w with crossEdges := st.cur.map (·.2) } L.reverse with
          | .ub m => .ub m
          | .throw e s => .throw e s
          | .ok _ w' =>
            if st.S = [] then .ok () w'
            else .throw (.runtimeError "NOT IMPLEMENTED") w') ∧
      (∀ ces, ∃ w', rmVerts { w with crossEdges := ces } L.reverse = .ok () w' ∧ w'.crossEdges = ces ∧ w'.root = w.root ∧
        w'.publisher = w.publisher ∧
        w'.signals = w.signals ++ L.reverse.map (fun v => .edgeRemoved ((w.relOf v).parent.getD 0) v) ∧
        ∀ x, w'.tree.get x = if x ∈ L then none else (w.tree.get x).map (restRel L)) := by
  obtain ⟨d, hd⟩ := h.rank
  have hf : IsForest w d := ⟨h.children, hd⟩
  obtain ⟨rt, p0, hrt, hab, hcut⟩ := tree_edge_cases hf ht
  obtain ⟨rr, hrr, hrrp⟩ := parentOf_some hrt
  have hin : (w.tree.get rt).isSome := by rw [hrr]; rfl
  obtain ⟨calls, h1, h2, -⟩ := bfs_visits hf (w.tree.length + 1) [rt] ⟨by simpa using hin, by simp, by simp, by simp⟩
    ((below_le w [rt]).trans (Nat.le_succ _))
  have hmem : ∀ x, x ∈ calls.map Prod.fst ↔ w.Under x rt := by intro x; rw [h2.mem]; simp
  refine ⟨calls.map Prod.fst, h2.nodup, fun x => by rw [hmem, hcut], ?_, ?_⟩
  · have hreal : (if (w.relOf b).parent = some a then some b else if (w.relOf a).parent = some b then some a else none)
        = some rt := by
      rw [parentOf_relOf, parentOf_relOf]
      rcases hab with ⟨rfl, rfl⟩ | ⟨rfl, rfl⟩
      · rw [if_pos hrt]
      · rw [if_neg, if_pos hrt]
        intro h'
        have := hf.rank _ _ hrt
        have := hf.rank _ _ h'
        omega
    unfold TreeView.removeEdge
    simp only [hreal, h1]
    rfl
  · intro ces
    have hf' : IsForest ({ w with crossEdges := ces } : TreeView) d := ⟨hf.children, hf.rank⟩
    have hpo : ∀ x, ({ w with crossEdges := ces } : TreeView).parentOf x = w.parentOf x := fun _ => rfl
    obtain ⟨w', r1, r2, r3, r4, r5⟩ := rmVerts_eq (calls.map Prod.fst).reverse { w with crossEdges := ces } d hf'
      (List.nodup_reverse.2 h2.nodup)
      (by
        intro v hv
        rw [List.mem_reverse, hmem] at hv
        rcases Relation.ReflTransGen.cases_head hv with rfl | ⟨y, hy, -⟩
        · exact ⟨p0, hrt, h.parent _ _ hrt⟩
        · exact ⟨y, hy, h.parent _ _ hy⟩)
      (by
        intro c v hv hcv
        rw [hpo] at hcv
        rw [List.mem_reverse, hmem] at hv
        have hcu : w.Under c rt := .head hcv hv
        have hne : c ≠ rt := by
          rintro rfl
          have := hf.rank _ _ hcv
          have := hf.le hv
          omega
        have := (h2.first c v ((hmem c).2 hcu) (by simpa using hne) hcv).reverse
        simpa using this)
    refine ⟨w', r1, r2, r3, r4,
      rmVerts_signals _ (w := { w with crossEdges := ces }) (List.nodup_reverse.2 h2.nodup) r1, ?_⟩
    intro x
    rw [r5]
    have : restRel (calls.map Prod.fst).reverse = restRel (calls.map Prod.fst) := by
      funext rel
      simp only [restRel, List.mem_reverse]
    rw [this]
    simp only [List.mem_reverse]

/-- the rest of a tidy view is tidy -/
theorem Tidy.rest {w w' : TreeView} (h : w.Tidy) {a b : VId} {L : List VId} (hL : ∀ x, x ∈ L ↔ w.Cut a b x)
    (hg : ∀ x, w'.tree.get x = if x ∈ L then none else (w.tree.get x).map (restRel L)) : w'.Tidy := by
  have hpar : ∀ x, w'.parentOf x = if x ∈ L then none else w.parentOf x := by
    intro x
    unfold parentOf
    rw [hg]
    split
    · rfl
    · cases w.tree.get x <;> rfl
  have hup : ∀ v p, w.parentOf v = some p → p ∈ L → v ∈ L := by
    intro v p hvp hp
    rw [hL] at hp ⊢
    rcases hp with ⟨h1, h2⟩ | ⟨h1, h2⟩
    · exact Or.inl ⟨h1, .head hvp h2⟩
    · exact Or.inr ⟨h1, .head hvp h2⟩
  refine ⟨?_, ?_, ?_⟩
  · intro p rel hp
    rw [hg] at hp
    split at hp
    · cases hp
    · rename_i hpL
      cases hx : w.tree.get p with
      | none => rw [hx] at hp; cases hp
      | some r =>
        rw [hx, Option.map_some, Option.some.injEq] at hp
        subst hp
        obtain ⟨k1, k2⟩ := h.children p r hx
        refine ⟨k1.filter _, fun c => ?_⟩
        simp only [restRel, List.mem_filter, decide_eq_true_eq, k2, hpar]
        split
        · rename_i hc; simp [hc]
        · rename_i hc; simp [hc]
  · intro v p hvp
    rw [hpar] at hvp
    split at hvp
    · cases hvp
    · rename_i hv
      have h1 := h.parent v p hvp
      have h2 : p ∉ L := fun hp => hv (hup v p hvp hp)
      unfold vertexExists at h1 ⊢
      rw [hg, if_neg h2]
      simpa using h1
  · obtain ⟨d, hd⟩ := h.rank
    refine ⟨d, fun v p hvp => ?_⟩
    rw [hpar] at hvp
    split at hvp
    · cases hvp
    · exact hd v p hvp

/-- same outcome up to the order of the children, unless one of the two has undefined behaviour -/
inductive ShuffleUB : Res TreeView Unit → Res TreeView Unit → Prop
  | ok {w w'} : w.Shuffle w' → w.Tidy → ShuffleUB (.ok () w) (.ok () w')
  | throw {x w w'} : w.Shuffle w' → w.Tidy → ShuffleUB (.throw x w) (.throw x w')
  | left {m r} : ShuffleUB (.ub m) r
  | right {m r} : ShuffleUB r (.ub m)

theorem Shuffle.rest {w w' v v' : TreeView} (h : w.Shuffle w') {L L' : List VId} (hL : ∀ x, x ∈ L' ↔ x ∈ L)
    (hg : ∀ x, v.tree.get x = if x ∈ L then none else (w.tree.get x).map (restRel L))
    (hg' : ∀ x, v'.tree.get x = if x ∈ L' then none else (w'.tree.get x).map (restRel L')) (x : VId) :
    Option.Rel VRel.Shuffle (v.tree.get x) (v'.tree.get x) := by
  rw [hg, hg']
  simp only [hL]
  split
  · exact .none
  · rcases h.entry x with ⟨h1, h2⟩ | ⟨r, r', h1, h2, k⟩
    · rw [h1, h2]; exact .none
    · rw [h1, h2]
      refine .some ⟨k.parent, ?_⟩
      simp only [restRel, hL]
      exact k.children.filter _

theorem removeEdge_shuffle {w w' : TreeView} (h : w.Shuffle w') (k : w.Tidy) {a b : VId} (ht : w.TreeEdge a b) :
    ShuffleUB (w.removeEdge a b) (w'.removeEdge a b) := by
  obtain ⟨L, hn, hL, heq, hrm⟩ := k.removeEdge_eq ht
  obtain ⟨L', hn', hL', heq', hrm'⟩ := (h.tidy k).removeEdge_eq ((h.treeEdge a b).2 ht)
  have hLL : ∀ x, x ∈ L' ↔ x ∈ L := fun x => by rw [hL', hL, h.cut]
  have hp : L.Perm L' := (List.perm_ext_iff_of_nodup hn hn').2 (fun x => (hLL x).symm)
  rw [h.cross] at heq'
  rw [heq, heq']
  cases h1 : rmVisit (number 0 w.crossEdges) ⟨number 0 w.crossEdges, none, []⟩ L with
  | none => exact .left
  | some st =>
    cases h2 : rmVisit (number 0 w.crossEdges) ⟨number 0 w.crossEdges, none, []⟩ L' with
    | none => exact .right
    | some st' =>
      obtain ⟨e1, e2⟩ := rmVisit_perm hp h1 h2
      obtain ⟨v, r1, r2, r3, r4, r6, r7⟩ := hrm (st.cur.map (·.2))
      obtain ⟨v', r1', r2', r3', r4', r6', r7'⟩ := hrm' (st'.cur.map (·.2))
      simp only [r1, r1', e2]
      have hgv := h.rest hLL r7 r7'
      have hv : v.Shuffle v' := by
        refine ⟨hgv, by rw [r2, r2', e1], by rw [r3, r3', h.root], by rw [r4, r4', h.publisher], ?_⟩
        · rw [r6, r6']
          refine h.signals.append ?_
          have : (fun v => ViewSignal.edgeRemoved ((w'.relOf v).parent.getD 0) v) = fun v => .edgeRemoved ((w.relOf v).parent.getD 0) v := by
            funext v; rw [(h.relOf v).parent]
          rw [this]
          exact List.Perm.map _ ((List.reverse_perm L').trans (hp.symm.trans (List.reverse_perm L).symm))
      have hvt := k.rest hL r7
      split
      · exact .ok hv hvt
      · exact .throw hv hvt

theorem edgeExists_treeEdge {w : TreeView} {a b : VId} (h : w.edgeExists a b = some true) : w.TreeEdge a b := by
  unfold edgeExists at h
  split at h
  · rename_i ra rb ha hb
    split at h
    · rename_i hp; exact Or.inl (by simp [parentOf, ha, hp])
    · split at h
      · rename_i hp; exact Or.inr (by simp [parentOf, hb, hp])
      · cases h
  · cases h

end TreeView
end Verif
