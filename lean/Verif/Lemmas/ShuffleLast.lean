import Verif.Lemmas.ShuffleRuns
set_option linter.unusedSectionVars false
/-! An order of the children in which a given vertex is visited last among the vertices that are not deeper. -/

namespace Verif
namespace TreeView

open Classical in
/-- the children above `z` last -/
noncomputable def sendLast (w : TreeView) (z : VId) (r : VRel) : VRel :=
  { r with children := r.children.filter (fun c => ¬ w.Under z c) ++ r.children.filter (fun c => w.Under z c) }

/-- the same in the whole view -/
noncomputable def lastView (w : TreeView) (z : VId) : TreeView := { w with tree := w.tree.map (fun p => (p.1, w.sendLast z p.2)) }

theorem get_map_snd (m : AMap VId VRel) (f : VRel → VRel) (v : VId) : AMap.get (m.map (fun p => (p.1, f p.2))) v = (m.get v).map f := by
  induction m with
  | nil => rfl
  | cons p m ih =>
    simp only [List.map_cons, AMap.get_cons, ih]
    split <;> rfl

theorem sendLast_shuffle (w : TreeView) (z : VId) (r : VRel) : r.Shuffle (w.sendLast z r) := by
  classical
  refine ⟨rfl, ?_⟩
  unfold sendLast
  simp only
  have := List.filter_append_perm (fun c => decide (w.Under z c)) r.children
  refine List.Perm.trans ?_ this
  refine (List.perm_append_comm).trans ?_
  refine List.Perm.append (.of_eq ?_) (.of_eq ?_)
  · exact List.filter_congr (fun c _ => by simp)
  · exact List.filter_congr (fun c _ => by simp)

theorem lastView_shuffle (w : TreeView) (z : VId) : w.Shuffle (w.lastView z) := by
  refine ⟨fun v => ?_, rfl, rfl, rfl, .refl _⟩
  unfold lastView
  rw [get_map_snd]
  cases w.tree.get v with
  | none => exact .none
  | some r => exact .some (sendLast_shuffle w z r)

theorem lastView_children {w : TreeView} {z v : VId} {r : VRel} (h : (w.lastView z).tree.get v = some r) :
    ∃ r0, w.tree.get v = some r0 ∧ r = w.sendLast z r0 := by
  unfold lastView at h
  simp only [get_map_snd] at h
  cases hx : w.tree.get v with
  | none => rw [hx] at h; cases h
  | some r0 => rw [hx] at h; exact ⟨r0, rfl, by simpa using h.symm⟩

/-- queue of the traversal in which the vertex above `z` is the last of its level -/
structure LastQueue (w : TreeView) (d : VId → Nat) (z : VId) (q : List VId) : Prop where
  after : q.Pairwise (fun x y => w.Under z x → d x < d y)
  near : ∀ x ∈ q, w.Under z x → ∀ y ∈ q, d x ≤ d y

theorem pairwise_sendLast {w : TreeView} {d : VId → Nat} (hf : IsForest w d) {z v : VId} {r : VRel} (hv : w.tree.get v = some r) :
    (w.sendLast z r).children.Pairwise (fun x y => w.Under z x → d x < d y) := by
  classical
  obtain ⟨hn, hc⟩ := hf.children v r hv
  have hd : ∀ c ∈ r.children, d c = d v + 1 := fun c h => hf.rank c v ((hc c).1 h)
  unfold sendLast
  simp only
  rw [List.pairwise_append]
  refine ⟨?_, ?_, ?_⟩
  · refine List.Pairwise.imp_of_mem ?_ (List.pairwise_of_forall (R := fun _ _ => True) (fun _ _ => trivial))
    intro x y hx _ _ hu
    simp only [List.mem_filter, decide_eq_true_eq] at hx
    exact (hx.2 hu).elim
  · refine List.Pairwise.imp_of_mem ?_ (hn.filter _)
    intro x y hx hy hne hu
    simp only [List.mem_filter, decide_eq_true_eq] at hx hy
    exact (hne (hf.same_level hu hy.2 (by rw [hd x hx.1, hd y hy.1]))).elim
  · intro x hx y _ hu
    simp only [List.mem_filter, decide_eq_true_eq] at hx
    exact (hx.2 hu).elim

theorem bfs_under {w : TreeView} {d : VId → Nat} (hf : IsForest w d) : ∀ (n : Nat) (q : List VId) (calls : List (VId × Option VId)) (w1 : TreeView),
    w.visitBfs n q = .ok calls w1 → ∀ x ∈ calls.map Prod.fst, ∃ y ∈ q, w.Under x y := by
  intro n
  induction n with
  | zero =>
    intro q calls w1 h x hx
    cases q with
    | nil => simp only [visitBfs, Res.ok.injEq] at h; rw [← h.1] at hx; cases hx
    | cons v q => simp [visitBfs] at h
  | succ n ih =>
    intro q calls w1 h x hx
    cases q with
    | nil => simp only [visitBfs, Res.ok.injEq] at h; rw [← h.1] at hx; cases hx
    | cons v q =>
      simp only [visitBfs] at h
      split at h
      · cases h
      · rename_i r hr
        split at h
        · rename_i l w2 hl
          simp only [Res.ok.injEq] at h
          rw [← h.1, List.map_cons] at hx
          rcases List.mem_cons.1 hx with rfl | hx
          · exact ⟨x, by simp, .refl⟩
          · obtain ⟨y, hy, hu⟩ := ih _ _ _ hl x hx
            rcases List.mem_append.1 hy with hy | hy
            · exact ⟨y, by simp [hy], hu⟩
            · exact ⟨v, by simp, hu.tail (((hf.children v r hr).2 y).1 hy)⟩
        · cases h
        · cases h

/-- in this order every vertex visited after `z` is deeper than `z` -/
theorem bfs_last {w : TreeView} {d : VId → Nat} (hf : IsForest w d) (z : VId) : ∀ (n : Nat) (q : List VId) (calls : List (VId × Option VId))
    (w1 : TreeView), (w.lastView z).visitBfs n q = .ok calls w1 → LastQueue w d z q →
    (calls.map Prod.fst).Pairwise (fun x y => w.Under z x → d x < d y) := by
  have hsh := lastView_shuffle w z
  have hf' : IsForest (w.lastView z) d := ⟨hsh.childrenOk hf.children, fun v p h => hf.rank v p (by rw [← hsh.parentOf]; exact h)⟩
  intro n
  induction n with
  | zero =>
    intro q calls w1 h _
    cases q with
    | nil => simp only [visitBfs, Res.ok.injEq] at h; rw [← h.1]; exact .nil
    | cons v q => simp [visitBfs] at h
  | succ n ih =>
    intro q calls w1 h hq
    cases q with
    | nil => simp only [visitBfs, Res.ok.injEq] at h; rw [← h.1]; exact .nil
    | cons v q =>
      simp only [visitBfs] at h
      split at h
      · cases h
      · rename_i r hr
        split at h
        · rename_i l w2 hl
          simp only [Res.ok.injEq] at h
          rw [← h.1, List.map_cons]
          obtain ⟨r0, hr0, hr1⟩ := lastView_children hr
          have hd : ∀ c ∈ r.children, d c = d v + 1 := fun c h =>
            hf'.rank c v (((hf'.children v r hr).2 c).1 h)
          have hpc : ∀ c ∈ r.children, w.parentOf c = some v := fun c h => by
            rw [← hsh.parentOf]; exact ((hf'.children v r hr).2 c).1 h
          obtain ⟨q1, q2⟩ := List.pairwise_cons.1 hq.after
          have hq' : LastQueue w d z (q ++ r.children) := by
            constructor
            · rw [List.pairwise_append]
              refine ⟨q2, by rw [hr1]; exact pairwise_sendLast hf hr0, ?_⟩
              intro x hx y hy hu
              have := hq.near x (by simp [hx]) hu v (by simp)
              rw [hd y hy]; omega
            · intro x hx hu y hy
              rcases List.mem_append.1 hx with hx | hx
              · rcases List.mem_append.1 hy with hy | hy
                · exact hq.near x (by simp [hx]) hu y (by simp [hy])
                · have := hq.near x (by simp [hx]) hu v (by simp)
                  rw [hd y hy]; omega
              · rcases List.mem_append.1 hy with hy | hy
                · have := q1 y hy (hu.tail (hpc x hx))
                  rw [hd x hx]; omega
                · rw [hd x hx, hd y hy]
          refine List.pairwise_cons.2 ⟨?_, ih _ _ _ hl hq'⟩
          intro y hy hu
          obtain ⟨x, hx, hyx⟩ := bfs_under hf' _ _ _ _ hl y hy
          have h1 := hf'.le hyx
          show d v < d y
          replace hu : w.Under z v := hu
          rcases List.mem_append.1 hx with hx | hx
          · have := q1 x hx hu; omega
          · have := hd x hx; omega
        · cases h
        · cases h

theorem idx_lt {L : List VId} {R : VId → VId → Prop} (hp : L.Pairwise R) {x y : VId} (hx : x ∈ L) (hy : y ∈ L) (hxy : ¬ R y x) (hne : x ≠ y) :
    L.idxOf x < L.idxOf y := by
  rcases Nat.lt_trichotomy (L.idxOf x) (L.idxOf y) with h | h | h
  · exact h
  · exact absurd ((List.idxOf_inj hx).1 h) hne
  · have h1 := List.idxOf_lt_length_iff.2 hx
    have h2 := List.idxOf_lt_length_iff.2 hy
    have := List.pairwise_iff_getElem.1 hp _ _ h2 h1 h
    rw [List.getElem_idxOf, List.getElem_idxOf] at this
    exact absurd this hxy

/-- the visited vertices of a cut -/
theorem Tidy.cutOrder {w : TreeView} (h : w.Tidy) {d : VId → Nat} (hd : ∀ v p, w.parentOf v = some p → d v = d p + 1) {a b : VId}
    (ht : w.TreeEdge a b) :
    ∃ rt calls, w.visitBfs (w.tree.length + 1) [rt] = .ok calls w ∧ w.cutOrder a b = calls.map Prod.fst ∧
      (w.cutOrder a b).Nodup ∧ (∀ x, x ∈ w.cutOrder a b ↔ w.Cut a b x) ∧ (w.cutOrder a b).Pairwise (fun x y => d x ≤ d y) := by
  have hf : IsForest w d := ⟨h.children, hd⟩
  obtain ⟨rt, p0, hrt, hab, hcut⟩ := tree_edge_cases hf ht
  obtain ⟨rr, hrr, hrrp⟩ := parentOf_some hrt
  have hin : (w.tree.get rt).isSome := by rw [hrr]; rfl
  obtain ⟨calls, h1, h2, h3⟩ := bfs_visits hf (w.tree.length + 1) [rt] ⟨by simpa using hin, by simp, by simp, by simp⟩
    ((below_le w [rt]).trans (Nat.le_succ _))
  have hmem : ∀ x, x ∈ calls.map Prod.fst ↔ w.Under x rt := by intro x; rw [h2.mem]; simp
  have hco : w.cutOrder a b = calls.map Prod.fst := by
    have : (if w.parentOf b = some a then b else a) = rt := by
      rcases hab with ⟨rfl, rfl⟩ | ⟨rfl, rfl⟩
      · rw [if_pos hrt]
      · rw [if_neg]
        intro h'
        have := hf.rank _ _ hrt
        have := hf.rank _ _ h'
        omega
    unfold TreeView.cutOrder
    rw [this, h1]
  refine ⟨rt, calls, h1, hco, by rw [hco]; exact h2.nodup, fun x => by rw [hco, hmem, hcut], by rw [hco]; exact h3⟩

/-- The inner cross edges are closed in the reverse order of the list for every order of the children if and only if they are listed in
strictly decreasing order of the depth of their deeper ends. -/
theorem closed_all_orders {w : TreeView} (h : w.Tidy) {a b : VId} (ht : w.TreeEdge a b) (hs : w.Sealed a b) :
    (∀ w', w.Shuffle w' → w'.ClosedBackwards a b) ↔ w.DeepestFirst a b := by
  constructor
  · intro hall _ d hd
    have hf : IsForest w d := ⟨h.children, hd⟩
    rw [List.pairwise_iff_getElem]
    intro i j hi hj hij ho ho'
    by_contra hlt
    rw [Nat.not_lt] at hlt
    generalize hc : w.crossEdges[i] = c at *
    generalize hc' : w.crossEdges[j] = c' at *
    have hcm : c ∈ w.crossEdges := by rw [← hc]; exact List.getElem_mem _
    have hcm' : c' ∈ w.crossEdges := by rw [← hc']; exact List.getElem_mem _
    have hot := (hs ht c hcm).1 ho
    have hot' := (hs ht c' hcm').1 ho'
    -- the deeper end of `c'`
    obtain ⟨z, hz1, hz2, hz3⟩ : ∃ z, (z = c'.origin ∨ z = c'.target) ∧ w.Cut a b z ∧ max (d c'.origin) (d c'.target) = d z := by
      rcases Nat.le_total (d c'.origin) (d c'.target) with hm | hm
      · exact ⟨c'.target, Or.inr rfl, hot', Nat.max_eq_right hm⟩
      · exact ⟨c'.origin, Or.inl rfl, ho', Nat.max_eq_left hm⟩
    have hsh := lastView_shuffle w z
    have hcl := hall _ hsh ((hsh.treeEdge a b).2 ht)
    rw [hsh.cross, List.pairwise_iff_getElem] at hcl
    have hcl := hcl i j hi hj hij
    rw [hc, hc', hsh.cut, hsh.cut] at hcl
    have hcl := hcl ho ho'
    obtain ⟨rt, calls, v1, v2, v3, v4, -⟩ := (hsh.tidy h).cutOrder (d := d) (fun v p hp => hd v p (by rw [← hsh.parentOf]; exact hp))
      ((hsh.treeEdge a b).2 ht)
    have hlast := bfs_last hf z _ _ _ _ v1 ⟨by simp, by simp⟩
    rw [← v2] at hlast
    have hin : ∀ x, w.Cut a b x → x ∈ (w.lastView z).cutOrder a b := fun x hx => (v4 x).2 ((hsh.cut a b x).2 hx)
    have hbefore : ∀ x, w.Cut a b x → d x ≤ d z → ((w.lastView z).cutOrder a b).idxOf x ≤ ((w.lastView z).cutOrder a b).idxOf z := by
      intro x hx hxz
      by_cases hne : x = z
      · rw [hne]
      · exact Nat.le_of_lt (idx_lt hlast (hin x hx) (hin z hz2) (fun hr => by have := hr .refl; omega) hne)
    have hz4 : ((w.lastView z).cutOrder a b).idxOf z ≤ lastVisit ((w.lastView z).cutOrder a b) c' := by
      unfold lastVisit
      rcases hz1 with rfl | rfl
      · exact Nat.le_max_left _ _
      · exact Nat.le_max_right _ _
    rw [hz3] at hlt
    have h1 := hbefore c.origin ho ((Nat.le_max_left _ _).trans hlt)
    have h2 := hbefore c.target hot ((Nat.le_max_right _ _).trans hlt)
    have h3 : lastVisit ((w.lastView z).cutOrder a b) c ≤ ((w.lastView z).cutOrder a b).idxOf z := Nat.max_le.2 ⟨h1, h2⟩
    omega
  · intro hdf w' hsh ht'
    obtain ⟨d, hd⟩ := h.rank
    have hdf := hdf ht d hd
    rw [hsh.cross]
    obtain ⟨rt, calls, v1, v2, v3, v4, v5⟩ := (hsh.tidy h).cutOrder (d := d) (fun v p hp => hd v p (by rw [← hsh.parentOf]; exact hp)) ht'
    refine hdf.imp_of_mem ?_
    intro c c' hcm hcm' hlt ho ho'
    rw [hsh.cut] at ho ho'
    have hlt := hlt ho ho'
    have hot := (hs ht c hcm).1 ho
    have hot' := (hs ht c' hcm').1 ho'
    have hin : ∀ x, w.Cut a b x → x ∈ w'.cutOrder a b := fun x hx => (v4 x).2 ((hsh.cut a b x).2 hx)
    have hidx : ∀ x y, w.Cut a b x → w.Cut a b y → d x < d y → (w'.cutOrder a b).idxOf x < (w'.cutOrder a b).idxOf y := by
      intro x y hx hy hxy
      exact idx_lt v5 (hin x hx) (hin y hy) (by omega) (by rintro rfl; omega)
    unfold lastVisit
    rcases Nat.le_total (d c.origin) (d c.target) with hm | hm
    · rw [Nat.max_eq_right hm, Nat.max_lt] at hlt
      have h1 := hidx _ _ ho' hot hlt.1
      have h2 := hidx _ _ hot' hot hlt.2
      exact (Nat.max_lt.2 ⟨h1, h2⟩).trans_le (Nat.le_max_right _ _)
    · rw [Nat.max_eq_left hm, Nat.max_lt] at hlt
      have h1 := hidx _ _ ho' ho hlt.1
      have h2 := hidx _ _ hot' ho hlt.2
      exact (Nat.max_lt.2 ⟨h1, h2⟩).trans_le (Nat.le_max_left _ _)

end TreeView
end Verif
