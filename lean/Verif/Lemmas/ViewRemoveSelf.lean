import Verif.Lemmas.ViewRemoveExact
import Verif.Lemmas.TransformSelf
/-! # `TreeView::removeEdge` for views with self edges

The same as in `ViewRemoveExact`, for lists of cross edges that may contain self edges: those are touched twice in a row when their vertex is
visited. -/

set_option linter.unusedSimpArgs false

namespace Verif
open GS TreeView

/-- the positions come in ascending order -/
theorem incident_sorted_le (ces : List CrossEdge) (v : VId) (n : Nat) : (incident (number n ces) v).Pairwise (· ≤ ·) := by
  induction ces generalizing n with
  | nil => simp [number, incident]
  | cons c ces ih =>
    have e : incident (number n (c :: ces)) v =
        ((if c.origin = v then [n] else []) ++ (if c.target = v then [n] else [])) ++ incident (number (n + 1) ces) v := by
      simp [number, incident]
    rw [e, List.pairwise_append]
    refine ⟨?_, ih _, ?_⟩
    · by_cases h1 : c.origin = v <;> by_cases h2 : c.target = v <;> simp [h1, h2]
    · intro a ha b hb
      have : a = n := by
        rw [List.mem_append] at ha
        rcases ha with h | h <;> split at h <;> simp_all
      have hb' := (mem_incident.1 hb).1
      omega

theorem count_incident_any {ces : List CrossEdge} {v : VId} {j : Nat} {c : CrossEdge} (hj : ces[j]? = some c) :
    (incident (number 0 ces) v).count j = (if c.origin = v then 1 else 0) + (if c.target = v then 1 else 0) := by
  have key : ∀ (ces : List CrossEdge) (n j : Nat) (c : CrossEdge), ces[j]? = some c →
      (incident (number n ces) v).count (n + j) = (if c.origin = v then 1 else 0) + (if c.target = v then 1 else 0) := by
    intro ces
    induction ces with
    | nil => intro n j c h; simp at h
    | cons d ces ih =>
      intro n j c h
      have e : incident (number n (d :: ces)) v =
          ((if d.origin = v then [n] else []) ++ (if d.target = v then [n] else [])) ++ incident (number (n + 1) ces) v := by
        simp [number, incident]
      rw [e, List.count_append]
      cases j with
      | zero =>
        simp only [List.getElem?_cons_zero, Option.some.injEq] at h
        subst h
        have h0 : (incident (number (n + 1) ces) v).count (n + 0) = 0 :=
          List.count_eq_zero_of_not_mem (fun hm => by have := (mem_incident.1 hm).1; omega)
        rw [h0]
        by_cases h1 : d.origin = v <;> by_cases h2 : d.target = v <;> simp [h1, h2]
      | succ j =>
        simp only [List.getElem?_cons_succ] at h
        have := ih (n + 1) j c h
        rw [show n + 1 + j = n + (j + 1) by omega] at this
        rw [this, List.count_eq_zero_of_not_mem]
        · omega
        · intro hm
          rw [List.mem_append] at hm
          rcases hm with hm | hm <;> split at hm <;> simp at hm
  simpa using key ces 0 j c hj

theorem count_touches_any {ces : List CrossEdge} {j : Nat} {c : CrossEdge}
    (hj : ces[j]? = some c) : ∀ {L : List VId}, L.Nodup →
    (touches ces L).count j = (if c.origin ∈ L then 1 else 0) + (if c.target ∈ L then 1 else 0) := by
  intro L
  induction L with
  | nil => intro _; simp [touches]
  | cons v L ih =>
    intro hn
    obtain ⟨h1, h2⟩ := List.nodup_cons.1 hn
    have : touches ces (v :: L) = incident (number 0 ces) v ++ touches ces L := by simp [touches]
    rw [this, List.count_append, count_incident_any hj, ih h2]
    have a : ∀ x : VId, (if x ∈ v :: L then 1 else 0) = (if x = v then 1 else 0) + (if x ∈ L then 1 else 0) := by
      intro x
      by_cases hx : x = v
      · subst hx; simp [h1]
      · simp [hx]
    rw [a, a]
    omega

theorem count_touches_le_any {ces : List CrossEdge} {L : List VId} (hn : L.Nodup) (j : Nat) :
    (touches ces L).count j ≤ 2 := by
  cases hj : ces[j]? with
  | none => rw [count_touches_none hj]; omega
  | some c =>
    rw [count_touches_any hj hn]
    split <;> split <;> omega

/-- If no cross edge leaves the visited part, the order in which the inner ones are closed decides. -/
theorem unharmed_iff_any {ces : List CrossEdge} {L : List VId} (hn : L.Nodup)
    (hin : ∀ c ∈ ces, (c.origin ∈ L ↔ c.target ∈ L)) :
    Unharmed (touches ces L) ↔
      ces.Pairwise (fun c c' => c.origin ∈ L → c'.origin ∈ L → lastVisit L c' < lastVisit L c) := by
  constructor
  · intro hU
    rw [List.pairwise_iff_getElem]
    intro i j hi hj hij ho ho'
    by_contra hlt
    rw [Nat.not_lt] at hlt
    have ei : ces[i]? = some ces[i] := List.getElem?_eq_getElem hi
    have ej : ces[j]? = some ces[j] := List.getElem?_eq_getElem hj
    generalize hci : ces[i] = ci at *
    generalize hcj : ces[j] = cj at *
    have hti : ci.target ∈ L := (hin ci (List.mem_of_getElem? ei)).1 ho
    have htj : cj.target ∈ L := (hin cj (List.mem_of_getElem? ej)).1 ho'
    -- the vertex at which `j` is closed
    obtain ⟨v, hv, hvj, hvp⟩ : ∃ v ∈ L, (cj.origin = v ∨ cj.target = v) ∧ L.idxOf v = lastVisit L cj := by
      unfold lastVisit
      rcases Nat.le_total (L.idxOf cj.origin) (L.idxOf cj.target) with h | h
      · exact ⟨_, htj, Or.inr rfl, by omega⟩
      · exact ⟨_, ho', Or.inl rfl, by omega⟩
    obtain ⟨L1, L2, rfl⟩ := List.append_of_mem hv
    rw [idxOf_mid hn] at hvp
    have hjv : j ∈ incident (number 0 ces) v := mem_incident.2 ⟨Nat.zero_le _, cj, ej, hvj⟩
    obtain ⟨A', B', hAB⟩ := List.append_of_mem hjv
    have hsort := incident_sorted_le ces v 0
    rw [hAB, List.pairwise_append] at hsort
    have hspl : touches ces (L1 ++ v :: L2) = (touches ces L1 ++ A') ++ j :: (B' ++ touches ces L2) := by
      simp [touches, hAB]
    have hA' : A'.count i = (if ci.origin = v then 1 else 0) + (if ci.target = v then 1 else 0) := by
      rw [← count_incident_any ei, hAB, List.count_append, List.count_cons]
      have h1 : i ∉ B' := by
        intro h
        have := (List.pairwise_cons.1 hsort.2.1).1 i h
        omega
      rw [List.count_eq_zero_of_not_mem h1]
      have : (j == i) = false := by simp; omega
      simp [this]
    have hn1 : L1.Nodup := (List.nodup_append.1 hn).1
    have hpos : ∀ x, x ∈ L1 ++ v :: L2 → (L1 ++ v :: L2).idxOf x ≤ L1.length → x ∈ L1 ∨ x = v := by
      intro x hx hle
      by_cases hxv : x = v
      · exact Or.inr hxv
      · left
        rw [← idxOf_lt_mid hn]
        have : (L1 ++ v :: L2).idxOf x ≠ L1.length := by
          intro e
          apply hxv
          have := idxOf_mid hn
          exact (List.idxOf_inj hx).1 (e.trans this.symm)
        omega
    have hv1 : v ∉ L1 := fun h => (List.nodup_append.1 hn).2.2 v h v (by simp) rfl
    have hcnt : (touches ces L1 ++ A').count i = 2 := by
      rw [List.count_append, count_touches_any ei hn1, hA']
      unfold lastVisit at hlt hvp
      have h1 := hpos ci.origin ho (by omega)
      have h2 := hpos ci.target hti (by omega)
      rcases h1 with h1 | h1 <;> rcases h2 with h2 | h2
      · have a : ci.origin ≠ v := fun e => hv1 (e ▸ h1)
        have b : ci.target ≠ v := fun e => hv1 (e ▸ h2)
        simp [h1, h2, a, b]
      · have a : ci.origin ≠ v := fun e => hv1 (e ▸ h1)
        have b : ci.target ∉ L1 := fun h => hv1 (h2 ▸ h)
        simp [h1, h2, a, hv1]
      · have a : ci.target ≠ v := fun e => hv1 (e ▸ h2)
        simp [h1, h2, a, hv1]
      · simp [h1, h2, hv1]
    have := (hU _ j _ hspl i hcnt).1
    omega
  · intro hP A k B hAB i hi
    obtain ⟨L1, v, L2, A', B', rfl, hv, rfl⟩ := flatMap_split (f := incident (number 0 ces)) hAB
    have hn1 : L1.Nodup := (List.nodup_append.1 hn).1
    have hv1 : v ∉ L1 := fun h => (List.nodup_append.1 hn).2.2 v h v (by simp) rfl
    have hsort := incident_sorted_le ces v 0
    rw [hv, List.pairwise_append] at hsort
    have hcA : ∀ j c, ces[j]? = some c → (touches ces L1 ++ A').count j =
        ((if c.origin ∈ L1 then 1 else 0) + (if c.target ∈ L1 then 1 else 0)) + A'.count j := by
      intro j c hj
      rw [List.count_append, count_touches_any hj hn1]
    have hA'v : ∀ j c, ces[j]? = some c → A'.count j ≤ (if c.origin = v then 1 else 0) + (if c.target = v then 1 else 0) := by
      intro j c hj
      rw [← count_incident_any hj, hv, List.count_append]
      omega
    change (touches ces L1 ++ A').count i = 2 at hi
    change k < i ∧ ∀ m, (touches ces L1 ++ A').count m = 1 → m < i
    -- `i` is an inner edge that is closed at `v` or before
    cases hei : ces[i]? with
    | none =>
      exfalso
      rw [List.count_append, count_touches_none hei] at hi
      have : i ∉ A' := by
        intro h
        have : i ∈ incident (number 0 ces) v := by rw [hv]; simp [h]
        obtain ⟨-, c, hc, -⟩ := mem_incident.1 this
        simp [hei] at hc
      rw [List.count_eq_zero_of_not_mem this] at hi
      omega
    | some ci =>
      have hle : ∀ x, (x ∈ L1 ∨ x = v) → (L1 ++ v :: L2).idxOf x ≤ L1.length := by
        intro x hx
        rcases hx with hx | rfl
        · exact Nat.le_of_lt ((idxOf_lt_mid hn).2 hx)
        · exact Nat.le_of_eq (idxOf_mid hn)
      have hi1 := hcA i ci hei
      have hi2 := hA'v i ci hei
      rw [hi1] at hi
      have hoi : ci.origin ∈ L1 ∨ ci.origin = v := by
        by_contra hcon
        rw [not_or] at hcon
        simp only [hcon.1, hcon.2, if_false] at hi hi2
        by_cases h2 : ci.target = v
        · have : ci.target ∉ L1 := fun h => hv1 (h2 ▸ h)
          simp only [this, h2, if_true, if_false] at hi hi2
          simp only [hv1, if_false] at hi
          omega
        · simp only [h2, if_false] at hi2
          split at hi <;> omega
      have hti : ci.target ∈ L1 ∨ ci.target = v := by
        by_contra hcon
        rw [not_or] at hcon
        simp only [hcon.1, hcon.2, if_false] at hi hi2
        by_cases h2 : ci.origin = v
        · have : ci.origin ∉ L1 := fun h => hv1 (h2 ▸ h)
          simp only [h2, if_true, if_false] at hi hi2
          simp only [hv1, if_false] at hi
          omega
        · simp only [h2, if_false] at hi2
          split at hi <;> omega
      have hlast : lastVisit (L1 ++ v :: L2) ci ≤ L1.length := by
        unfold lastVisit
        have := hle _ hoi
        have := hle _ hti
        omega
      have hoL : ci.origin ∈ L1 ++ v :: L2 := by
        rcases hoi with h | h
        · exact List.mem_append_left _ h
        · rw [h]; simp
      have hii : i < ces.length := (List.getElem?_eq_some_iff.1 hei).1
      have hgi : ces[i] = ci := (List.getElem?_eq_some_iff.1 hei).2
      have hpair : ∀ j c, ces[j]? = some c → i < j → c.origin ∈ L1 ++ v :: L2 →
          lastVisit (L1 ++ v :: L2) c < L1.length := by
        intro j c hj hij ho
        obtain ⟨hjl, hgj⟩ := List.getElem?_eq_some_iff.1 hj
        have := List.pairwise_iff_getElem.1 hP i j hii hjl hij
        rw [hgi, hgj] at this
        have := this hoL ho
        omega
      constructor
      · -- the touched one
        have hk : k ∈ incident (number 0 ces) v := by rw [hv]; simp
        obtain ⟨-, ck, hek, hkv⟩ := mem_incident.1 hk
        rw [Nat.sub_zero] at hek
        rcases Nat.lt_trichotomy k i with h | h | h
        · exact h
        · exfalso
          subst h
          rw [hei] at hek
          obtain rfl := Option.some.inj hek
          have hle := count_touches_le_any (ces := ces) hn k
          have hall : touches ces (L1 ++ v :: L2) = (touches ces L1 ++ A') ++ k :: B := hAB
          rw [hall, List.count_append, hi1, List.count_cons_self] at hle
          omega
        · exfalso
          have hvL : v ∈ L1 ++ v :: L2 := by simp
          have hok : ck.origin ∈ L1 ++ v :: L2 := by
            rcases hkv with h' | h'
            · rw [h']; exact hvL
            · exact (hin ck (List.mem_of_getElem? hek)).2 (by rw [h']; exact hvL)
          have h1 := hpair k ck hek h hok
          unfold lastVisit at h1
          rcases hkv with h' | h'
          · rw [h', idxOf_mid hn] at h1; omega
          · rw [h', idxOf_mid hn] at h1; omega
      · -- the open ones
        intro m hm
        cases hem : ces[m]? with
        | none =>
          exfalso
          rw [List.count_append, count_touches_none hem] at hm
          have : m ∉ A' := by
            intro h
            have : m ∈ incident (number 0 ces) v := by rw [hv]; simp [h]
            obtain ⟨-, c, hc, -⟩ := mem_incident.1 this
            simp [hem] at hc
          rw [List.count_eq_zero_of_not_mem this] at hm
          omega
        | some cm =>
          have hm1 := hcA m cm hem
          have hm2 := hA'v m cm hem
          rcases Nat.lt_trichotomy m i with h | h | h
          · exact h
          · exfalso
            subst h
            rw [hm1] at hm
            rw [hei] at hem
            obtain rfl := Option.some.inj hem
            omega
          · exfalso
            rw [hm1] at hm
            have hom : cm.origin ∈ L1 ++ v :: L2 := by
              by_contra hcon
              have htm := mt (hin cm (List.mem_of_getElem? hem)).2 hcon
              simp only [List.mem_append, List.mem_cons, not_or] at hcon htm
              simp only [hcon.1, hcon.2.1, htm.1, htm.2.1, if_false] at hm hm2
              omega
            have h1 := hpair m cm hem h hom
            unfold lastVisit at h1
            have a1 := (idxOf_lt_mid (x := cm.origin) hn).1 (by omega)
            have a2 := (idxOf_lt_mid (x := cm.target) hn).1 (by omega)
            simp only [a1, a2, if_true] at hm
            omega

/-! ### `removeEdge` of one view -/

variable {F E : Type} [FrameProp F] [EdgeProp E]

/-- `removeEdge_unfold` with the visited vertices -/
theorem removeEdge_cutOrder_forest {w : TreeView} {d : VId → Nat} (hf : IsForest w d)
    (hpi : ∀ v p, w.parentOf v = some p → w.vertexExists p = true) {a b : VId} (ht : w.TreeEdge a b) :
    (w.cutOrder a b).Nodup ∧ (∀ x, x ∈ w.cutOrder a b ↔ w.Cut a b x) ∧
      w.removeEdge a b =
        (match rmVisit (number 0 w.crossEdges) ⟨number 0 w.crossEdges, none, []⟩ (w.cutOrder a b) with
        | none => .ub "removeEdge: use of an invalidated iterator"
        | some st =>
          match rmVerts { w with crossEdges := st.cur.map (·.2) } (w.cutOrder a b).reverse with
          | .ub m => .ub m
          | .throw e s => .throw e s
          | .ok _ w' =>
            if st.S = [] then .ok () w'
            else .throw (.runtimeError "NOT IMPLEMENTED") w') ∧
      (∀ ces, ∃ w', rmVerts { w with crossEdges := ces } (w.cutOrder a b).reverse = .ok () w' ∧ w'.crossEdges = ces ∧
        w'.root = w.root ∧ ∀ x, w'.tree.get x = if x ∈ w.cutOrder a b then none else (w.tree.get x).map (restRel (w.cutOrder a b))) := by
  obtain ⟨rt, p0, hrt, hab, hcut⟩ := tree_edge_cases hf ht
  obtain ⟨rr, hrr, hrrp⟩ := parentOf_some hrt
  have hin : (w.tree.get rt).isSome := by rw [hrr]; rfl
  obtain ⟨calls, h1, h2, -⟩ := bfs_visits hf (w.tree.length + 1) [rt] ⟨by simpa using hin, by simp, by simp, by simp⟩
    ((below_le w [rt]).trans (Nat.le_succ _))
  have hmem : ∀ x, x ∈ calls.map Prod.fst ↔ w.Under x rt := by intro x; rw [h2.mem]; simp
  have hco : w.cutOrder a b = calls.map Prod.fst := by
    have : (if w.parentOf b = some a then b else a) = rt := by
      rcases hab with ⟨rfl, rfl⟩ | ⟨rfl, rfl⟩
      · rw [if_pos hrt]
      · rw [if_neg]
        intro h'
        have := hf.rank _ _ hrt
        have := hf.rank _ _ h'
        omega
    unfold TreeView.cutOrder
    rw [this, h1]
  rw [hco]
  refine ⟨h2.nodup, fun x => by rw [hmem, hcut], ?_, ?_⟩
  · have hreal : (if (w.relOf b).parent = some a then some b else if (w.relOf a).parent = some b then some a else none)
        = some rt := by
      have hpo : ∀ x, (w.relOf x).parent = w.parentOf x := by
        intro x
        unfold relOf TreeView.parentOf
        cases w.tree.get x <;> rfl
      rw [hpo, hpo]
      rcases hab with ⟨rfl, rfl⟩ | ⟨rfl, rfl⟩
      · rw [if_pos hrt]
      · rw [if_neg, if_pos hrt]
        intro h'
        have := hf.rank _ _ hrt
        have := hf.rank _ _ h'
        omega
    unfold TreeView.removeEdge
    simp only [hreal, h1]
    rfl
  · intro ces
    have hf' : IsForest ({ w with crossEdges := ces } : TreeView) d := ⟨hf.children, hf.rank⟩
    have hpo : ∀ x, ({ w with crossEdges := ces } : TreeView).parentOf x = w.parentOf x := fun _ => rfl
    obtain ⟨w', r1, r2, r3, -, r5⟩ := rmVerts_eq (calls.map Prod.fst).reverse { w with crossEdges := ces } d hf'
      (List.nodup_reverse.2 h2.nodup)
      (by
        intro v hv
        rw [List.mem_reverse, hmem] at hv
        rcases Relation.ReflTransGen.cases_head hv with rfl | ⟨y, hy, -⟩
        · exact ⟨p0, hrt, hpi _ _ hrt⟩
        · exact ⟨y, hy, hpi _ _ hy⟩)
      (by
        intro c v hv hcv
        rw [hpo] at hcv
        rw [List.mem_reverse, hmem] at hv
        have hcu : w.Under c rt := .head hcv hv
        have hne : c ≠ rt := by
          rintro rfl
          have := hf.rank _ _ hcv
          have := hf.le hv
          omega
        have := (h2.first c v ((hmem c).2 hcu) (by simpa using hne) hcv).reverse
        simpa using this)
    refine ⟨w', r1, r2, r3, ?_⟩
    intro x
    rw [r5]
    have : restRel (calls.map Prod.fst).reverse = restRel (calls.map Prod.fst) := by
      funext rel
      simp only [restRel, List.mem_reverse]
    rw [this]
    simp only [List.mem_reverse]

theorem removeEdge_outcome_forest {w : TreeView} {d : VId → Nat} (hf : IsForest w d)
    (hpi : ∀ v p, w.parentOf v = some p → w.vertexExists p = true) {a b : VId} (ht : w.TreeEdge a b) :
    (¬ Unharmed (touches w.crossEdges (w.cutOrder a b)) → ∃ r, w.removeEdge a b = .ub r) ∧
    (Unharmed (touches w.crossEdges (w.cutOrder a b)) → ∃ w', w'.root = w.root ∧
      w'.crossEdges = w.crossEdges.filter (fun c => ¬ (c.origin ∈ w.cutOrder a b ∧ c.target ∈ w.cutOrder a b)) ∧
      (∀ x, w'.tree.get x = if x ∈ w.cutOrder a b then none else (w.tree.get x).map (restRel (w.cutOrder a b))) ∧
      ((w.Sealed a b ∧ w.removeEdge a b = .ok () w') ∨
        (¬ w.Sealed a b ∧ w.removeEdge a b = .throw (.runtimeError "NOT IMPLEMENTED") w'))) := by
  obtain ⟨hn, hL, heq, hrm⟩ := removeEdge_cutOrder_forest hf hpi ht
  generalize hLL : w.cutOrder a b = L at *
  obtain ⟨t1, t2⟩ := touch_run (number 0 w.crossEdges) (touches w.crossEdges L) (count_touches_le_any hn)
  rw [rmVisit_eq] at heq
  change w.removeEdge a b = (match (touches w.crossEdges L).foldlM rmCross _ with | none => _ | some st => _) at heq
  constructor
  · intro hU
    rw [t2 hU] at heq
    exact ⟨_, heq⟩
  · intro hU
    obtain ⟨st, e, ht'⟩ := t1 hU
    rw [e] at heq
    simp only at heq
    obtain ⟨w', r1, r2, r3, r4⟩ := hrm (st.cur.map (·.2))
    rw [r1] at heq
    simp only at heq
    refine ⟨w', r3, ?_, r4, ?_⟩
    · rw [r2, ht'.cur]
      have : ∀ p ∈ number 0 w.crossEdges, decide ((touches w.crossEdges L).count p.1 ≠ 2) =
          ((fun c : CrossEdge => decide (¬ (c.origin ∈ L ∧ c.target ∈ L))) ∘ Prod.snd) p := by
        intro p hp'
        have hj := ((mem_number _ 0 p.1 p.2).1 hp').2
        rw [Nat.sub_zero] at hj
        rw [count_touches_any hj hn]
        by_cases h1 : p.2.origin ∈ L <;> by_cases h2 : p.2.target ∈ L <;> simp [h1, h2]
      rw [List.filter_congr this, ← List.filter_map, number_map_snd]
    · have hS : st.S = [] ↔ w.Sealed a b := by
        constructor
        · intro hS _ c hc
          rw [← hL, ← hL]
          obtain ⟨j, hj⟩ := List.getElem?_of_mem hc
          have := mt (ht'.open_ j).2 (by rw [hS]; simp)
          rw [count_touches_any hj hn] at this
          by_cases h1 : c.origin ∈ L <;> by_cases h2 : c.target ∈ L <;> simp_all
        · intro hS
          rw [List.eq_nil_iff_forall_not_mem]
          intro j hj
          have := (ht'.open_ j).1 hj
          cases hej : w.crossEdges[j]? with
          | none => rw [count_touches_none hej] at this; cases this
          | some c =>
            rw [count_touches_any hej hn] at this
            have hc := hS ht c (List.mem_of_getElem? hej)
            rw [← hL, ← hL] at hc
            by_cases h1 : c.origin ∈ L
            · have h2 := hc.1 h1; simp [h1, h2] at this
            · have h2 := mt hc.2 h1; simp [h1, h2] at this
      by_cases hs' : st.S = []
      · rw [if_pos hs'] at heq; exact Or.inl ⟨hS.1 hs', heq⟩
      · rw [if_neg hs'] at heq; exact Or.inr ⟨mt hS.2 hs', heq⟩

theorem unharmed_iff_closed_forest {w : TreeView} {d : VId → Nat} (hf : IsForest w d)
    (hpi : ∀ v p, w.parentOf v = some p → w.vertexExists p = true) {a b : VId} (ht : w.TreeEdge a b) (hs : w.Sealed a b) :
    Unharmed (touches w.crossEdges (w.cutOrder a b)) ↔ w.ClosedBackwards a b := by
  obtain ⟨hn, hL, -, -⟩ := removeEdge_cutOrder_forest hf hpi ht
  rw [unharmed_iff_any hn (by intro c hc; rw [hL, hL]; exact hs ht c hc)]
  simp only [hL]
  exact ⟨fun h _ => h, fun h => h ht⟩


theorem IsTreeViewLoops.pieces {g : G F E} (hp : Paired g.ns) {root : VId} {w : TreeView} (h : IsTreeViewLoops g root w) :
    (∃ d, IsForest w d) ∧ ∀ v p, w.parentOf v = some p → w.vertexExists p = true := by
  obtain ⟨d, hd⟩ := h.view.rank
  exact ⟨⟨d, h.view.children, hd⟩, fun v p hvp => IsTreeView.parent_in hp h.view hvp⟩

theorem IsTreeViewLoops.edgeExists_true {g : G F E} (hp : Paired g.ns) {root : VId} {w : TreeView} (h : IsTreeViewLoops g root w) {a b : VId}
    (ht : w.TreeEdge a b) : w.edgeExists a b = some true := IsTreeView.edgeExists_true hp h.view ht

theorem IsTreeViewLoops.edgeExists_false {g : G F E} {root : VId} {w : TreeView} (h : IsTreeViewLoops g root w) {a b : VId}
    (ht : ¬ w.TreeEdge a b) : w.edgeExists a b = some false := IsTreeView.edgeExists_false h.view ht

theorem IsTreeViewLoops.cut {g : G F E} (hp : Paired g.ns) {root : VId} {w w' : TreeView} (h : IsTreeViewLoops g root w) {a b : VId}
    (ht : w.TreeEdge a b) {L : List VId} (hL : ∀ x, x ∈ L ↔ w.Cut a b x) (hroot : w'.root = w.root)
    (hget : ∀ x, w'.tree.get x = if x ∈ L then none else (w.tree.get x).map (restRel L))
    (hin : ∀ c ∈ w.crossEdges, (c.origin ∈ L ↔ c.target ∈ L))
    (hces : w'.crossEdges = w.crossEdges.filter (fun c => c.origin ∉ L)) : IsTreeViewLoops (g.cut a b) root w' := by
  have hab : a ≠ b := by
    obtain ⟨d, hd⟩ := h.view.rank
    rcases ht with ht | ht
    · exact parent_ne (w := w) hd ht
    · exact (parent_ne (w := w) hd ht).symm
  have hfil : ∀ u, w'.crossEdges.filter (fun c => c.Joins u u) =
      if u ∈ L then [] else w.crossEdges.filter (fun c => c.Joins u u) := by
    intro u
    rw [hces, List.filter_filter]
    split
    · rename_i hu
      rw [List.filter_eq_nil_iff]
      rintro c - hc
      simp only [Bool.and_eq_true, decide_eq_true_eq, CrossEdge.Joins, or_self] at hc
      exact hc.2 (hc.1.1 ▸ hu)
    · rename_i hu
      apply List.filter_congr
      intro c _
      by_cases hc : c.Joins u u
      · have : c.origin = u := by simpa using hc.elim And.left And.left
        simp [hc, this, hu]
      · simp [hc]
  refine ⟨?_, ?_, ?_⟩
  · have := IsTreeView.cut hp h.view (a := a) (b := b)
      (w' := { w' with crossEdges := w'.crossEdges.filter (fun c => c.origin ≠ c.target) }) ht hL hroot hget
      (fun c hc => hin c (List.mem_filter.1 hc).1)
      (by
        change w'.crossEdges.filter _ = (w.crossEdges.filter _).filter _
        rw [hces, List.filter_filter, List.filter_filter]
        apply List.filter_congr
        intro c _
        rw [Bool.and_comm])
    rw [← G.cut_ns] at this
    exact this
  · intro u
    rw [hfil]
    split
    · simp
    · exact h.loops_le u
  · intro u
    rw [hfil]
    have hadj : (g.cut a b).Adj u u ↔ g.Adj u u := by
      rw [cut_adj]
      constructor
      · exact And.left
      · intro h'
        refine ⟨h', ?_⟩
        rintro (⟨rfl, rfl⟩ | ⟨rfl, rfl⟩) <;> exact hab rfl
    rw [hadj]
    have hv : w'.vertexExists u = if u ∈ L then false else w.vertexExists u := by
      unfold TreeView.vertexExists
      rw [hget]
      split <;> simp
    rw [hv]
    split
    · simp
    · exact h.loops_pos u

/-- exactly when the removal of a tree edge succeeds, and then the view is correct -/
theorem removeEdge_exact_loops {g : G F E} (hp : Paired g.ns) {root : VId} {w : TreeView} (h : IsTreeViewLoops g root w) {a b : VId}
    (ht : w.TreeEdge a b) :
    (w.Sealed a b → w.ClosedBackwards a b → ∃ w', w.removeEdge a b = .ok () w' ∧ IsTreeViewLoops (g.cut a b) root w') ∧
    (w.Sealed a b → ¬ w.ClosedBackwards a b → ∃ r, w.removeEdge a b = .ub r) ∧
    (¬ w.Sealed a b → (∃ r, w.removeEdge a b = .ub r) ∨ ∃ w', w.removeEdge a b = .throw (.runtimeError "NOT IMPLEMENTED") w') := by
  obtain ⟨⟨d, hf⟩, hpi⟩ := h.pieces hp
  obtain ⟨hn, hL, -, -⟩ := removeEdge_cutOrder_forest hf hpi ht
  obtain ⟨h1, h2⟩ := removeEdge_outcome_forest hf hpi ht
  refine ⟨fun hs hc => ?_, fun hs hc => h1 (mt (unharmed_iff_closed_forest hf hpi ht hs).1 hc), fun hs => ?_⟩
  · obtain ⟨w', r1, r2, r3, r4⟩ := h2 ((unharmed_iff_closed_forest hf hpi ht hs).2 hc)
    rcases r4 with ⟨-, r4⟩ | ⟨r4, -⟩
    · have hin : ∀ c ∈ w.crossEdges, (c.origin ∈ w.cutOrder a b ↔ c.target ∈ w.cutOrder a b) := by
        intro c hc; rw [hL, hL]; exact hs ht c hc
      refine ⟨w', r4, h.cut hp ht hL r1 r3 hin ?_⟩
      rw [r2]
      apply List.filter_congr
      intro c hc
      have := hin c hc
      by_cases hh : c.origin ∈ w.cutOrder a b
      · simp [hh, this.1 hh]
      · simp [hh]
    · exact absurd hs r4
  · by_cases hU : Unharmed (touches w.crossEdges (w.cutOrder a b))
    · obtain ⟨w', -, -, -, r4⟩ := h2 hU
      rcases r4 with ⟨r4, -⟩ | ⟨-, r4⟩
      · exact absurd r4 hs
      · exact Or.inr ⟨w', r4⟩
    · exact Or.inl (h1 hU)

private theorem setView_self (vs : Nat → TreeView) (p : Nat) : setView vs p (vs p) = vs := by
  funext q; unfold setView; split
  · rename_i hq; rw [hq]
  · rfl

theorem views_ok_loops {g : G F E} (hp : Paired g.ns) {a b : VId} :
    ∀ (ps : List Nat) (vs : Nat → TreeView), ps.Nodup → (∀ p ∈ ps, ∃ root, IsTreeViewLoops g root (vs p)) →
    (∀ p ∈ ps, (vs p).Sealed a b ∧ (vs p).ClosedBackwards a b) →
    ∃ vs', removeEdgeFromTreeViews a b ps vs = .ok () vs' ∧
      ∀ p ∈ ps, ∀ root, IsTreeViewLoops g root (vs p) →
        ((vs p).TreeEdge a b → IsTreeViewLoops (g.cut a b) root (vs' p)) ∧ (¬ (vs p).TreeEdge a b → vs' p = vs p) := by
  classical
  intro ps
  induction ps with
  | nil => intro vs _ _ _; exact ⟨vs, rfl, by simp⟩
  | cons p ps ih =>
    intro vs hnd hok hcl
    obtain ⟨hpn, hnd⟩ := List.nodup_cons.1 hnd
    obtain ⟨root, hroot⟩ := hok p (by simp)
    have hc := hcl p (by simp)
    have hw' : ∃ w', ((vs p).TreeEdge a b → (vs p).removeEdge a b = .ok () w' ∧ IsTreeViewLoops (g.cut a b) root w') ∧
        (¬ (vs p).TreeEdge a b → w' = vs p) := by
      by_cases ht : (vs p).TreeEdge a b
      · obtain ⟨w', h1, h2⟩ := (removeEdge_exact_loops hp hroot ht).1 hc.1 hc.2
        exact ⟨w', fun _ => ⟨h1, h2⟩, fun h => absurd ht h⟩
      · exact ⟨vs p, fun h => absurd h ht, fun _ => rfl⟩
    obtain ⟨w', hw1, hw2⟩ := hw'
    have hsame : ∀ q ∈ ps, setView vs p w' q = vs q := by
      intro q hq
      have : q ≠ p := by rintro rfl; exact hpn hq
      simp [setView, this]
    obtain ⟨vs', h3, h4⟩ := ih (setView vs p w') hnd
      (by intro q hq; rw [hsame q hq]; exact hok q (List.mem_cons_of_mem _ hq))
      (by intro q hq; rw [hsame q hq]; exact hcl q (List.mem_cons_of_mem _ hq))
    refine ⟨vs', ?_, ?_⟩
    · unfold removeEdgeFromTreeViews
      by_cases ht : (vs p).TreeEdge a b
      · rw [hroot.edgeExists_true hp ht]
        simp only [(hw1 ht).1]
        exact h3
      · rw [hroot.edgeExists_false ht]
        rw [hw2 ht, setView_self] at h3
        exact h3
    · intro q hq root' hr'
      rcases List.mem_cons.1 hq with rfl | hq
      · have hv' : vs' q = w' := by
          have := (removeEdgeFromTreeViews_same ps (setView vs q w') vs' (by rw [h3]; rfl)).1 q hpn
          rw [this]; simp [setView]
        rw [hv']
        have : root' = root := by
          have e1 := hr'.view.root_eq
          have e2 := hroot.view.root_eq
          simp only at e1 e2
          rw [e2] at e1
          exact (Option.some.inj e1).symm
        rw [this]; exact ⟨fun ht => (hw1 ht).2, hw2⟩
      · have := h4 q hq root' (by rw [hsame q hq]; exact hr')
        rw [hsame q hq] at this
        exact this

theorem views_ub_loops {g : G F E} (hp : Paired g.ns) {a b : VId} :
    ∀ (ps : List Nat) (vs : Nat → TreeView), ps.Nodup → (∀ p ∈ ps, ∃ root, IsTreeViewLoops g root (vs p)) →
    (∀ p ∈ ps, (vs p).Sealed a b) → (∃ p ∈ ps, ¬ (vs p).ClosedBackwards a b) →
    ∃ r, removeEdgeFromTreeViews a b ps vs = .ub r := by
  classical
  intro ps
  induction ps with
  | nil => intro vs _ _ _ h; obtain ⟨p, hp', -⟩ := h; cases hp'
  | cons p ps ih =>
    intro vs hnd hok hsl hex
    obtain ⟨hpn, hnd⟩ := List.nodup_cons.1 hnd
    obtain ⟨root, hroot⟩ := hok p (by simp)
    have hs := hsl p (by simp)
    have hsame : ∀ w', ∀ q ∈ ps, setView vs p w' q = vs q := by
      intro w' q hq
      have : q ≠ p := by rintro rfl; exact hpn hq
      simp [setView, this]
    have hrest : (vs p).ClosedBackwards a b → ∀ w', ∃ r, removeEdgeFromTreeViews a b ps (setView vs p w') = .ub r := by
      intro hc w'
      refine ih _ hnd (by intro q hq; rw [hsame w' q hq]; exact hok q (List.mem_cons_of_mem _ hq))
        (by intro q hq; rw [hsame w' q hq]; exact hsl q (List.mem_cons_of_mem _ hq)) ?_
      obtain ⟨q, hq, hqc⟩ := hex
      rcases List.mem_cons.1 hq with rfl | hq
      · exact absurd hc hqc
      · exact ⟨q, hq, by rw [hsame w' q hq]; exact hqc⟩
    unfold removeEdgeFromTreeViews
    by_cases ht : (vs p).TreeEdge a b
    · rw [hroot.edgeExists_true hp ht]
      simp only
      by_cases hc : (vs p).ClosedBackwards a b
      · obtain ⟨w', h1, -⟩ := (removeEdge_exact_loops hp hroot ht).1 hs hc
        simp only [h1]
        exact hrest hc w'
      · obtain ⟨r, hr⟩ := (removeEdge_exact_loops hp hroot ht).2.1 hs hc
        exact ⟨r, by simp only [hr]⟩
    · rw [hroot.edgeExists_false ht]
      simp only
      have hc : (vs p).ClosedBackwards a b := fun h => absurd h ht
      have := hrest hc (vs p)
      rw [setView_self] at this
      exact this

theorem views_throw_loops {g : G F E} (hp : Paired g.ns) {a b : VId} :
    ∀ (ps : List Nat) (vs : Nat → TreeView), ps.Nodup → (∀ p ∈ ps, ∃ root, IsTreeViewLoops g root (vs p)) →
    ∀ x vs', removeEdgeFromTreeViews a b ps vs = .throw x vs' →
      x = .runtimeError "NOT IMPLEMENTED" ∧ ∃ p ∈ ps, ¬ (vs p).Sealed a b := by
  classical
  intro ps
  induction ps with
  | nil => intro vs _ _ x vs' h; simp [removeEdgeFromTreeViews] at h
  | cons p ps ih =>
    intro vs hnd hok x vs' h
    obtain ⟨hpn, hnd⟩ := List.nodup_cons.1 hnd
    obtain ⟨root, hroot⟩ := hok p (by simp)
    have hsame : ∀ w', ∀ q ∈ ps, setView vs p w' q = vs q := by
      intro w' q hq
      have : q ≠ p := by rintro rfl; exact hpn hq
      simp [setView, this]
    have hrest : ∀ w', removeEdgeFromTreeViews a b ps (setView vs p w') = .throw x vs' →
        x = .runtimeError "NOT IMPLEMENTED" ∧ ∃ q ∈ p :: ps, ¬ (vs q).Sealed a b := by
      intro w' h
      obtain ⟨h1, q, hq, h2⟩ := ih _ hnd (by intro q hq; rw [hsame w' q hq]; exact hok q (List.mem_cons_of_mem _ hq)) x vs' h
      exact ⟨h1, q, List.mem_cons_of_mem _ hq, by rw [hsame w' q hq] at h2; exact h2⟩
    unfold removeEdgeFromTreeViews at h
    by_cases ht : (vs p).TreeEdge a b
    · rw [hroot.edgeExists_true hp ht] at h
      simp only at h
      obtain ⟨e1, e2, e3⟩ := removeEdge_exact_loops hp hroot ht
      by_cases hs : (vs p).Sealed a b
      · by_cases hc : (vs p).ClosedBackwards a b
        · obtain ⟨w', h1, -⟩ := e1 hs hc
          rw [h1] at h
          exact hrest w' h
        · obtain ⟨r, hr⟩ := e2 hs hc
          rw [hr] at h; cases h
      · rcases e3 hs with ⟨r, hr⟩ | ⟨w', hr⟩
        · rw [hr] at h; cases h
        · rw [hr] at h
          simp only [Res.throw.injEq] at h
          exact ⟨h.1.symm, p, by simp, hs⟩
    · rw [hroot.edgeExists_false ht] at h
      simp only at h
      refine hrest (vs p) ?_
      rw [setView_self]; exact h

theorem views_return_iff_loops {s : GS F E} (hp : Paired s.g.ns) (hsub : s.subs.Nodup)
    (hok : ∀ q ∈ s.subs, ∃ root, IsTreeViewLoops s.g root (s.views q)) {u v : VId} :
    (∃ vs, removeEdgeFromTreeViews u v s.subs s.views = .ok () vs) ↔
      ∀ q ∈ s.subs, (s.views q).Sealed u v ∧ (s.views q).ClosedBackwards u v := by
  constructor
  · rintro ⟨vs, hvs⟩ q hq
    obtain ⟨root, hroot⟩ := hok q hq
    by_cases hte : (s.views q).TreeEdge u v
    · obtain ⟨w', hw'⟩ := removeEdgeFromTreeViews_ok s.subs s.views vs hsub hq (hroot.edgeExists_true hp hte) hvs
      obtain ⟨-, e2, e3⟩ := removeEdge_exact_loops hp hroot hte
      have hs : (s.views q).Sealed u v := by
        by_contra hs
        rcases e3 hs with ⟨r, hr⟩ | ⟨w'', hr⟩ <;> rw [hr] at hw' <;> cases hw'
      refine ⟨hs, ?_⟩
      by_contra hcl
      obtain ⟨r, hr⟩ := e2 hs hcl
      rw [hr] at hw'; cases hw'
    · exact ⟨fun hh => absurd hh hte, fun hh => absurd hh hte⟩
  · intro hall
    obtain ⟨vs, hvs, -⟩ := views_ok_loops hp s.subs s.views hsub hok hall
    exact ⟨vs, hvs⟩

/-- a view in which the connection is no tree edge stays as it is; this is right exactly if it is no cross edge either -/
theorem IsTreeViewLoops.not_tree {g : G F E} (hp : Paired g.ns) {root : VId} {w : TreeView} (h : IsTreeViewLoops g root w) {u v : VId}
    (huv : u ≠ v) (hadj : g.Adj u v) (hte : ¬ w.TreeEdge u v) :
    IsTreeViewLoops (g.cut u v) root w ↔ ∀ c ∈ w.crossEdges, ¬ c.Joins u v := by
  constructor
  · intro hv' c hcm hj
    have hne : c.origin ≠ c.target := by
      rcases hj with ⟨h1, h2⟩ | ⟨h1, h2⟩
      · rw [h1, h2]; exact huv
      · rw [h1, h2]; exact huv.symm
    obtain ⟨e', he', -, b1, b2, -⟩ := hv'.view.cross_edge c (List.mem_filter.2 ⟨hcm, by simpa using hne⟩)
    have he2 := (List.mem_filter.1 he').1
    simp only [G.cut, List.mem_filter, decide_eq_true_eq] at he2
    exact he2.2 (by rw [b1, b2]; exact hj)
  · intro hno
    obtain ⟨e, he, e1, e2⟩ := hadj
    obtain ⟨n1, n2⟩ := IsTreeView.outside hp h.view (a := u) (b := v)
      ⟨e, G.mem_ns.2 ⟨he, by rw [e1, e2]; exact huv⟩, e1, e2⟩ hte (fun c hc => hno c (List.mem_filter.1 hc).1)
    refine ⟨?_, h.loops_le, ?_⟩
    · have := IsTreeView.cut_outside (g := g.ns) h.view n1 n2
      rw [← G.cut_ns] at this
      exact this
    · intro x
      rw [h.loops_pos x, cut_adj]
      constructor
      · rintro ⟨h1, h2⟩
        refine ⟨h1, h2, ?_⟩
        rintro (⟨rfl, rfl⟩ | ⟨rfl, rfl⟩) <;> exact huv rfl
      · rintro ⟨h1, h2, -⟩
        exact ⟨h1, h2⟩

end Verif
