import Verif.Lemmas.ViewRemove
import Verif.Lemmas.Calls
import Verif.Spec.ViewCut
/-! # The iterators in `TreeView::removeEdge`: exactly when one is used after it was invalidated -/

namespace Verif
open GS TreeView

/-- no iterator is used (touched, or compared with) after an erase at or before its position -/
def Unharmed (T : List Nat) : Prop :=
  ∀ A k B, T = A ++ k :: B → ∀ i, A.count i = 2 → k < i ∧ ∀ m, A.count m = 1 → m < i

theorem Unharmed.init {T : List Nat} {k : Nat} (h : Unharmed (T ++ [k])) : Unharmed T := by
  intro A x B e
  exact h A x (B ++ [k]) (by rw [e]; simp)

theorem Unharmed.last {T : List Nat} {k : Nat} (h : Unharmed (T ++ [k])) :
    ∀ i, T.count i = 2 → k < i ∧ ∀ m, T.count m = 1 → m < i := h T k [] rfl

theorem Unharmed.snoc {T : List Nat} {k : Nat} (h : Unharmed T)
    (hl : ∀ i, T.count i = 2 → k < i ∧ ∀ m, T.count m = 1 → m < i) : Unharmed (T ++ [k]) := by
  intro A x B e
  rcases List.eq_nil_or_concat B with rfl | ⟨B', y, rfl⟩
  · obtain ⟨rfl, h2⟩ := List.append_inj' e rfl
    obtain rfl : k = x := by simpa using h2
    exact hl
  · have e' : T ++ [k] = (A ++ x :: B') ++ [y] := by simpa using e
    obtain ⟨h1, -⟩ := List.append_inj' e' rfl
    exact h A x B' h1

/-- the state of the loop after the touches `T` -/
structure Touched (cur0 : List (Nat × CrossEdge)) (T : List Nat) (st : RmSt) : Prop where
  open_ : ∀ j, j ∈ st.S ↔ T.count j = 1
  cur : st.cur = cur0.filter (fun p => T.count p.1 ≠ 2)
  valid : ∀ b, st.valid b = true ↔ ∀ i, T.count i = 2 → b < i

theorem touch_run (cur0 : List (Nat × CrossEdge)) (T : List Nat) : (∀ j, T.count j ≤ 2) →
    (Unharmed T → ∃ st, T.foldlM rmCross ⟨cur0, none, []⟩ = some st ∧ Touched cur0 T st) ∧
    (¬ Unharmed T → T.foldlM rmCross ⟨cur0, none, []⟩ = none) := by
  induction T using List.reverseRecOn with
  | nil =>
    intro _
    refine ⟨fun _ => ⟨_, rfl, ?_⟩, fun h => absurd ?_ h⟩
    · exact ⟨by simp, by simp, by simp [RmSt.valid]⟩
    · intro A k B e; simp at e
  | append_singleton T k ih =>
    intro hc
    have hcT : ∀ j, T.count j ≤ 2 := fun j => by
      have := hc j
      rw [List.count_append] at this
      omega
    have hkk : T.count k ≤ 1 := by
      have := hc k
      rw [List.count_append] at this
      simp at this
      omega
    obtain ⟨ih1, ih2⟩ := ih hcT
    have hfold : ∀ st0, (T ++ [k]).foldlM rmCross st0 = (T.foldlM rmCross st0).bind (fun st => rmCross st k) := by
      intro st0
      rw [foldlM_append']
      congr 1
      funext st
      cases h : rmCross st k <;> simp [List.foldlM_cons, h]
    rw [hfold]
    by_cases hT : Unharmed T
    · obtain ⟨st, e, ht⟩ := ih1 hT
      rw [e, Option.bind_some]
      have hcond : (st.valid k = true ∧ st.S.all st.valid = true) ↔
          ∀ i, T.count i = 2 → k < i ∧ ∀ m, T.count m = 1 → m < i := by
        rw [ht.valid, List.all_eq_true]
        constructor
        · rintro ⟨h1, h2⟩ i hi
          exact ⟨h1 i hi, fun m hm => (ht.valid m).1 (h2 m ((ht.open_ m).2 hm)) i hi⟩
        · intro h
          exact ⟨fun i hi => (h i hi).1, fun m hm => (ht.valid m).2 (fun i hi => (h i hi).2 m ((ht.open_ m).1 hm))⟩
      have hcnt : ∀ j, (T ++ [k]).count j = T.count j + if k = j then 1 else 0 := by
        intro j
        rw [List.count_append, List.count_singleton]
        by_cases hkj : k = j <;> simp [hkj]
      constructor
      · intro h
        have hh := hcond.2 h.last
        unfold rmCross
        rw [if_pos hh]
        by_cases hk : k ∈ st.S
        · rw [if_pos hk]
          have hk1 := (ht.open_ k).1 hk
          refine ⟨_, rfl, ?_, ?_, ?_⟩
          · intro j
            rw [hcnt, List.mem_filter, ht.open_]
            by_cases hkj : k = j
            · subst hkj; simp [hk1]
            · have : j ≠ k := fun e => hkj e.symm
              simp [hkj, this]
          · simp only [ht.cur, List.filter_filter]
            apply List.filter_congr
            intro p _
            rw [hcnt]
            by_cases hkj : k = p.1
            · subst hkj; simp [hk1]
            · have : p.1 ≠ k := fun e => hkj e.symm
              simp [hkj, this]
          · intro b
            have hv := ht.valid b
            have : (∀ i, (T ++ [k]).count i = 2 → b < i) ↔ (∀ i, T.count i = 2 → b < i) ∧ b < k := by
              constructor
              · intro h
                refine ⟨fun i hi => h i ?_, h k ?_⟩
                · rw [hcnt, if_neg, hi]
                  rintro rfl
                  omega
                · rw [hcnt, if_pos rfl, hk1]
              · rintro ⟨h1, h2⟩ i hi
                rw [hcnt] at hi
                by_cases hki : k = i
                · subst hki; exact h2
                · rw [if_neg hki] at hi; exact h1 i hi
            rw [this, ← hv]
            unfold RmSt.valid
            cases st.bad with
            | none => simp
            | some c => simp
        · rw [if_neg hk]
          have hk0 : T.count k = 0 := by
            have := mt (ht.open_ k).2 hk
            omega
          refine ⟨_, rfl, ?_, ?_, ?_⟩
          · intro j
            rw [hcnt, List.mem_append, ht.open_, List.mem_singleton]
            by_cases hkj : k = j
            · subst hkj; simp [hk0]
            · have : j ≠ k := fun e => hkj e.symm
              simp [hkj, this]
          · simp only [ht.cur]
            apply List.filter_congr
            intro p _
            rw [hcnt]
            by_cases hkj : k = p.1
            · subst hkj; simp [hk0]
            · simp [hkj]
          · intro b
            have hv := ht.valid b
            have e : (RmSt.valid { st with S := st.S ++ [k] } b) = st.valid b := rfl
            rw [e, hv]
            constructor
            · intro h i hi
              rw [hcnt] at hi
              by_cases hki : k = i
              · subst hki; rw [if_pos rfl, hk0] at hi; omega
              · rw [if_neg hki] at hi; exact h i hi
            · intro h i hi
              refine h i ?_
              rw [hcnt, if_neg, hi]
              rintro rfl
              omega
      · intro h
        have hh : ¬ (st.valid k = true ∧ st.S.all st.valid = true) := fun hc' => h (hT.snoc (hcond.1 hc'))
        unfold rmCross
        rw [if_neg hh]
    · rw [ih2 hT]
      exact ⟨fun h => absurd h.init hT, fun _ => rfl⟩

/-! ### the touches of a visit -/

/-- the cross edges met while the vertices `L` are visited, in order -/
def touches (ces : List CrossEdge) (L : List VId) : List Nat := L.flatMap (incident (number 0 ces))

theorem mem_incident {ces : List CrossEdge} {v : VId} {n j : Nat} :
    j ∈ incident (number n ces) v ↔ n ≤ j ∧ ∃ c, ces[j - n]? = some c ∧ (c.origin = v ∨ c.target = v) := by
  unfold incident
  rw [List.mem_flatMap]
  constructor
  · rintro ⟨⟨i, c⟩, hp, hj⟩
    rw [mem_number] at hp
    have : j = i ∧ (c.origin = v ∨ c.target = v) := by
      rw [List.mem_append] at hj
      rcases hj with h | h <;> split at h <;> simp_all
    obtain ⟨rfl, h⟩ := this
    exact ⟨hp.1, c, hp.2, h⟩
  · rintro ⟨hn, c, hc, h⟩
    refine ⟨(j, c), (mem_number _ _ _ _).2 ⟨hn, hc⟩, ?_⟩
    rw [List.mem_append]
    rcases h with h | h
    · left; simp [h]
    · right; simp [h]

/-- the positions come in ascending order, each once -/
theorem incident_sorted {ces : List CrossEdge} (hs : ∀ c ∈ ces, c.origin ≠ c.target) (v : VId) (n : Nat) :
    (incident (number n ces) v).Pairwise (· < ·) := by
  induction ces generalizing n with
  | nil => simp [number, incident]
  | cons c ces ih =>
    have e : incident (number n (c :: ces)) v =
        ((if c.origin = v then [n] else []) ++ (if c.target = v then [n] else [])) ++ incident (number (n + 1) ces) v := by
      simp [number, incident]
    rw [e, List.pairwise_append]
    refine ⟨?_, ih (fun x hx => hs x (List.mem_cons_of_mem _ hx)) _, ?_⟩
    · have := hs c (by simp)
      by_cases h1 : c.origin = v
      · have h2 : c.target ≠ v := fun h => this (h1.trans h.symm)
        simp [h1, h2]
      · by_cases h2 : c.target = v <;> simp [h1, h2]
    · intro a ha b hb
      have : a = n := by
        rw [List.mem_append] at ha
        rcases ha with h | h <;> split at h <;> simp_all
      have hb' := (mem_incident.1 hb).1
      omega

theorem count_incident {ces : List CrossEdge} (hs : ∀ c ∈ ces, c.origin ≠ c.target) {v : VId} {j : Nat} {c : CrossEdge}
    (hj : ces[j]? = some c) :
    (incident (number 0 ces) v).count j = (if c.origin = v then 1 else 0) + (if c.target = v then 1 else 0) := by
  have hnd : (incident (number 0 ces) v).Nodup := (incident_sorted hs v 0).imp (fun h => Nat.ne_of_lt h)
  have hne := hs c (List.mem_of_getElem? hj)
  have hmem : j ∈ incident (number 0 ces) v ↔ (c.origin = v ∨ c.target = v) := by
    rw [mem_incident]
    simp [hj]
  by_cases h1 : c.origin = v
  · have h2 : c.target ≠ v := fun h => hne (h1.trans h.symm)
    rw [List.count_eq_one_of_mem hnd (hmem.2 (Or.inl h1))]; simp [h1, h2]
  · by_cases h2 : c.target = v
    · rw [List.count_eq_one_of_mem hnd (hmem.2 (Or.inr h2))]; simp [h1, h2]
    · rw [List.count_eq_zero_of_not_mem (fun h => by rcases hmem.1 h with h | h <;> contradiction)]; simp [h1, h2]

theorem count_touches {ces : List CrossEdge} (hs : ∀ c ∈ ces, c.origin ≠ c.target) {j : Nat} {c : CrossEdge}
    (hj : ces[j]? = some c) : ∀ {L : List VId}, L.Nodup →
    (touches ces L).count j = (if c.origin ∈ L then 1 else 0) + (if c.target ∈ L then 1 else 0) := by
  intro L
  induction L with
  | nil => intro _; simp [touches]
  | cons v L ih =>
    intro hn
    obtain ⟨h1, h2⟩ := List.nodup_cons.1 hn
    have : touches ces (v :: L) = incident (number 0 ces) v ++ touches ces L := by simp [touches]
    rw [this, List.count_append, count_incident hs hj, ih h2]
    have a : ∀ x : VId, (if x ∈ v :: L then 1 else 0) = (if x = v then 1 else 0) + (if x ∈ L then 1 else 0) := by
      intro x
      by_cases hx : x = v
      · subst hx; simp [h1]
      · simp [hx]
    rw [a, a]
    omega

theorem count_touches_none {ces : List CrossEdge} {j : Nat} (hj : ces[j]? = none) (L : List VId) :
    (touches ces L).count j = 0 := by
  rw [List.count_eq_zero]
  intro h
  obtain ⟨v, -, hv⟩ := List.mem_flatMap.1 h
  obtain ⟨-, c, hc, -⟩ := mem_incident.1 hv
  simp [hj] at hc

theorem count_touches_le {ces : List CrossEdge} (hs : ∀ c ∈ ces, c.origin ≠ c.target) {L : List VId} (hn : L.Nodup) (j : Nat) :
    (touches ces L).count j ≤ 2 := by
  cases hj : ces[j]? with
  | none => rw [count_touches_none hj]; omega
  | some c =>
    rw [count_touches hs hj hn]
    split <;> split <;> omega

theorem flatMap_split {α β : Type} {f : α → List β} : ∀ {L : List α} {A B : List β} {k : β}, L.flatMap f = A ++ k :: B →
    ∃ L1 v L2 A' B', L = L1 ++ v :: L2 ∧ f v = A' ++ k :: B' ∧ A = L1.flatMap f ++ A' := by
  intro L
  induction L with
  | nil => intro A B k h; simp at h
  | cons x L ih =>
    intro A B k h
    rw [List.flatMap_cons] at h
    rcases List.append_eq_append_iff.1 h with ⟨a', h1, h2⟩ | ⟨c', h1, h2⟩
    · obtain ⟨L1, v, L2, A', B', e1, e2, e3⟩ := ih h2
      exact ⟨x :: L1, v, L2, A', B', by rw [e1]; rfl, e2, by rw [h1, e3]; simp⟩
    · cases c' with
      | nil =>
        have h2' : L.flatMap f = [] ++ k :: B := by simpa using h2.symm
        obtain ⟨L1, v, L2, A', B', e1, e2, e3⟩ := ih h2'
        refine ⟨x :: L1, v, L2, A', B', by rw [e1]; rfl, e2, ?_⟩
        have h1' : A = f x := by simpa using h1.symm
        rw [h1', List.flatMap_cons, List.append_assoc, ← e3]; simp
      | cons y c' =>
        simp only [List.cons_append, List.cons.injEq] at h2
        obtain ⟨rfl, h2⟩ := h2
        exact ⟨[], x, L, A, c', rfl, h1, by simp⟩

theorem idxOf_mid {L1 L2 : List VId} {v : VId} (hn : (L1 ++ v :: L2).Nodup) : (L1 ++ v :: L2).idxOf v = L1.length := by
  have : v ∉ L1 := by
    intro h
    exact (List.nodup_append.1 hn).2.2 v h v (by simp) rfl
  rw [List.idxOf_append_of_notMem this]
  simp

theorem idxOf_lt_mid {L1 L2 : List VId} {v x : VId} (_hn : (L1 ++ v :: L2).Nodup) :
    (L1 ++ v :: L2).idxOf x < L1.length ↔ x ∈ L1 := by
  constructor
  · intro h
    by_contra hx
    rw [List.idxOf_append_of_notMem hx] at h
    omega
  · intro h
    rw [List.idxOf_append_of_mem h]
    exact List.idxOf_lt_length_iff.2 h

/-- If no cross edge leaves the visited part, the order in which the inner ones are closed decides. -/
theorem unharmed_iff {ces : List CrossEdge} (hs : ∀ c ∈ ces, c.origin ≠ c.target) {L : List VId} (hn : L.Nodup)
    (hin : ∀ c ∈ ces, (c.origin ∈ L ↔ c.target ∈ L)) :
    Unharmed (touches ces L) ↔
      ces.Pairwise (fun c c' => c.origin ∈ L → c'.origin ∈ L → lastVisit L c' < lastVisit L c) := by
  constructor
  · intro hU
    rw [List.pairwise_iff_getElem]
    intro i j hi hj hij ho ho'
    by_contra hlt
    rw [Nat.not_lt] at hlt
    have ei : ces[i]? = some ces[i] := List.getElem?_eq_getElem hi
    have ej : ces[j]? = some ces[j] := List.getElem?_eq_getElem hj
    generalize hci : ces[i] = ci at *
    generalize hcj : ces[j] = cj at *
    have hti : ci.target ∈ L := (hin ci (List.mem_of_getElem? ei)).1 ho
    have htj : cj.target ∈ L := (hin cj (List.mem_of_getElem? ej)).1 ho'
    -- the vertex at which `j` is closed
    obtain ⟨v, hv, hvj, hvp⟩ : ∃ v ∈ L, (cj.origin = v ∨ cj.target = v) ∧ L.idxOf v = lastVisit L cj := by
      unfold lastVisit
      rcases Nat.le_total (L.idxOf cj.origin) (L.idxOf cj.target) with h | h
      · exact ⟨_, htj, Or.inr rfl, by omega⟩
      · exact ⟨_, ho', Or.inl rfl, by omega⟩
    obtain ⟨L1, L2, rfl⟩ := List.append_of_mem hv
    rw [idxOf_mid hn] at hvp
    have hjv : j ∈ incident (number 0 ces) v := mem_incident.2 ⟨Nat.zero_le _, cj, ej, hvj⟩
    obtain ⟨A', B', hAB⟩ := List.append_of_mem hjv
    have hsort := incident_sorted hs v 0
    rw [hAB, List.pairwise_append] at hsort
    have hspl : touches ces (L1 ++ v :: L2) = (touches ces L1 ++ A') ++ j :: (B' ++ touches ces L2) := by
      simp [touches, hAB]
    have hA' : A'.count i = (if ci.origin = v then 1 else 0) + (if ci.target = v then 1 else 0) := by
      rw [← count_incident hs ei, hAB, List.count_append, List.count_cons]
      have h1 : i ∉ B' := by
        intro h
        have := (List.pairwise_cons.1 hsort.2.1).1 i h
        omega
      rw [List.count_eq_zero_of_not_mem h1]
      have : (j == i) = false := by simp; omega
      simp [this]
    have hn1 : L1.Nodup := (List.nodup_append.1 hn).1
    have hpos : ∀ x, x ∈ L1 ++ v :: L2 → (L1 ++ v :: L2).idxOf x ≤ L1.length → x ∈ L1 ∨ x = v := by
      intro x hx hle
      by_cases hxv : x = v
      · exact Or.inr hxv
      · left
        rw [← idxOf_lt_mid hn]
        have : (L1 ++ v :: L2).idxOf x ≠ L1.length := by
          intro e
          apply hxv
          have := idxOf_mid hn
          exact (List.idxOf_inj hx).1 (e.trans this.symm)
        omega
    have hv1 : v ∉ L1 := fun h => (List.nodup_append.1 hn).2.2 v h v (by simp) rfl
    have hcnt : (touches ces L1 ++ A').count i = 2 := by
      rw [List.count_append, count_touches hs ei hn1, hA']
      unfold lastVisit at hlt hvp
      have h1 := hpos ci.origin ho (by omega)
      have h2 := hpos ci.target hti (by omega)
      have hne := hs ci (List.mem_of_getElem? ei)
      rcases h1 with h1 | h1 <;> rcases h2 with h2 | h2
      · have a : ci.origin ≠ v := fun e => hv1 (e ▸ h1)
        have b : ci.target ≠ v := fun e => hv1 (e ▸ h2)
        simp [h1, h2, a, b]
      · have a : ci.origin ≠ v := fun e => hv1 (e ▸ h1)
        have b : ci.target ∉ L1 := fun h => hv1 (h2 ▸ h)
        simp [h1, h2, a, hv1]
      · have a : ci.target ≠ v := fun e => hv1 (e ▸ h2)
        simp [h1, h2, a, hv1]
      · exact absurd (h1.trans h2.symm) hne
    have := (hU _ j _ hspl i hcnt).1
    omega
  · intro hP A k B hAB i hi
    obtain ⟨L1, v, L2, A', B', rfl, hv, rfl⟩ := flatMap_split (f := incident (number 0 ces)) hAB
    have hn1 : L1.Nodup := (List.nodup_append.1 hn).1
    have hv1 : v ∉ L1 := fun h => (List.nodup_append.1 hn).2.2 v h v (by simp) rfl
    have hsort := incident_sorted hs v 0
    rw [hv, List.pairwise_append] at hsort
    have hcA : ∀ j c, ces[j]? = some c → (touches ces L1 ++ A').count j =
        ((if c.origin ∈ L1 then 1 else 0) + (if c.target ∈ L1 then 1 else 0)) + A'.count j := by
      intro j c hj
      rw [List.count_append, count_touches hs hj hn1]
    have hA'v : ∀ j c, ces[j]? = some c → A'.count j ≤ (if c.origin = v then 1 else 0) + (if c.target = v then 1 else 0) := by
      intro j c hj
      rw [← count_incident hs hj, hv, List.count_append]
      omega
    change (touches ces L1 ++ A').count i = 2 at hi
    change k < i ∧ ∀ m, (touches ces L1 ++ A').count m = 1 → m < i
    -- `i` is an inner edge that is closed at `v` or before
    cases hei : ces[i]? with
    | none =>
      exfalso
      rw [List.count_append, count_touches_none hei] at hi
      have : i ∉ A' := by
        intro h
        have : i ∈ incident (number 0 ces) v := by rw [hv]; simp [h]
        obtain ⟨-, c, hc, -⟩ := mem_incident.1 this
        simp [hei] at hc
      rw [List.count_eq_zero_of_not_mem this] at hi
      omega
    | some ci =>
      have hne := hs ci (List.mem_of_getElem? hei)
      have hle : ∀ x, (x ∈ L1 ∨ x = v) → (L1 ++ v :: L2).idxOf x ≤ L1.length := by
        intro x hx
        rcases hx with hx | rfl
        · exact Nat.le_of_lt ((idxOf_lt_mid hn).2 hx)
        · exact Nat.le_of_eq (idxOf_mid hn)
      have hi1 := hcA i ci hei
      have hi2 := hA'v i ci hei
      rw [hi1] at hi
      have hoi : ci.origin ∈ L1 ∨ ci.origin = v := by
        by_contra hcon
        rw [not_or] at hcon
        simp only [hcon.1, hcon.2, if_false] at hi hi2
        by_cases h2 : ci.target = v
        · have : ci.target ∉ L1 := fun h => hv1 (h2 ▸ h)
          simp only [this, h2, if_true, if_false] at hi hi2
          simp only [hv1, if_false] at hi
          omega
        · simp only [h2, if_false] at hi2
          split at hi <;> omega
      have hti : ci.target ∈ L1 ∨ ci.target = v := by
        by_contra hcon
        rw [not_or] at hcon
        simp only [hcon.1, hcon.2, if_false] at hi hi2
        by_cases h2 : ci.origin = v
        · have : ci.origin ∉ L1 := fun h => hv1 (h2 ▸ h)
          simp only [h2, if_true, if_false] at hi hi2
          simp only [hv1, if_false] at hi
          omega
        · simp only [h2, if_false] at hi2
          split at hi <;> omega
      have hlast : lastVisit (L1 ++ v :: L2) ci ≤ L1.length := by
        unfold lastVisit
        have := hle _ hoi
        have := hle _ hti
        omega
      have hoL : ci.origin ∈ L1 ++ v :: L2 := by
        rcases hoi with h | h
        · exact List.mem_append_left _ h
        · rw [h]; simp
      have hii : i < ces.length := (List.getElem?_eq_some_iff.1 hei).1
      have hgi : ces[i] = ci := (List.getElem?_eq_some_iff.1 hei).2
      have hpair : ∀ j c, ces[j]? = some c → i < j → c.origin ∈ L1 ++ v :: L2 →
          lastVisit (L1 ++ v :: L2) c < L1.length := by
        intro j c hj hij ho
        obtain ⟨hjl, hgj⟩ := List.getElem?_eq_some_iff.1 hj
        have := List.pairwise_iff_getElem.1 hP i j hii hjl hij
        rw [hgi, hgj] at this
        have := this hoL ho
        omega
      constructor
      · -- the touched one
        have hk : k ∈ incident (number 0 ces) v := by rw [hv]; simp
        obtain ⟨-, ck, hek, hkv⟩ := mem_incident.1 hk
        rw [Nat.sub_zero] at hek
        rcases Nat.lt_trichotomy k i with h | h | h
        · exact h
        · exfalso
          subst h
          rw [hei] at hek
          obtain rfl := Option.some.inj hek
          have hA0 : k ∉ A' := by
            intro h
            have := hsort.2.2 k h k (by simp)
            omega
          rw [List.count_eq_zero_of_not_mem hA0] at hi
          rcases hkv with h | h
          · simp only [h, hv1, if_false] at hi
            split at hi <;> omega
          · simp only [h, hv1, if_false] at hi
            split at hi <;> omega
        · exfalso
          have hvL : v ∈ L1 ++ v :: L2 := by simp
          have hok : ck.origin ∈ L1 ++ v :: L2 := by
            rcases hkv with h' | h'
            · rw [h']; exact hvL
            · exact (hin ck (List.mem_of_getElem? hek)).2 (by rw [h']; exact hvL)
          have h1 := hpair k ck hek h hok
          unfold lastVisit at h1
          rcases hkv with h' | h'
          · rw [h', idxOf_mid hn] at h1; omega
          · rw [h', idxOf_mid hn] at h1; omega
      · -- the open ones
        intro m hm
        cases hem : ces[m]? with
        | none =>
          exfalso
          rw [List.count_append, count_touches_none hem] at hm
          have : m ∉ A' := by
            intro h
            have : m ∈ incident (number 0 ces) v := by rw [hv]; simp [h]
            obtain ⟨-, c, hc, -⟩ := mem_incident.1 this
            simp [hem] at hc
          rw [List.count_eq_zero_of_not_mem this] at hm
          omega
        | some cm =>
          have hm1 := hcA m cm hem
          have hm2 := hA'v m cm hem
          rcases Nat.lt_trichotomy m i with h | h | h
          · exact h
          · exfalso
            subst h
            rw [hm1] at hm
            rw [hei] at hem
            obtain rfl := Option.some.inj hem
            omega
          · exfalso
            rw [hm1] at hm
            have hom : cm.origin ∈ L1 ++ v :: L2 := by
              by_contra hcon
              have htm := mt (hin cm (List.mem_of_getElem? hem)).2 hcon
              simp only [List.mem_append, List.mem_cons, not_or] at hcon htm
              simp only [hcon.1, hcon.2.1, htm.1, htm.2.1, if_false] at hm hm2
              omega
            have h1 := hpair m cm hem h hom
            unfold lastVisit at h1
            have a1 := (idxOf_lt_mid (x := cm.origin) hn).1 (by omega)
            have a2 := (idxOf_lt_mid (x := cm.target) hn).1 (by omega)
            simp only [a1, a2, if_true] at hm
            omega

/-! ### `removeEdge` of one view -/

variable {F E : Type} [FrameProp F] [EdgeProp E]

theorem IsTreeView.no_loop {g : G F E} (hp : Paired g) {root : VId} {w : TreeView} (h : IsTreeView g root w) :
    ∀ c ∈ w.crossEdges, c.origin ≠ c.target := by
  intro c hc e
  obtain ⟨r, hr, -, h1, h2, -⟩ := h.cross_edge c hc
  exact hp.noself r hr (by rw [h1, h2]; exact e)

/-- `removeEdge_unfold` with the visited vertices -/
theorem removeEdge_cutOrder {g : G F E} (hp : Paired g) {root : VId} {w : TreeView} (h : IsTreeView g root w) {a b : VId}
    (ht : w.TreeEdge a b) :
    (w.cutOrder a b).Nodup ∧ (∀ x, x ∈ w.cutOrder a b ↔ w.Cut a b x) ∧
      w.removeEdge a b =
        (match rmVisit (number 0 w.crossEdges) ⟨number 0 w.crossEdges, none, []⟩ (w.cutOrder a b) with
        | none => .ub "removeEdge: use of an invalidated iterator"
        | some st =>
          match rmVerts { w with crossEdges := st.cur.map (·.2) } (w.cutOrder a b).reverse with
          | .ub m => .ub m
          | .throw e s => .throw e s
          | .ok _ w' =>
            if st.S = [] then .ok () w'
            else .throw (.runtimeError "NOT IMPLEMENTED") w') ∧
      (∀ ces, ∃ w', rmVerts { w with crossEdges := ces } (w.cutOrder a b).reverse = .ok () w' ∧ w'.crossEdges = ces ∧
        w'.root = w.root ∧ ∀ x, w'.tree.get x = if x ∈ w.cutOrder a b then none else (w.tree.get x).map (restRel (w.cutOrder a b))) := by
  obtain ⟨d, hd⟩ := h.rank
  have hf := h.forest hd
  obtain ⟨rt, p0, hrt, hab, hcut⟩ := tree_edge_cases hf ht
  obtain ⟨rr, hrr, hrrp⟩ := parentOf_some hrt
  have hin : (w.tree.get rt).isSome := by rw [hrr]; rfl
  obtain ⟨calls, h1, h2, -⟩ := bfs_visits hf (w.tree.length + 1) [rt] ⟨by simpa using hin, by simp, by simp, by simp⟩
    ((below_le w [rt]).trans (Nat.le_succ _))
  have hmem : ∀ x, x ∈ calls.map Prod.fst ↔ w.Under x rt := by intro x; rw [h2.mem]; simp
  have hco : w.cutOrder a b = calls.map Prod.fst := by
    have : (if w.parentOf b = some a then b else a) = rt := by
      rcases hab with ⟨rfl, rfl⟩ | ⟨rfl, rfl⟩
      · rw [if_pos hrt]
      · rw [if_neg]
        intro h'
        have := hf.rank _ _ hrt
        have := hf.rank _ _ h'
        omega
    unfold TreeView.cutOrder
    rw [this, h1]
  rw [hco]
  refine ⟨h2.nodup, fun x => by rw [hmem, hcut], ?_, ?_⟩
  · have hreal : (if (w.relOf b).parent = some a then some b else if (w.relOf a).parent = some b then some a else none)
        = some rt := by
      have hpo : ∀ x, (w.relOf x).parent = w.parentOf x := by
        intro x
        unfold relOf TreeView.parentOf
        cases w.tree.get x <;> rfl
      rw [hpo, hpo]
      rcases hab with ⟨rfl, rfl⟩ | ⟨rfl, rfl⟩
      · rw [if_pos hrt]
      · rw [if_neg, if_pos hrt]
        intro h'
        have := hf.rank _ _ hrt
        have := hf.rank _ _ h'
        omega
    unfold TreeView.removeEdge
    simp only [hreal, h1]
    rfl
  · intro ces
    have hf' : IsForest ({ w with crossEdges := ces } : TreeView) d := ⟨hf.children, hf.rank⟩
    have hpo : ∀ x, ({ w with crossEdges := ces } : TreeView).parentOf x = w.parentOf x := fun _ => rfl
    obtain ⟨w', r1, r2, r3, -, r5⟩ := rmVerts_eq (calls.map Prod.fst).reverse { w with crossEdges := ces } d hf'
      (List.nodup_reverse.2 h2.nodup)
      (by
        intro v hv
        rw [List.mem_reverse, hmem] at hv
        rcases Relation.ReflTransGen.cases_head hv with rfl | ⟨y, hy, -⟩
        · exact ⟨p0, hrt, h.parent_in hp hrt⟩
        · exact ⟨y, hy, h.parent_in hp hy⟩)
      (by
        intro c v hv hcv
        rw [hpo] at hcv
        rw [List.mem_reverse, hmem] at hv
        have hcu : w.Under c rt := .head hcv hv
        have hne : c ≠ rt := by
          rintro rfl
          have := hf.rank _ _ hcv
          have := hf.le hv
          omega
        have := (h2.first c v ((hmem c).2 hcu) (by simpa using hne) hcv).reverse
        simpa using this)
    refine ⟨w', r1, r2, r3, ?_⟩
    intro x
    rw [r5]
    have : restRel (calls.map Prod.fst).reverse = restRel (calls.map Prod.fst) := by
      funext rel
      simp only [restRel, List.mem_reverse]
    rw [this]
    simp only [List.mem_reverse]

theorem removeEdge_outcome {g : G F E} (hp : Paired g) {root : VId} {w : TreeView} (h : IsTreeView g root w) {a b : VId}
    (ht : w.TreeEdge a b) :
    (¬ Unharmed (touches w.crossEdges (w.cutOrder a b)) → ∃ r, w.removeEdge a b = .ub r) ∧
    (Unharmed (touches w.crossEdges (w.cutOrder a b)) → ∃ w', w'.root = w.root ∧
      w'.crossEdges = w.crossEdges.filter (fun c => ¬ (c.origin ∈ w.cutOrder a b ∧ c.target ∈ w.cutOrder a b)) ∧
      (∀ x, w'.tree.get x = if x ∈ w.cutOrder a b then none else (w.tree.get x).map (restRel (w.cutOrder a b))) ∧
      ((w.Sealed a b ∧ w.removeEdge a b = .ok () w') ∨
        (¬ w.Sealed a b ∧ w.removeEdge a b = .throw (.runtimeError "NOT IMPLEMENTED") w'))) := by
  obtain ⟨hn, hL, heq, hrm⟩ := removeEdge_cutOrder hp h ht
  have hs := h.no_loop hp
  generalize hLL : w.cutOrder a b = L at *
  obtain ⟨t1, t2⟩ := touch_run (number 0 w.crossEdges) (touches w.crossEdges L) (count_touches_le hs hn)
  rw [rmVisit_eq] at heq
  change w.removeEdge a b = (match (touches w.crossEdges L).foldlM rmCross _ with | none => _ | some st => _) at heq
  constructor
  · intro hU
    rw [t2 hU] at heq
    exact ⟨_, heq⟩
  · intro hU
    obtain ⟨st, e, ht'⟩ := t1 hU
    rw [e] at heq
    simp only at heq
    obtain ⟨w', r1, r2, r3, r4⟩ := hrm (st.cur.map (·.2))
    rw [r1] at heq
    simp only at heq
    refine ⟨w', r3, ?_, r4, ?_⟩
    · rw [r2, ht'.cur]
      have : ∀ p ∈ number 0 w.crossEdges, decide ((touches w.crossEdges L).count p.1 ≠ 2) =
          ((fun c : CrossEdge => decide (¬ (c.origin ∈ L ∧ c.target ∈ L))) ∘ Prod.snd) p := by
        intro p hp'
        have hj := ((mem_number _ 0 p.1 p.2).1 hp').2
        rw [Nat.sub_zero] at hj
        rw [count_touches hs hj hn]
        by_cases h1 : p.2.origin ∈ L <;> by_cases h2 : p.2.target ∈ L <;> simp [h1, h2]
      rw [List.filter_congr this, ← List.filter_map, number_map_snd]
    · have hS : st.S = [] ↔ w.Sealed a b := by
        constructor
        · intro hS _ c hc
          rw [← hL, ← hL]
          obtain ⟨j, hj⟩ := List.getElem?_of_mem hc
          have := mt (ht'.open_ j).2 (by rw [hS]; simp)
          rw [count_touches hs hj hn] at this
          by_cases h1 : c.origin ∈ L <;> by_cases h2 : c.target ∈ L <;> simp_all
        · intro hS
          rw [List.eq_nil_iff_forall_not_mem]
          intro j hj
          have := (ht'.open_ j).1 hj
          cases hej : w.crossEdges[j]? with
          | none => rw [count_touches_none hej] at this; cases this
          | some c =>
            rw [count_touches hs hej hn] at this
            have hc := hS ht c (List.mem_of_getElem? hej)
            rw [← hL, ← hL] at hc
            by_cases h1 : c.origin ∈ L
            · have h2 := hc.1 h1; simp [h1, h2] at this
            · have h2 := mt hc.2 h1; simp [h1, h2] at this
      by_cases hs' : st.S = []
      · rw [if_pos hs'] at heq; exact Or.inl ⟨hS.1 hs', heq⟩
      · rw [if_neg hs'] at heq; exact Or.inr ⟨mt hS.2 hs', heq⟩

theorem unharmed_iff_closed {g : G F E} (hp : Paired g) {root : VId} {w : TreeView} (h : IsTreeView g root w) {a b : VId}
    (ht : w.TreeEdge a b) (hs : w.Sealed a b) :
    Unharmed (touches w.crossEdges (w.cutOrder a b)) ↔ w.ClosedBackwards a b := by
  obtain ⟨hn, hL, -, -⟩ := removeEdge_cutOrder hp h ht
  rw [unharmed_iff (h.no_loop hp) hn (by intro c hc; rw [hL, hL]; exact hs ht c hc)]
  simp only [hL]
  exact ⟨fun h _ => h, fun h => h ht⟩

/-- exactly when the removal of a tree edge succeeds, and then the view is correct -/
theorem removeEdge_exact {g : G F E} (hp : Paired g) {root : VId} {w : TreeView} (h : IsTreeView g root w) {a b : VId}
    (ht : w.TreeEdge a b) :
    (w.Sealed a b → w.ClosedBackwards a b → ∃ w', w.removeEdge a b = .ok () w' ∧ IsTreeView (g.cut a b) root w') ∧
    (w.Sealed a b → ¬ w.ClosedBackwards a b → ∃ r, w.removeEdge a b = .ub r) ∧
    (¬ w.Sealed a b → (∃ r, w.removeEdge a b = .ub r) ∨ ∃ w', w.removeEdge a b = .throw (.runtimeError "NOT IMPLEMENTED") w') := by
  obtain ⟨hn, hL, -, -⟩ := removeEdge_cutOrder hp h ht
  obtain ⟨h1, h2⟩ := removeEdge_outcome hp h ht
  refine ⟨fun hs hc => ?_, fun hs hc => h1 (mt (unharmed_iff_closed hp h ht hs).1 hc), fun hs => ?_⟩
  · obtain ⟨w', r1, r2, r3, r4⟩ := h2 ((unharmed_iff_closed hp h ht hs).2 hc)
    rcases r4 with ⟨-, r4⟩ | ⟨r4, -⟩
    · have hin : ∀ c ∈ w.crossEdges, (c.origin ∈ w.cutOrder a b ↔ c.target ∈ w.cutOrder a b) := by
        intro c hc; rw [hL, hL]; exact hs ht c hc
      refine ⟨w', r4, h.cut hp ht hL r1 r3 hin ?_⟩
      rw [r2]
      apply List.filter_congr
      intro c hc
      have := hin c hc
      by_cases hh : c.origin ∈ w.cutOrder a b
      · simp [hh, this.1 hh]
      · simp [hh]
    · exact absurd hs r4
  · by_cases hU : Unharmed (touches w.crossEdges (w.cutOrder a b))
    · obtain ⟨w', -, -, -, r4⟩ := h2 hU
      rcases r4 with ⟨r4, -⟩ | ⟨-, r4⟩
      · exact absurd r4 hs
      · exact Or.inr ⟨w', r4⟩
    · exact Or.inl (h1 hU)

end Verif
