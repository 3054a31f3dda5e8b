import Verif.Lemmas.ItemHist
import Verif.Spec.ItemQueries

set_option linter.unusedSectionVars false
/-! The queries answer as the item lists say. -/

namespace Verif
open EG
variable {E : Type} [EdgeProp E]

theorem AnswersUnknown.of {s : EG E} {f : FrameId} (h : s.gs.g.vertexOf f = none) : AnswersUnknown s f := by
  constructor <;> intros <;>
    simp only [getItems, getItemsT, getItem, getItemCount, getTotalItemCount, containsItems, getItemTypes, visitItems, readFrame, h]

theorem filter_flatMap_tidy {ty : ItemId → TypeIdx} (t : TypeIdx) : ∀ (m : AMap TypeIdx (List ItemId)) (L : List ItemId),
    (AMap.keys m).Nodup → (∀ t, (AMap.get m t).getD [] = L.filter (fun i => ty i = t)) →
    (m.flatMap (fun p => p.2)).filter (fun i => ty i = t) = L.filter (fun i => ty i = t) := by
  intro m
  induction m with
  | nil => intro L _ h; rw [← h t]; rfl
  | cons p m ih =>
    intro L hn h
    obtain ⟨t0, l0⟩ := p
    simp only [AMap.keys, List.map_cons, List.nodup_cons] at hn
    have h0 : l0 = L.filter (fun i => ty i = t0) := by rw [← h t0]; simp [AMap.get]
    have hm : ∀ t', t' ≠ t0 → (AMap.get m t').getD [] = L.filter (fun i => ty i = t') := by
      intro t' ht'
      rw [← h t']
      simp [AMap.get, Ne.symm ht']
    have hgm : (AMap.get m t0) = none := AMap.get_eq_none_iff.2 hn.1
    have := ih (L.filter (fun i => ty i ≠ t0)) hn.2 (by
      intro t'
      by_cases ht' : t' = t0
      · subst ht'
        rw [hgm]
        simp only [Option.getD_none, List.filter_filter]
        symm
        rw [List.filter_eq_nil_iff]
        intro i _; simp
      · rw [hm t' ht', List.filter_filter]
        apply List.filter_congr
        intro i _
        by_cases hi : ty i = t'
        · subst hi; simp [ht']
        · simp [hi])
    simp only [List.flatMap_cons, List.filter_append]
    rw [this, h0]
    by_cases ht : t = t0
    · subst ht
      rw [List.filter_filter, List.filter_filter]
      have : (L.filter (fun i => decide (ty i = t) && decide (ty i ≠ t))) = [] := by
        rw [List.filter_eq_nil_iff]; intro i _; simp
      rw [this, List.append_nil]
      apply List.filter_congr
      intro i _; simp
    · rw [List.filter_filter, List.filter_filter]
      have : (L.filter (fun i => decide (ty i = t) && decide (ty i = t0))) = [] := by
        rw [List.filter_eq_nil_iff]; intro i _ hi; simp only [Bool.and_eq_true, decide_eq_true_eq] at hi; exact ht (hi.1 ▸ hi.2)
      rw [this, List.nil_append]
      apply List.filter_congr
      intro i _
      by_cases hi : ty i = t
      · subst hi; simp [ht]
      · simp [hi]

theorem HSim.answers {ty : ItemId → TypeIdx} {s : EG E} {S : ItemSpec} (h : HSim ty s S) {f : FrameId}
    (hf : (s.gs.g.vertexOf f).isSome) : AnswersAs ty s f (S.items f) := by
  obtain ⟨v, hv⟩ := Option.isSome_iff_exists.1 hf
  obtain ⟨r, hr, hm, hid, hh, hT⟩ := h.record hv
  have hne : ∀ t l, r.prop.items.get t = some l → l ≠ [] ∧ l = (S.items f).filter (fun i => ty i = t) := by
    intro t l hl
    refine ⟨?_, hh.get_some hl⟩
    obtain ⟨i, hi, hti⟩ := (hh.get_isSome hT t).1 (by rw [hl]; rfl)
    intro h0
    have : i ∈ l := by rw [hh.get_some hl]; simp [hi, hti]
    rw [h0] at this; simp at this
  have hnone : ∀ t, r.prop.items.get t = none → (S.items f).filter (fun i => ty i = t) = [] := fun t ht => hh.get_none ht
  constructor
  · intro t
    simp only [getItems, hv, hr]
    cases hl : r.prop.items.get t with
    | none => simp only [hnone t hl, if_true]
    | some l => obtain ⟨a, b⟩ := hne t l hl; rw [← b, if_neg a]
  · intro t
    simp only [getItemsT, hv, hr]
    cases hl : r.prop.items.get t with
    | none => simp only [hnone t hl]
    | some l => obtain ⟨a, b⟩ := hne t l hl; rw [← b]; simp only [if_neg a]
  · intro t k
    simp only [getItem, hv, hr]
    by_cases hk : k < 0
    · simp only [hk, if_true]
    · simp only [hk, if_false]
      cases hl : r.prop.items.get t with
      | none => simp only [hnone t hl, if_true]
      | some l =>
        obtain ⟨a, b⟩ := hne t l hl
        rw [← b, if_neg a]
        simp only
        rw [if_neg (by simpa using a)]
        cases l[k.toNat]? <;> rfl
  · intro t
    simp only [getItemCount, readFrame, hv, hr]
    rw [List.countP_eq_length_filter]
    cases hl : r.prop.items.get t with
    | none => rw [hnone t hl]; rfl
    | some l => rw [← (hne t l hl).2]
  · simp only [getTotalItemCount, readFrame, hv, hr, EFrame.totalItemCount_eq, (hh.visit_perm hT).length_eq]
  · intro t
    exact ⟨_, by simp only [containsItems, readFrame, hv, hr], hh.get_isSome hT t⟩
  · refine ⟨r.prop.items.keys, by simp only [getItemTypes, readFrame, hv, hr]; rfl, hT.nodup, fun t => ?_⟩
    rw [← hh.get_isSome hT t]
    rw [AMap.mem_keys_iff, Option.isSome_iff_exists]
  · exact ⟨r.prop.visit, by simp only [visitItems, readFrame, hv, hr], hh.visit_perm hT, fun t =>
      filter_flatMap_tidy t r.prop.items (S.items f) hT.nodup hh⟩

end Verif
