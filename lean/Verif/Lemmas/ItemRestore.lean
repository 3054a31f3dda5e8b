import Verif.Lemmas.ItemClear

set_option linter.unusedSectionVars false
/-! Lemmas about item lists that are changed and changed back. -/

namespace Verif
open EG
variable {E : Type} [EdgeProp E]

theorem G.modV_id {F : Type} (g : G F E) (v : VId) {h : F → F} (hh : ∀ r ∈ g.verts, r.id = v → h r.prop = r.prop) : g.modV v h = g := by
  cases g with
  | mk verts edges lab nv ne =>
    simp only [G.modV, G.mk.injEq, and_true]
    conv_rhs => rw [← List.map_id verts]
    apply List.map_congr_left
    intro r hr
    by_cases hv : r.id = v
    · rw [if_pos hv, hh r hr hv]; rfl
    · simp [hv]

theorem erase_append_self {l : List ItemId} {i : ItemId} (h : i ∉ l) : (l ++ [i]).erase i = l := by
  rw [List.erase_append_right _ h]; simp

theorem set_set_get {m : AMap TypeIdx (List ItemId)} {t : TypeIdx} {l l' : List ItemId} (h : AMap.get m t = some l) :
    AMap.set (AMap.set m t l') t l = m := by
  induction m with
  | nil => simp [AMap.get] at h
  | cons p m ih =>
    by_cases hp : p.1 = t
    · obtain ⟨a, b⟩ := p
      simp only [AMap.get] at h
      simp only at hp; subst hp
      simp at h
      simp [AMap.set, h]
    · have : AMap.get m t = some l := by rw [AMap.get_cons] at h; simpa [hp] using h
      simp only [AMap.set, hp, if_false, List.cons.injEq, true_and]
      exact ih this

theorem erase_set_none {m : AMap TypeIdx (List ItemId)} {t : TypeIdx} {l : List ItemId} (h : AMap.get m t = none) :
    AMap.erase (AMap.set m t l) t = m := by
  rw [EFrame.erase_set]
  rw [AMap.get_eq_none_iff] at h
  simp only [AMap.erase, List.filter_eq_self]
  intro p hp
  simp only [ne_eq, decide_not, Bool.not_eq_eq_eq_not, Bool.not_true, decide_eq_false_iff_not]
  intro he
  exact h (by rw [← he]; exact List.mem_map.2 ⟨p, hp, rfl⟩)

end Verif
