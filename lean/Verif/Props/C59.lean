import Verif.Model.Util
import Verif.Lemmas.AMap
import Mathlib.Data.List.Induction
/-! # C59: item metadata, the last registration wins -/

namespace Verif
open MetaMap

/-- the state of the mapping after registrations (type, embedded type name, class name) -/
def C59_after (rs : List (TypeIdx × String × String)) : MetaMap := rs.foldl (fun m r => m.initializer r.1 r.2.1 r.2.2) []

private theorem after_snoc (rs : List (TypeIdx × String × String)) (r) :
    C59_after (rs ++ [r]) = (C59_after rs).set r.1 ⟨r.2.2, r.2.1⟩ := by simp [C59_after, initializer, addMapping]

private theorem get_after (rs : List (TypeIdx × String × String)) (t : TypeIdx) :
    ((∀ e c, (t, e, c) ∉ rs) → (C59_after rs).get t = none) ∧
    ∀ rs1 rs2 e c, rs = rs1 ++ (t, e, c) :: rs2 → (∀ e c, (t, e, c) ∉ rs2) → (C59_after rs).get t = some ⟨c, e⟩ := by
  induction rs using List.reverseRecOn with
  | nil => exact ⟨fun _ => rfl, by simp⟩
  | append_singleton rs r ih =>
    obtain ⟨t', e', c'⟩ := r
    rw [after_snoc]
    constructor
    · intro h
      have : t' ≠ t := by rintro rfl; exact h e' c' (by simp)
      rw [AMap.get_set_ne this]
      exact ih.1 fun e c hm => h e c (by simp [hm])
    · intro rs1 rs2 e c heq hno
      rcases List.eq_nil_or_concat rs2 with rfl | ⟨rs3, x, rfl⟩
      · have := List.append_inj' heq rfl
        simp at this
        obtain ⟨-, rfl, rfl, rfl⟩ := this
        simp
      · rw [List.concat_eq_append, ← List.cons_append, ← List.append_assoc] at heq
        obtain ⟨rfl, h2⟩ := List.append_inj' heq rfl
        simp at h2
        subst h2
        have : t' ≠ t := by rintro rfl; exact hno e' c' (by simp)
        rw [AMap.get_set_ne this]
        exact ih.2 rs1 rs3 e c rfl fun e c hm => hno e c (by simp [hm])

/-- A lookup returns exactly what was registered last for the type. -/
theorem C59_last_wins (rs1 rs2 : List (TypeIdx × String × String)) (t : TypeIdx) (e c : String) (hl : ∀ e c, (t, e, c) ∉ rs2) :
    getMetadata t (C59_after (rs1 ++ (t, e, c) :: rs2)) = .ok ⟨c, e⟩ (C59_after (rs1 ++ (t, e, c) :: rs2)) := by
  simp [getMetadata, (get_after _ t).2 rs1 rs2 e c rfl hl]

example : getMetadata 1 (C59_after [(1, "int", "A"), (1, "int", "B"), (2, "double", "C")]) =
    .ok ⟨"B", "int"⟩ [(1, ⟨"B", "int"⟩), (2, ⟨"C", "double"⟩)] := by decide +kernel

private theorem last_of_mem (rs : List (TypeIdx × String × String)) (t : TypeIdx) (h : ∃ e c, (t, e, c) ∈ rs) :
    ∃ rs1 rs2 e c, rs = rs1 ++ (t, e, c) :: rs2 ∧ ∀ e c, (t, e, c) ∉ rs2 := by
  induction rs with
  | nil => simp at h
  | cons r rs ih =>
    by_cases h' : ∃ e c, (t, e, c) ∈ rs
    · obtain ⟨rs1, rs2, e, c, rfl, h3⟩ := ih h'; exact ⟨r :: rs1, rs2, e, c, rfl, h3⟩
    · obtain ⟨e, c, h⟩ := h
      simp at h
      rcases h with h | h
      · exact ⟨[], rs, e, c, by simp [h], fun e c hm => h' ⟨e, c, hm⟩⟩
      · exact absurd ⟨e, c, h⟩ h'

/-- A lookup throws `std::out_of_range`, and `containsMetadata` says no, iff the type was never registered. -/
theorem C59_unknown (rs : List (TypeIdx × String × String)) (t : TypeIdx) :
    (getMetadata t (C59_after rs) = .throw .outOfRange (C59_after rs) ↔ ∀ e c, (t, e, c) ∉ rs) ∧
    (containsMetadata t (C59_after rs) = false ↔ ∀ e c, (t, e, c) ∉ rs) ∧ ∀ r, getMetadata t (C59_after rs) ≠ .ub r := by
  by_cases h : ∃ e c, (t, e, c) ∈ rs
  · obtain ⟨rs1, rs2, e, c, h1, h2⟩ := last_of_mem rs t h
    have := (get_after rs t).2 rs1 rs2 e c h1 h2
    have h3 : ¬ ∀ e c, (t, e, c) ∉ rs := fun h' => by obtain ⟨e, c, h⟩ := h; exact h' e c h
    simp [getMetadata, containsMetadata, this, h3]
  · have h3 : ∀ e c, (t, e, c) ∉ rs := fun e c hm => h ⟨e, c, hm⟩
    have := (get_after rs t).1 h3
    simp [getMetadata, containsMetadata, this, h3]

example : containsMetadata 3 (C59_after [(1, "int", "A"), (2, "double", "C")]) = false ∧
    containsMetadata 2 (C59_after [(1, "int", "A"), (2, "double", "C")]) = true := by decide +kernel

/-- A registration for another type changes nothing for `t`. -/
theorem C59_other_types (m : MetaMap) (t t' : TypeIdx) (e c : String) (h : t' ≠ t) :
    (m.initializer t' e c).get t = m.get t ∧ containsMetadata t (m.initializer t' e c) = containsMetadata t m := by
  simp [initializer, addMapping, containsMetadata, AMap.get_set_ne h]

example : AMap.get (C59_after [(1, "int", "A"), (2, "double", "C")]) 1 = some ⟨"A", "int"⟩ := by decide +kernel

example : getMetadata 1 (C59_after [(1, "int", "Item<int>"), (2, "double", "Item<double>"), (1, "int", "IntItem")]) =
    .ok ⟨"IntItem", "int"⟩ [(1, ⟨"IntItem", "int"⟩), (2, ⟨"Item<double>", "double"⟩)] := by decide +kernel
example : getMetadata 3 (C59_after [(1, "int", "Item<int>")]) = .throw .outOfRange [(1, ⟨"Item<int>", "int"⟩)] := by decide +kernel

end Verif
