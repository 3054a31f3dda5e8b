import Verif.Spec.Box
import Mathlib.Order.MinMax
/-! # C55: bounding boxes: intersects is exact -/

namespace Verif
open Box
variable {K : Type} [LinearOrder K]

/-- The property: `intersects` says whether the boxes have a common point. -/
def C55_statement : Prop := ∀ a b : Box Int, ∃ r, a.intersects (some (.box b)) = .ok r a ∧ (r = true ↔ ∃ p, a.Has p ∧ b.Has p)

theorem C55_statement_fails : ¬ C55_statement := by
  intro h
  obtain ⟨r, h1, h2⟩ := h ⟨fun _ => 0, fun _ => 1⟩ ⟨fun _ => 5, fun _ => 6⟩
  have hr : r = true := by
    have : Box.intersects (some (.box ⟨fun _ => 5, fun _ => 6⟩)) (⟨fun _ => 0, fun _ => 1⟩ : Box Int) = .ok true ⟨fun _ => 0, fun _ => 1⟩ := rfl
    rw [this] at h1
    cases h1; rfl
  obtain ⟨p, ha, hb⟩ := h2.1 hr
  have h3 : p 0 ≤ 1 := (ha 0).2
  have h4 : 5 ≤ p 0 := (hb 0).1
  omega

/-- `isEmpty` is exact. -/
theorem C55_isEmpty (b : Box K) : b.isEmpty = true ↔ ¬ ∃ p, b.Has p := by
  simp only [isEmpty, decide_eq_true_eq]
  constructor
  · rintro ⟨i, hi⟩ ⟨p, hp⟩
    exact absurd ((hp i).1.trans (hp i).2) (not_le.2 hi)
  · intro h
    by_contra hc
    have hle : ∀ i, b.min i ≤ b.max i := fun i => not_lt.1 (fun h' => hc ⟨i, h'⟩)
    exact h ⟨b.min, fun i => ⟨le_rfl, hle i⟩⟩

/-- a box of one point, and one with the bounds in the wrong order in one direction -/
example : (⟨![1, 1, 1], ![1, 1, 1]⟩ : Box Int).isEmpty = false ∧ (⟨![1, 1, 1], ![5, 0, 5]⟩ : Box Int).isEmpty = true := by decide

/-- What `intersects` really answers, for any two boxes: whether the argument has a point.  The own box plays no role. -/
theorem C55_what_intersects_says (a b : Box K) : ∃ r, a.intersects (some (.box b)) = .ok r a ∧ (r = true ↔ ∃ p, b.Has p) := by
  refine ⟨_, rfl, ?_⟩
  have := C55_isEmpty b
  cases hb : b.isEmpty <;> simp_all

/-- boxes far apart; the empty box as argument -/
example : Box.intersects (some (.box ⟨![7, 7, 7], ![8, 8, 8]⟩)) (⟨![0, 0, 0], ![2, 2, 2]⟩ : Box Int) = .ok true ⟨![0, 0, 0], ![2, 2, 2]⟩ ∧
    Box.intersects (some (.box ⟨![1, 1, 1], ![0, 0, 0]⟩)) (⟨![0, 0, 0], ![2, 2, 2]⟩ : Box Int) = .ok false ⟨![0, 0, 0], ![2, 2, 2]⟩ := ⟨rfl, rfl⟩

/-- It is not symmetric either. -/
theorem C55_symmetric_fails : ∃ a b : Box Int, a.intersects (some (.box b)) = .ok true a ∧ b.intersects (some (.box a)) = .ok false b :=
  ⟨⟨fun _ => 1, fun _ => 0⟩, ⟨fun _ => 5, fun _ => 6⟩, rfl, rfl⟩

/-- Missing compared to C55: boxes without common point.  If there is a common point, `intersects` is true, in both directions. -/
theorem C55_common_point_partial (a b : Box K) (h : ∃ p, a.Has p ∧ b.Has p) :
    a.intersects (some (.box b)) = .ok true a ∧ b.intersects (some (.box a)) = .ok true b := by
  obtain ⟨p, ha, hb⟩ := h
  have h1 : a.isEmpty = false := by
    rw [Bool.eq_false_iff, Ne, C55_isEmpty, not_not]; exact ⟨p, ha⟩
  have h2 : b.isEmpty = false := by
    rw [Bool.eq_false_iff, Ne, C55_isEmpty, not_not]; exact ⟨p, hb⟩
  simp [Box.intersects, intersection, Box.cast, h1, h2]

/-- boxes that share one corner -/
example : Box.intersects (some (.box ⟨![2, 2, 2], ![3, 3, 3]⟩)) (⟨![0, 0, 0], ![2, 2, 2]⟩ : Box Int) = .ok true ⟨![0, 0, 0], ![2, 2, 2]⟩ ∧
    Box.intersects (some (.box ⟨![0, 0, 0], ![2, 2, 2]⟩)) (⟨![2, 2, 2], ![3, 3, 3]⟩ : Box Int) = .ok true ⟨![2, 2, 2], ![3, 3, 3]⟩ := ⟨rfl, rfl⟩

/-- The intersection that `intersects` computes and then ignores is exact: it has the common points and no others, so `isEmpty` of
it would be the right test. -/
theorem C55_intersection (a b : Box K) : ∃ c, a.intersection (some (.box b)) = .ok c a ∧ (∀ p, c.Has p ↔ a.Has p ∧ b.Has p) ∧
    (c.isEmpty = false ↔ ∃ p, a.Has p ∧ b.Has p) := by
  have h : ∀ p, (a.inter b).Has p ↔ a.Has p ∧ b.Has p := by
    intro p
    simp only [Has, inter, max_le_iff, le_min_iff, ← forall_and]
    exact forall_congr' (fun i => by tauto)
  refine ⟨_, rfl, h, ?_⟩
  rw [Bool.eq_false_iff, Ne, C55_isEmpty, not_not]
  exact exists_congr h

/-- A null pointer or a volume of another class is undefined behaviour in every call that takes a volume. -/
theorem C55_other_volume (a : Box K) (v : Option (Vol K)) (hv : ∀ b, v ≠ some (.box b)) :
    (∃ r, a.extend v = .ub r) ∧ (∃ r, a.contains v = .ub r) ∧ (∃ r, a.intersection v = .ub r) ∧ ∃ r, a.intersects v = .ub r := by
  have : Box.cast v = none := by
    cases v with
    | none => rfl
    | some v => cases v with
      | box b => exact absurd rfl (hv b)
      | other => rfl
  simp [Box.extend, Box.contains, intersection, Box.intersects, this]

example : Box.extend none (⟨![0, 0, 0], ![2, 2, 2]⟩ : Box Int) = .ub "null pointer" ∧
    Box.contains (some .other) (⟨![0, 0, 0], ![2, 2, 2]⟩ : Box Int) = .ub "null pointer" := ⟨rfl, rfl⟩

example : (⟨![0, 0, 0], ![2, 2, 2]⟩ : Box Int).inter ⟨![1, 1, 1], ![3, 3, 3]⟩ |>.containsPoint ![1, 2, 1] := by decide
example : Box.intersects (some (.box ⟨![1, 1, 1], ![3, 3, 3]⟩)) (⟨![0, 0, 0], ![2, 2, 2]⟩ : Box Int) = .ok true ⟨![0, 0, 0], ![2, 2, 2]⟩ := rfl
example : Box.intersects (some .other) (⟨![0, 0, 0], ![2, 2, 2]⟩ : Box Int) = .ub "null pointer" := rfl

/-- the common part of two boxes; boxes that only miss each other in one direction have none -/
example : (((⟨![0, 0, 0], ![2, 2, 2]⟩ : Box Int).inter ⟨![1, 1, 1], ![3, 1, 3]⟩).max 1, ((⟨![0, 0, 0], ![2, 2, 2]⟩ : Box Int).inter
      ⟨![1, 1, 1], ![3, 1, 3]⟩).min 1, ((⟨![0, 0, 0], ![2, 2, 2]⟩ : Box Int).inter ⟨![1, 1, 1], ![3, 1, 3]⟩).max 2) = (1, 1, 2) ∧
    ((⟨![0, 0, 0], ![2, 2, 2]⟩ : Box Int).inter ⟨![1, 5, 1], ![3, 6, 3]⟩).isEmpty = true := by decide

end Verif
