import Verif.Spec.Box
import Mathlib.Algebra.Order.Field.Basic
import Mathlib.Tactic.Linarith
import Mathlib.Tactic.Ring

set_option linter.unusedSectionVars false

/-! Distances of boxes, one coordinate at a time. -/

namespace Verif
namespace Box
variable {K : Type} [Field K] [LinearOrder K] [IsStrictOrderedRing K]

/-- squared distance of two intervals -/
def gap (l h l' h' : K) : K := if h' < l then (l - h') * (l - h') else if h < l' then (l' - h) * (l' - h) else 0

theorem gap_spec {l h l' h' : K} (hl : l ≤ h) (hl' : l' ≤ h') :
    (∃ x y, (l ≤ x ∧ x ≤ h) ∧ (l' ≤ y ∧ y ≤ h') ∧ gap l h l' h' = (x - y) * (x - y)) ∧
    ∀ x y, l ≤ x ∧ x ≤ h → l' ≤ y ∧ y ≤ h' → gap l h l' h' ≤ (x - y) * (x - y) := by
  unfold gap
  split_ifs with h1 h2
  · refine ⟨⟨l, h', ⟨le_rfl, hl⟩, ⟨hl', le_rfl⟩, rfl⟩, ?_⟩
    rintro x y ⟨a, -⟩ ⟨-, b⟩
    exact mul_self_le_mul_self (by linarith) (by linarith)
  · refine ⟨⟨h, l', ⟨hl, le_rfl⟩, ⟨le_rfl, hl'⟩, by ring⟩, ?_⟩
    rintro x y ⟨-, a⟩ ⟨b, -⟩
    have := mul_self_le_mul_self (a := l' - h) (b := y - x) (by linarith) (by linarith)
    calc (l' - h) * (l' - h) ≤ (y - x) * (y - x) := this
      _ = (x - y) * (x - y) := by ring
  · refine ⟨⟨Max.max l l', Max.max l l', ⟨le_max_left _ _, max_le hl (not_lt.1 h2)⟩, ⟨le_max_right _ _, max_le (not_lt.1 h1) hl'⟩, by ring⟩, ?_⟩
    intro x y _ _
    exact mul_self_nonneg _

theorem gap_comm (l h l' h' : K) (hl : l ≤ h) (hl' : l' ≤ h') : gap l h l' h' = gap l' h' l h := by
  unfold gap
  split_ifs with h1 h2 h2 <;> first | rfl | (exfalso; linarith)

theorem gap_nonneg (l h l' h' : K) : 0 ≤ gap l h l' h' := by
  unfold gap
  split_ifs <;> first | exact mul_self_nonneg _ | exact le_rfl

theorem gap_zero {l h l' h' : K} (hz : gap l h l' h' = 0) : l ≤ h' ∧ l' ≤ h := by
  unfold gap at hz
  split_ifs at hz with h1 h2
  · have : l - h' = 0 := by simpa using hz
    exfalso; linarith
  · have : l' - h = 0 := by simpa using hz
    exfalso; linarith
  · exact ⟨not_lt.1 h1, not_lt.1 h2⟩

theorem add_ite (d a b : K) (p q : Prop) [Decidable p] [Decidable q] :
    (if p then d + a else if q then d + b else d) = d + (if p then a else if q then b else 0) := by
  split_ifs <;> simp

theorem sqDistBox_eq (b c : Box K) : b.sqDistBox c = gap (b.min 0) (b.max 0) (c.min 0) (c.max 0) +
    gap (b.min 1) (b.max 1) (c.min 1) (c.max 1) + gap (b.min 2) (b.max 2) (c.min 2) (c.max 2) := by
  simp only [sqDistBox, List.foldl_cons, List.foldl_nil, add_ite, zero_add, gap]

theorem sqDistPoint_eq (b : Box K) (p : Fin 3 → K) : b.sqDistPoint p = b.sqDistBox ⟨p, p⟩ := rfl

end Box
end Verif
