import Verif.Model.Messages
import Mathlib.Data.List.Infix
/-! # Lemmas about the texts of exceptions -/

namespace Verif
namespace Msg
variable {α : Type}

theorem head_differs {p q x y : List α} (h : p ++ x = q ++ y) (h1 : ¬ p <+: q) (h2 : ¬ q <+: p) : False := by
  rcases List.append_eq_append_iff.1 h with ⟨a, ha, -⟩ | ⟨a, ha, -⟩
  · exact h1 ⟨a, ha.symm⟩
  · exact h2 ⟨a, ha.symm⟩

theorem tail_differs {p q x y : List α} (h : x ++ p = y ++ q) (h1 : ¬ p <:+ q) (h2 : ¬ q <:+ p) : False := by
  rcases List.append_eq_append_iff.1 h with ⟨a, -, ha⟩ | ⟨a, -, ha⟩
  · exact h2 ⟨a, ha.symm⟩
  · exact h1 ⟨a, ha.symm⟩

/-- text `a` before the separator `sep` in which `sep` begins nowhere earlier -/
def Clean (sep a : List α) : Prop := ¬ sep <:+: a ++ sep.dropLast

theorem split_le {sep a a' b b' : List α} (hs : sep ≠ []) (h : a ++ (sep ++ b) = a' ++ (sep ++ b')) (hc : Clean sep a') :
    a'.length ≤ a.length := by
  by_contra hlt
  have hlen : 0 < sep.length := List.length_pos_of_ne_nil hs
  apply hc
  have h1 : a ++ sep <+: a' ++ (sep ++ b') := ⟨b, by rw [List.append_assoc, h]⟩
  have h2 : a' ++ sep.dropLast <+: a' ++ (sep ++ b') := by
    rw [List.prefix_append_right_inj]
    exact (List.dropLast_prefix sep).trans (List.prefix_append _ _)
  have h3 : a ++ sep <+: a' ++ sep.dropLast := by
    apply List.prefix_of_prefix_length_le h1 h2
    simp only [List.length_append, List.length_dropLast]
    omega
  exact (List.suffix_append a sep).isInfix.trans h3.isInfix

theorem split_unique {sep a a' b b' : List α} (hs : sep ≠ []) (h : a ++ (sep ++ b) = a' ++ (sep ++ b')) (hc : Clean sep a)
    (hc' : Clean sep a') : a = a' ∧ b = b' := by
  have hl : a.length = a'.length := Nat.le_antisymm (split_le hs h.symm hc) (split_le hs h hc')
  obtain ⟨h1, h2⟩ := List.append_inj h hl
  exact ⟨h1, List.append_cancel_left h2⟩

theorem split_other {sep a : List α} (hs : sep ≠ []) (hc : ¬ Clean sep a) (b : List α) :
    ∃ a' b', a'.length < a.length ∧ a' ++ (sep ++ b') = a ++ (sep ++ b) := by
  unfold Clean at hc
  rw [not_not] at hc
  obtain ⟨p, q, hpq⟩ := hc
  have hlen : 0 < sep.length := List.length_pos_of_ne_nil hs
  refine ⟨p, q ++ (sep.getLast hs :: b), ?_, ?_⟩
  · have := congrArg List.length hpq
    simp only [List.length_append, List.length_dropLast] at this
    omega
  · calc p ++ (sep ++ (q ++ (sep.getLast hs :: b))) = (p ++ sep ++ q) ++ (sep.getLast hs :: b) := by simp
      _ = (a ++ sep.dropLast) ++ (sep.getLast hs :: b) := by rw [hpq]
      _ = a ++ ((sep.dropLast ++ [sep.getLast hs]) ++ b) := by simp
      _ = a ++ (sep ++ b) := by rw [List.dropLast_append_getLast hs]

end Msg
end Verif
