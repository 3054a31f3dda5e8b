import Verif.Spec.Box
/-! # C75: extending the boundary of an item changes the boundary of no other item

An item is given by the address of its boundary; `none` = null pointer. -/

namespace Verif
open Box
variable {K : Type} [LinearOrder K]

/-- The full statement: items `i` with boundaries `items i`. -/
def C75_statement : Prop :=
  ∀ (items : Nat → Option Nat) (i j : Nat) (x : Fin 3 → Int) (h h' : Vols Int), SItem.extendBoundary (items i) x h = .ok () h' → i ≠ j →
    (items j).map h' = (items j).map h

/-- Two items that were given the same boundary: extending one extends the other. -/
theorem C75_shared_fails : ¬ C75_statement := by
  intro hs
  have := hs (fun _ => some 7) 0 1 (fun _ => 4) (fun _ => ⟨fun _ => 0, fun _ => 1⟩) _ rfl (by decide)
  have := congrArg (fun o => o.map (fun b : Box Int => b.max 0)) this
  exact absurd this (by decide)

/-- Missing compared to C75: items that share their boundary.  The other items keep their boundaries, and the item itself gets the
smallest box with the added point, or with the added item's box: nothing is lost, and every box around both is around the result. -/
theorem C75_extend_partial (items : Nat → Option Nat) (i k : Nat) (a c : Nat) (hi : items i = some a) (hk : items k = some c) (x : Fin 3 → K)
    (h : Vols K) :
    (∃ h', SItem.extendBoundary (items i) x h = .ok () h' ∧ (∀ j, items j ≠ items i → (items j).map h' = (items j).map h) ∧
      (h' a).Has x ∧ (∀ p, (h a).Has p → (h' a).Has p) ∧
      ∀ b : Box K, b.Has x → b.Has (h a).min → b.Has (h a).max → ∀ p, (h' a).Has p → b.Has p) ∧
    (∃ h', SItem.extendBoundaryBy (items i) (items k) h = .ok () h' ∧ (∀ j, items j ≠ items i → (items j).map h' = (items j).map h) ∧
      (∀ p, (h a).Has p ∨ (h c).Has p → (h' a).Has p) ∧
      ∀ b : Box K, b.Has (h a).min → b.Has (h a).max → b.Has (h c).min → b.Has (h c).max → ∀ p, (h' a).Has p → b.Has p) := by
  rw [hi, hk]
  have other : ∀ (b : Box K) (j : Nat), items j ≠ some a → (items j).map (fun d => if d = a then b else h d) = (items j).map h := by
    intro b j hj
    cases hq : items j with
    | none => rfl
    | some d => simp only [Option.map_some]; rw [if_neg (by rintro rfl; exact hj hq)]
  refine ⟨⟨_, rfl, fun j hj => other _ j hj, ?_, ?_, ?_⟩, ⟨_, rfl, fun j hj => other _ j hj, ?_, ?_⟩⟩
  · intro i; simp [extendPoint]
  · intro p hp i
    simp only [if_true, extendPoint]
    exact ⟨(min_le_left _ _).trans (hp i).1, (hp i).2.trans (le_max_left _ _)⟩
  · intro b h1 h2 h3 p hp i
    have := hp i
    simp only [if_true, extendPoint] at this
    exact ⟨(le_min (h2 i).1 (h1 i).1).trans this.1, this.2.trans (max_le (h3 i).2 (h1 i).2)⟩
  · intro p hp i
    simp only [if_true, extendBox]
    rcases hp with hp | hp
    · exact ⟨(min_le_left _ _).trans (hp i).1, (hp i).2.trans (le_max_left _ _)⟩
    · exact ⟨(min_le_right _ _).trans (hp i).1, (hp i).2.trans (le_max_right _ _)⟩
  · intro b h1 h2 h3 h4 p hp i
    have := hp i
    simp only [if_true, extendBox] at this
    exact ⟨(le_min (h1 i).1 (h3 i).1).trans this.1, this.2.trans (max_le (h2 i).2 (h4 i).2)⟩

/-- item with boundary 1, extended by the item with boundary 2; a third item is not affected -/
example : ∃ h' : Vols Int, SItem.extendBoundaryBy (some 1) (some 2) (fun a => ⟨fun _ => (a : Int), fun _ => (a : Int) + 1⟩) = .ok () h' ∧
    (h' 1).min 0 = 1 ∧ (h' 1).max 0 = 3 ∧ (h' 2).min 0 = 2 ∧ (h' 3).max 2 = 4 := ⟨_, rfl, rfl, rfl, rfl, rfl⟩

/-- a point is added; without a boundary there is an exception -/
example : ∃ h' : Vols Int, SItem.extendBoundary (some 1) (fun _ => 7) (fun a => ⟨fun _ => (a : Int), fun _ => (a : Int) + 1⟩) = .ok () h' ∧
    (h' 1).max 0 = 7 ∧ (h' 1).min 0 = 1 ∧ (h' 2).max 0 = 3 := ⟨_, rfl, rfl, rfl, rfl⟩

example (h : Vols Int) : SItem.extendBoundary none (fun _ => 7) h = .throw (.runtimeError "BoundingVolume is not available!") h := rfl

end Verif
