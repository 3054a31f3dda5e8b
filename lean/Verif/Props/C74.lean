import Verif.Lemmas.Box
import Mathlib.Algebra.Order.Field.Rat
/-! # C74: exteriorDistance is the distance to the nearest point -/

namespace Verif
open Box
variable {K : Type} [Field K] [LinearOrder K] [IsStrictOrderedRing K]

/-- squared distance of two points -/
def C74_sq (p q : Fin 3 → K) : K := (p 0 - q 0) * (p 0 - q 0) + (p 1 - q 1) * (p 1 - q 1) + (p 2 - q 2) * (p 2 - q 2)

/-- The squared exterior distance of a box: no two points are nearer, and some two points have this distance. -/
theorem C74_box (b c : Box K) (hb : ∃ q, b.Has q) (hc : ∃ q, c.Has q) :
    (∀ p q, b.Has p → c.Has q → b.sqDistBox c ≤ C74_sq p q) ∧ ∃ p q, b.Has p ∧ c.Has q ∧ b.sqDistBox c = C74_sq p q := by
  obtain ⟨qb, hqb⟩ := hb
  obtain ⟨qc, hqc⟩ := hc
  have key := fun i : Fin 3 => gap_spec ((hqb i).1.trans (hqb i).2) ((hqc i).1.trans (hqc i).2)
  rw [sqDistBox_eq]
  constructor
  · intro p q hp hq
    exact add_le_add (add_le_add ((key 0).2 _ _ (hp 0) (hq 0)) ((key 1).2 _ _ (hp 1) (hq 1))) ((key 2).2 _ _ (hp 2) (hq 2))
  · choose x y hx hy hxy using fun i => (key i).1
    exact ⟨x, y, hx, hy, by rw [hxy 0, hxy 1, hxy 2]; rfl⟩

/-- The squared exterior distance of a point: no point of the box is nearer, and some point of the box has this distance. -/
theorem C74_point (b : Box K) (hb : ∃ q, b.Has q) (p : Fin 3 → K) :
    (∀ q, b.Has q → b.sqDistPoint p ≤ C74_sq q p) ∧ ∃ q, b.Has q ∧ b.sqDistPoint p = C74_sq q p := by
  have hp : Box.Has ⟨p, p⟩ p := fun _ => ⟨le_rfl, le_rfl⟩
  obtain ⟨h1, q, p', hq, hp', h2⟩ := C74_box b ⟨p, p⟩ hb ⟨p, hp⟩
  obtain rfl : p' = p := funext fun i => le_antisymm (hp' i).2 (hp' i).1
  exact ⟨fun q hq => h1 q p' hq hp, q, hq, h2⟩

/-- The distance is zero iff the point is in the box, for boxes iff they have a common point, and it is symmetric. -/
theorem C74_zero (b c : Box K) (hb : ∃ q, b.Has q) (hc : ∃ q, c.Has q) :
    (∀ p, b.sqDistPoint p = 0 ↔ b.containsPoint p = true) ∧ (b.sqDistBox c = 0 ↔ ∃ p, b.Has p ∧ c.Has p) ∧
    b.sqDistBox c = c.sqDistBox b := by
  obtain ⟨qb, hqb⟩ := hb
  obtain ⟨qc, hqc⟩ := hc
  have lb : ∀ i, b.min i ≤ b.max i := fun i => (hqb i).1.trans (hqb i).2
  have lc : ∀ i, c.min i ≤ c.max i := fun i => (hqc i).1.trans (hqc i).2
  have zero : ∀ c : Box K, (∀ i, c.min i ≤ c.max i) → (b.sqDistBox c = 0 ↔ ∃ p, b.Has p ∧ c.Has p) := by
    intro c lc
    constructor
    · intro h
      rw [sqDistBox_eq] at h
      have h0 := gap_nonneg (b.min 0) (b.max 0) (c.min 0) (c.max 0)
      have h1 := gap_nonneg (b.min 1) (b.max 1) (c.min 1) (c.max 1)
      have h2 := gap_nonneg (b.min 2) (b.max 2) (c.min 2) (c.max 2)
      have z : ∀ i, b.min i ≤ c.max i ∧ c.min i ≤ b.max i := by
        intro i
        match i with
        | 0 => exact gap_zero (by linarith)
        | 1 => exact gap_zero (by linarith)
        | 2 => exact gap_zero (by linarith)
      exact ⟨fun i => max (b.min i) (c.min i), fun i => ⟨le_max_left _ _, max_le (lb i) (z i).2⟩,
        fun i => ⟨le_max_right _ _, max_le (z i).1 (lc i)⟩⟩
    · rintro ⟨p, hp, hp'⟩
      obtain ⟨h1, x, y, -, -, h2⟩ := C74_box b c ⟨qb, hqb⟩ ⟨p, hp'⟩
      have h3 := h1 p p hp hp'
      have h4 : C74_sq p p = 0 := by simp [C74_sq]
      have h5 : 0 ≤ b.sqDistBox c := by
        rw [sqDistBox_eq]
        exact add_nonneg (add_nonneg (gap_nonneg _ _ _ _) (gap_nonneg _ _ _ _)) (gap_nonneg _ _ _ _)
      linarith
  refine ⟨fun p => ?_, zero c lc, ?_⟩
  · rw [sqDistPoint_eq, zero ⟨p, p⟩ (fun _ => le_rfl)]
    simp only [containsPoint, Bool.and_eq_true, decide_eq_true_eq]
    constructor
    · rintro ⟨q, h1, h2⟩
      obtain rfl : q = p := funext fun i => le_antisymm (h2 i).2 (h2 i).1
      exact ⟨fun i => (h1 i).1, fun i => (h1 i).2⟩
    · rintro ⟨h1, h2⟩
      exact ⟨p, fun i => ⟨h1 i, h2 i⟩, fun _ => ⟨le_rfl, le_rfl⟩⟩
  · rw [sqDistBox_eq, sqDistBox_eq, gap_comm _ _ _ _ (lb 0) (lc 0), gap_comm _ _ _ _ (lb 1) (lc 1), gap_comm _ _ _ _ (lb 2) (lc 2)]

/-- the point (4,4,0) and the unit cube: 9 + 9 + 0 -/
example : (⟨![0, 0, 0], ![1, 1, 1]⟩ : Box ℚ).sqDistPoint ![4, 4, 0] = 18 := by decide +kernel
example : (⟨![0, 0, 0], ![1, 1, 1]⟩ : Box ℚ).sqDistBox ⟨![-5, 2, 0], ![-2, 8, 9]⟩ = 5 := by decide +kernel

/-- the middle of a box -/
example : ((⟨![0, 2, 0], ![1, 4, 1]⟩ : Box ℚ).center 1, (⟨![0, 2, 0], ![1, 4, 1]⟩ : Box ℚ).center 2) = (3, 1 / 2) := by decide +kernel

end Verif
