import Verif.Spec.Box
import Mathlib.Data.List.Perm.Basic
/-! # C54: bounding boxes: extend gives the smallest enclosing box -/

namespace Verif
open Box
variable {K : Type} [LinearOrder K]

/-- `contains(point)` is exact. -/
theorem C54_contains_point (b : Box K) (p : Fin 3 → K) : b.containsPoint p = true ↔ b.Has p := by
  simp only [containsPoint, Has, Bool.and_eq_true, decide_eq_true_eq, forall_and]

/-- Missing compared to C54: empty boxes with other corners than those of `clear()`, as `intersection` gives for disjoint boxes (see
`C54_empty_fails`).  `contains(box)` is exact if the argument has a point, or is empty as after `clear()`. -/
theorem C54_contains_box_partial (lo hi : K) (b c : Box K) (hb : ∀ i, b.min i ≤ hi ∧ lo ≤ b.max i)
    (hc : (∃ p, c.Has p) ∨ c = Box.empty lo hi) : b.containsBox c = true ↔ ∀ p, c.Has p → b.Has p := by
  simp only [containsBox, Bool.and_eq_true, decide_eq_true_eq]
  constructor
  · rintro ⟨h1, h2⟩ p hp i
    exact ⟨(h1 i).trans (hp i).1, (hp i).2.trans (h2 i)⟩
  · intro h
    rcases hc with ⟨p, hp⟩ | rfl
    · have hle : ∀ i, c.min i ≤ c.max i := fun i => (hp i).1.trans (hp i).2
      exact ⟨fun i => (h c.min (fun i => ⟨le_rfl, hle i⟩) i).1, fun i => (h c.max (fun i => ⟨hle i, le_rfl⟩) i).2⟩
    · exact ⟨fun i => (hb i).1, fun i => (hb i).2⟩

/-- Missing compared to C54: as above, empty boxes that are no result of `clear()`.  Start with a cleared box and extend it by points
and boxes that have points (or are cleared), all coordinates finite.  The result contains all of them, and a box that contains all of
them contains the result. -/
theorem C54_smallest_partial (lo hi : K) (es : List (Ext K)) (hp : ∀ p, Ext.point p ∈ es → ∀ i, lo ≤ p i ∧ p i ≤ hi)
    (hb : ∀ c, Ext.box c ∈ es → (∃ p, c.Has p) ∧ (∀ i, lo ≤ c.min i ∧ c.max i ≤ hi) ∨ c = Box.empty lo hi) (hlh : lo < hi) :
    (∀ e ∈ es, ∀ p, e.Has p → (extendAll es (Box.empty lo hi)).Has p) ∧
    ∀ d : Box K, (∀ e ∈ es, ∀ p, e.Has p → d.Has p) → ∀ p, (extendAll es (Box.empty lo hi)).Has p → d.Has p := by
  constructor
  · generalize Box.empty lo hi = b
    have mono : ∀ (es : List (Ext K)) (b : Box K) (p : Fin 3 → K), b.Has p → (extendAll es b).Has p := by
      intro es
      induction es with
      | nil => intro b p h; exact h
      | cons e es ih =>
        intro b p h
        refine ih _ p ?_
        cases e with
        | point q => exact fun i => ⟨(min_le_left _ _).trans (h i).1, (h i).2.trans (le_max_left _ _)⟩
        | box c => exact fun i => ⟨(min_le_left _ _).trans (h i).1, (h i).2.trans (le_max_left _ _)⟩
    clear hp hb
    induction es generalizing b with
    | nil => intro e he; cases he
    | cons e es ih =>
      intro e' he' p hp
      rcases List.mem_cons.1 he' with rfl | he'
      · refine mono es _ p ?_
        cases e' with
        | point q =>
          cases hp
          exact fun i => ⟨min_le_right _ _, le_max_right _ _⟩
        | box c => exact fun i => ⟨(min_le_right _ _).trans (hp i).1, (hp i).2.trans (le_max_right _ _)⟩
      · exact ih _ e' he' p hp
  · intro d hd
    suffices h : ∀ (es : List (Ext K)) (b : Box K), (∀ p, Ext.point p ∈ es → ∀ i, lo ≤ p i ∧ p i ≤ hi) →
        (∀ c, Ext.box c ∈ es → (∃ p, c.Has p) ∧ (∀ i, lo ≤ c.min i ∧ c.max i ≤ hi) ∨ c = Box.empty lo hi) →
        (∀ e ∈ es, ∀ p, e.Has p → d.Has p) →
        (b = Box.empty lo hi ∨ ∀ i, d.min i ≤ b.min i ∧ b.max i ≤ d.max i ∧ b.min i ≤ hi ∧ lo ≤ b.max i) →
        (extendAll es b = Box.empty lo hi ∨ ∀ i, d.min i ≤ (extendAll es b).min i ∧ (extendAll es b).max i ≤ d.max i) by
      intro p hp'
      rcases h es _ hp hb hd (Or.inl rfl) with h | h
      · rw [h] at hp'
        exact absurd ((hp' 0).1.trans (hp' 0).2) (not_le.2 hlh)
      · exact fun i => ⟨(h i).1.trans (hp' i).1, (hp' i).2.trans (h i).2⟩
    intro es
    induction es with
    | nil =>
      intro b _ _ _ h
      exact h.imp id (fun h i => ⟨(h i).1, (h i).2.1⟩)
    | cons e es ih =>
      intro b h1 h2 h3 hb'
      refine ih _ (fun p hp => h1 p (by simp [hp])) (fun c hc => h2 c (by simp [hc])) (fun e he => h3 e (by simp [he])) ?_
      cases e with
      | point q =>
        have hq := h1 q (by simp)
        have hdq := h3 (.point q) (by simp) q rfl
        right
        intro i
        show d.min i ≤ min (b.min i) (q i) ∧ max (b.max i) (q i) ≤ d.max i ∧ min (b.min i) (q i) ≤ hi ∧ lo ≤ max (b.max i) (q i)
        refine ⟨?_, ?_, (min_le_right _ _).trans (hq i).2, (hq i).1.trans (le_max_right _ _)⟩
        · rcases hb' with rfl | hb'
          · exact le_min ((hdq i).1.trans (hq i).2) (hdq i).1
          · exact le_min (hb' i).1 (hdq i).1
        · rcases hb' with rfl | hb'
          · exact max_le ((hq i).1.trans (hdq i).2) (hdq i).2
          · exact max_le (hb' i).2.1 (hdq i).2
      | box c =>
        rcases h2 c (by simp) with ⟨⟨p, hp⟩, hc⟩ | rfl
        · have hle : ∀ i, c.min i ≤ c.max i := fun i => (hp i).1.trans (hp i).2
          have d1 := h3 (.box c) (by simp) c.min (fun i => ⟨le_rfl, hle i⟩)
          have d2 := h3 (.box c) (by simp) c.max (fun i => ⟨hle i, le_rfl⟩)
          right
          intro i
          show d.min i ≤ min (b.min i) (c.min i) ∧ max (b.max i) (c.max i) ≤ d.max i ∧ min (b.min i) (c.min i) ≤ hi ∧
            lo ≤ max (b.max i) (c.max i)
          have l1 : c.min i ≤ hi := (hle i).trans (hc i).2
          have l2 : lo ≤ c.max i := (hc i).1.trans (hle i)
          refine ⟨?_, ?_, (min_le_right _ _).trans l1, l2.trans (le_max_right _ _)⟩
          · rcases hb' with rfl | hb'
            · exact le_min ((d1 i).1.trans l1) (d1 i).1
            · exact le_min (hb' i).1 (d1 i).1
          · rcases hb' with rfl | hb'
            · exact max_le (l2.trans (d2 i).2) (d2 i).2
            · exact max_le (hb' i).2.1 (d2 i).2
        · rcases hb' with rfl | hb'
          · left; simp [extendBox, Box.empty]
          · right
            intro i
            show d.min i ≤ min (b.min i) hi ∧ max (b.max i) lo ≤ d.max i ∧ min (b.min i) hi ≤ hi ∧ lo ≤ max (b.max i) lo
            obtain ⟨a1, a2, a3, a4⟩ := hb' i
            rw [min_eq_left a3, max_eq_left a4]
            exact ⟨a1, a2, a3, a4⟩

/-- The order of the extensions does not matter. -/
theorem C54_order (es es' : List (Ext K)) (h : es.Perm es') (b : Box K) : extendAll es b = extendAll es' b := by
  induction h generalizing b with
  | nil => rfl
  | cons e _ ih => exact ih _
  | swap e e' l =>
    have : ∀ (b : Box K), extendAll [e', e] b = extendAll [e, e'] b := by
      intro b
      cases e <;> cases e' <;> simp [extendAll, extendPoint, extendBox, min_assoc, max_assoc, min_comm, max_comm, min_left_comm, max_left_comm]
    show extendAll l (extendAll [e', e] b) = extendAll l (extendAll [e, e'] b)
    rw [this]
  | trans _ _ h1 h2 => rw [h1, h2]

/-- The intersection of the disjoint boxes `[0,1]³` and `[5,6]³`: its corners are 5 and 1. -/
def C54_none : Box Int := Box.inter ⟨fun _ => 0, fun _ => 1⟩ ⟨fun _ => 5, fun _ => 6⟩

/-- This intersection has no point, so every box contains it, and extending a box by it should change nothing.  But `contains`
answers no for `[6,7]³`, and extending it makes the box bigger: it has the point (5,5,5) afterwards. -/
theorem C54_empty_fails : (∀ p, ¬ C54_none.Has p) ∧ Box.containsBox ⟨fun _ => 6, fun _ => 7⟩ C54_none = false ∧
    (Box.extendBox ⟨fun _ => 6, fun _ => 7⟩ C54_none).Has (fun _ => 5) ∧ ¬ Box.Has (⟨fun _ => 6, fun _ => 7⟩ : Box Int) (fun _ => 5) := by
  refine ⟨fun p h => ?_, by decide, ?_, ?_⟩
  · have h1 : (5 : Int) ≤ p 0 ∧ p 0 ≤ 1 := h 0
    omega
  · intro i
    show (5 : Int) ≤ 5 ∧ (5 : Int) ≤ 7
    omega
  · intro h
    have : (6 : Int) ≤ 5 := (h 0).1
    omega

/-- An infinite coordinate (here 20, with finite numbers from -9 to 9) breaks the smallest box too: the lower corner stays at 9. -/
example : ((Box.empty (-9) 9).extendPoint (fun _ => (20 : Int))).Has (fun _ => 10) := by
  intro i; show min (9 : Int) 20 ≤ 10 ∧ (10 : Int) ≤ max (-9) 20; decide

/-- two points and a box -/
example : ∀ i, (extendAll [.point ![1, 2, 3], .point ![0, 5, 3], .box ⟨![-1, 4, 4], ![0, 4, 8]⟩] (Box.empty (-9) 9)).min i = ![-1, 2, 3] i ∧
    (extendAll [.point ![1, 2, 3], .point ![0, 5, 3], .box ⟨![-1, 4, 4], ![0, 4, 8]⟩] (Box.empty (-9) (9 : Int))).max i = ![1, 5, 8] i := by
  decide

/-- a point above the box, and one below -/
example : (((⟨![0, 0, 0], ![2, 2, 2]⟩ : Box Int).extendPoint ![1, 1, 5]).max 0, ((⟨![0, 0, 0], ![2, 2, 2]⟩ : Box Int).extendPoint ![1, 1, 5]).max 2,
    ((⟨![0, 0, 0], ![2, 2, 2]⟩ : Box Int).extendPoint ![1, -1, 5]).min 1) = (2, 5, -1) := by decide

/-- a box around another one contains it, not the other way round -/
example : (⟨![0, 0, 0], ![2, 2, 2]⟩ : Box Int).containsBox ⟨![1, 1, 1], ![2, 2, 2]⟩ = true ∧
    (⟨![1, 1, 1], ![2, 2, 2]⟩ : Box Int).containsBox ⟨![0, 0, 0], ![2, 2, 2]⟩ = false := by decide

end Verif
