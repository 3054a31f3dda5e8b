import Verif.Model.Zoom
import Mathlib.Analysis.SpecialFunctions.Exp
import Mathlib.Tactic.NormNum
import Mathlib.Tactic.Linarith
import Mathlib.Tactic.FieldSimp
import Mathlib.Algebra.BigOperators.Group.List.Basic
/-! # C109: turning the wheel back restores the zoom -/

namespace Verif
open Zoom

/-- The property: a user who turns the wheel as far back as forth sees what they saw before, and the drawing is never mirrored or lost. -/
def C109_statement : Prop := ∀ (l : List Int) (z : ℝ), 0 < z → (l.sum = 0 → wheel l z = z) ∧ 0 < wheel l z

variable {K : Type} [Field K] [CharZero K]

private theorem step_eq (d : Int) (z : K) : wheelEvent d z = z * (1 + (d : K) / 1200) := by
  unfold wheelEvent; ring

private theorem wheel_eq (l : List Int) : ∀ z : K, wheel l z = z * (l.map (fun d : Int => 1 + (d : K) / 1200)).prod := by
  induction l with
  | nil => intro z; simp [wheel]
  | cons d l ih =>
    intro z
    have := ih (wheelEvent d z)
    simp only [wheel, List.foldl_cons, List.map_cons, List.prod_cons] at this ⊢
    rw [this, step_eq]; ring

/-- The order of the events makes no difference. -/
theorem C109_order {l l' : List Int} (h : l.Perm l') (z : K) : wheel l z = wheel l' z := by
  rw [wheel_eq, wheel_eq, (h.map _).prod_eq]

example : wheel [120, -240, 1200] (5 : ℚ) = wheel [1200, 120, -240] 5 ∧ wheel [120, -240, 1200] (5 : ℚ) = 44 / 5 := by
  norm_num [wheel, wheelEvent]

/-- The drawing is lost exactly by an event of -1200 (ten notches at once); then it stays lost. -/
theorem C109_lost (l : List Int) (z : K) (hz : z ≠ 0) : wheel l z = 0 ↔ -1200 ∈ l := by
  rw [wheel_eq, mul_eq_zero, List.prod_eq_zero_iff, List.mem_map]
  constructor
  · rintro (h | ⟨d, hd, h⟩)
    · exact absurd h hz
    · have h12 : (1200 : K) ≠ 0 := by norm_num
      have : (d : K) = ((-1200 : Int) : K) := by
        field_simp at h
        push_cast
        linear_combination h
      exact (Int.cast_injective this) ▸ hd
  · intro h
    exact Or.inr ⟨_, h, by push_cast; norm_num⟩

example : wheel [-1200, 2400, 120] (5 : ℚ) = 0 ∧ wheel [-1199, 120] (5 : ℚ) ≠ 0 := by norm_num [wheel, wheelEvent]

/-- Missing compared to `C109_statement`: events of at least ten notches backwards.  Without them the scale stays positive. -/
theorem C109_positive_partial (l : List Int) (h : ∀ d ∈ l, -1200 < d) {z : ℝ} (hz : 0 < z) : 0 < wheel l z := by
  rw [wheel_eq]
  refine mul_pos hz (List.prod_pos ?_)
  intro x hx
  obtain ⟨d, hd, rfl⟩ := List.mem_map.1 hx
  have : (-1200 : ℝ) < d := by exact_mod_cast h d hd
  linarith

example : wheel [-1199, 120] (1200 : ℚ) = 11 / 10 := by norm_num [wheel, wheelEvent]

/-- Without events of ten notches: the scale is below the exponential of the rotation, and on it only if the wheel was not moved at all. -/
theorem C109_below_exp (l : List Int) (h : ∀ d ∈ l, -1200 < d) {z : ℝ} (hz : 0 < z) :
    wheel l z ≤ z * Real.exp (l.sum / 1200) ∧ (wheel l z = z * Real.exp (l.sum / 1200) ↔ ∀ d ∈ l, d = 0) := by
  have key : (l.map (fun d : Int => 1 + (d : ℝ) / 1200)).prod ≤ Real.exp ((l.sum : Int) / 1200) ∧
      ((l.map (fun d : Int => 1 + (d : ℝ) / 1200)).prod = Real.exp ((l.sum : Int) / 1200) ↔ ∀ d ∈ l, d = 0) := by
    induction l with
    | nil => simp
    | cons d l ih =>
      obtain ⟨h1, h2⟩ := ih (fun x hx => h x (List.mem_cons_of_mem _ hx))
      have hd : (-1200 : ℝ) < d := by exact_mod_cast h d List.mem_cons_self
      have hpos : 0 < (1 : ℝ) + d / 1200 := by linarith
      have he : Real.exp (((d :: l).sum : Int) / 1200) = Real.exp ((d : ℝ) / 1200) * Real.exp ((l.sum : Int) / 1200) := by
        rw [← Real.exp_add]; congr 1; simp only [List.sum_cons]; push_cast; ring
      have hle : (1 : ℝ) + d / 1200 ≤ Real.exp (d / 1200) := by linarith [Real.add_one_le_exp ((d : ℝ) / 1200)]
      rw [he, List.map_cons, List.prod_cons]
      refine ⟨mul_le_mul hle h1 (List.prod_pos ?_).le (Real.exp_pos _).le, ?_⟩
      · intro x hx
        obtain ⟨y, hy, rfl⟩ := List.mem_map.1 hx
        have : (-1200 : ℝ) < y := by exact_mod_cast h y (List.mem_cons_of_mem _ hy)
        linarith
      · constructor
        · intro heq
          have hd0 : d = 0 := by
            by_contra hne
            have hx : (d : ℝ) / 1200 ≠ 0 := by
              have : (d : ℝ) ≠ 0 := by exact_mod_cast hne
              exact div_ne_zero this (by norm_num)
            have hlt : (1 : ℝ) + d / 1200 < Real.exp (d / 1200) := by linarith [Real.add_one_lt_exp hx]
            have : ((1 : ℝ) + d / 1200) * (l.map (fun d : Int => 1 + (d : ℝ) / 1200)).prod <
                Real.exp (d / 1200) * Real.exp ((l.sum : Int) / 1200) :=
              lt_of_le_of_lt (mul_le_mul_of_nonneg_left h1 hpos.le) (mul_lt_mul_of_pos_right hlt (Real.exp_pos _))
            linarith
          subst hd0
          simp only [Int.cast_zero, zero_div, add_zero, one_mul, Real.exp_zero] at heq
          intro x hx
          rcases List.mem_cons.1 hx with rfl | hx
          · rfl
          · exact h2.1 heq x hx
        · intro hz
          have hd0 := hz d List.mem_cons_self
          subst hd0
          rw [h2.2 (fun x hx => hz x (List.mem_cons_of_mem _ hx))]
          simp
  rw [wheel_eq]
  refine ⟨mul_le_mul_of_nonneg_left key.1 hz.le, ?_⟩
  rw [← key.2]
  exact ⟨fun he => mul_left_cancel₀ hz.ne' he, fun he => by rw [he]⟩

example : wheel [120, -120] (100 : ℚ) = 99 ∧ wheel [0, 0] (100 : ℚ) = 100 := by norm_num [wheel, wheelEvent]

/-- Hence turning as far back as forth always leaves the drawing smaller than before, unless the wheel was not moved. -/
theorem C109_back_is_smaller (l : List Int) (h : ∀ d ∈ l, -1200 < d) (hs : l.sum = 0) (hm : ∃ d ∈ l, d ≠ 0) {z : ℝ} (hz : 0 < z) :
    wheel l z < z := by
  obtain ⟨h1, h2⟩ := C109_below_exp l h hz
  rw [hs] at h1 h2
  simp only [Int.cast_zero, zero_div, Real.exp_zero, mul_one] at h1 h2
  obtain ⟨d, hd, hne⟩ := hm
  exact lt_of_le_of_ne h1 (fun he => hne (h2.1 he d hd))

example : wheel [240, -120, -120] (1000 : ℚ) = 972 := by norm_num [wheel, wheelEvent]

/-- With an ordinary mouse (each event is one notch) a zoom that was left never comes back, however often the wheel is turned. -/
theorem C109_notches (l : List Int) (h : ∀ d ∈ l, d = 120 ∨ d = -120) (z : K) (hz : z ≠ 0) : wheel l z = z ↔ l = [] := by
  constructor
  · intro he
    have hk : ∀ l : List Int, (∀ d ∈ l, d = 120 ∨ d = -120) → ∃ n : Int, n % 2 = 1 ∧
        (l.map (fun d : Int => 1 + (d : K) / 1200)).prod * ((10 ^ l.length : Int) : K) = (n : K) := by
      intro l
      induction l with
      | nil => intro _; exact ⟨1, rfl, by simp⟩
      | cons d l ih =>
        intro h
        obtain ⟨n, hn, hp⟩ := ih (fun x hx => h x (List.mem_cons_of_mem _ hx))
        have h12 : (1200 : K) ≠ 0 := by norm_num
        rcases h d List.mem_cons_self with rfl | rfl
        · refine ⟨11 * n, by omega, ?_⟩
          rw [List.map_cons, List.prod_cons, List.length_cons, pow_succ]
          push_cast at hp ⊢
          rw [← hp]; field_simp; ring
        · refine ⟨9 * n, by omega, ?_⟩
          rw [List.map_cons, List.prod_cons, List.length_cons, pow_succ]
          push_cast at hp ⊢
          rw [← hp]; field_simp; ring
    obtain ⟨n, hn, hp⟩ := hk l h
    rw [wheel_eq] at he
    have h1 : (l.map (fun d : Int => 1 + (d : K) / 1200)).prod = 1 := mul_left_cancel₀ hz (by rw [he, mul_one])
    rw [h1, one_mul] at hp
    have h2 : (10 ^ l.length : Int) = n := Int.cast_injective hp
    cases l with
    | nil => rfl
    | cons d l => rw [List.length_cons, pow_succ] at h2; omega
  · rintro rfl; rfl

example : wheel [120, 120, -120, -120, -120] (100000 : ℚ) = 88209 := by norm_num [wheel, wheelEvent]

/-- The full statement is false: one notch forth and one back. -/
theorem C109_statement_fails : ¬ C109_statement := by
  intro h
  have := (h [120, -120] 100 (by norm_num)).1 (by decide)
  norm_num [wheel, wheelEvent] at this

/-- Nor does the scale stay positive: eleven notches in one event mirror the drawing. -/
theorem C109_mirrored_fails : wheel [-1320] (10 : ℝ) = -1 := by norm_num [wheel, wheelEvent]

end Verif
