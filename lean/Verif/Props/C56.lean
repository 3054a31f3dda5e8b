import Verif.Model.Transform
import Verif.Spec.DemoPose
import Mathlib.Algebra.Group.Basic
import Mathlib.Order.Lattice
import Mathlib.Algebra.Order.Ring.Int
/-! # C56: composition of transforms keeps the latest time stamp and the group laws

Exact arithmetic: the transform part is an element of a group. -/

namespace Verif
variable {T : Type} [Group T]

/-- time stamps -/
theorem C56_time (a b : Tf T) :
    (a.mul b).time = max a.time b.time ∧ a.inverse.time = a.time ∧ a.setIdentity.time = a.time ∧ (Tf.ident : Tf T).time = 0 := by
  refine ⟨?_, rfl, rfl, rfl⟩
  simp only [Tf.mul]
  rcases Int.lt_or_le b.time a.time with h | h
  · rw [if_pos h, max_eq_left (Int.le_of_lt h)]
  · rw [if_neg (by omega), max_eq_right h]

example : (Tf.mul ⟨5, tn 1⟩ ⟨7, sh 3⟩ : Tf DemoPose).time = 7 ∧ (Tf.inverse ⟨-7, sh 3⟩ : Tf DemoPose).time = -7 ∧
    (Tf.setIdentity ⟨4, sh 3⟩ : Tf DemoPose) = ⟨4, 1⟩ := by decide

/-- group laws of the transform part; associativity and the inverse of a product also hold for the time stamps -/
theorem C56_group_laws (a b c : Tf T) :
    (a.mul b).mul c = a.mul (b.mul c) ∧
    (a.mul a.inverse).pose = 1 ∧ (a.inverse.mul a).pose = 1 ∧ a.mul a.inverse = a.setIdentity ∧
    a.inverse.inverse = a ∧ (a.mul b).inverse = b.inverse.mul a.inverse ∧
    ((Tf.ident : Tf T).mul a).pose = a.pose ∧ (a.mul Tf.ident).pose = a.pose := by
  have ht : ∀ x y : Int, (if x > y then x else y) = max x y := by
    intro x y
    rcases Int.lt_or_le y x with h | h
    · rw [if_pos h, max_eq_left (Int.le_of_lt h)]
    · rw [if_neg (by omega), max_eq_right h]
  refine ⟨?_, ?_, ?_, ?_, ?_, ?_, ?_, ?_⟩
  · simp only [Tf.mul, ht, max_assoc, mul_assoc]
  · simp [Tf.mul, Tf.inverse]
  · simp [Tf.mul, Tf.inverse]
  · simp [Tf.mul, Tf.inverse, Tf.setIdentity]
  · simp [Tf.inverse]
  · simp [Tf.mul, Tf.inverse, ht, max_comm]
  · simp [Tf.mul, Tf.ident]
  · simp [Tf.mul, Tf.ident]

example : (Tf.mul ⟨5, tn 1⟩ ⟨7, sh 3⟩ : Tf DemoPose).inverse = Tf.mul (Tf.inverse ⟨7, sh 3⟩) (Tf.inverse ⟨5, tn 1⟩) ∧
    (Tf.mul ⟨5, tn 1⟩ ⟨7, sh 3⟩ : Tf DemoPose).inverse ≠ Tf.mul (Tf.inverse ⟨5, tn 1⟩) (Tf.inverse ⟨7, sh 3⟩) := by decide

/-- The neutral element does not keep negative time stamps: the identity has time 0. -/
theorem C56_identity_time (a : Tf T) : (Tf.ident : Tf T).mul a = a ↔ 0 ≤ a.time := by
  cases a with
  | mk t p =>
    show (⟨if (0 : Int) > t then 0 else t, 1 * p⟩ : Tf T) = ⟨t, p⟩ ↔ (0 : Int) ≤ t
    simp only [one_mul, Tf.mk.injEq, and_true]
    rcases Int.lt_or_le t 0 with h | h
    · rw [if_pos h]; omega
    · rw [if_neg (by omega)]; omega

example : (Tf.mul Tf.ident ⟨-4, sh 3⟩ : Tf DemoPose) = ⟨0, sh 3⟩ ∧ (Tf.mul Tf.ident ⟨4, sh 3⟩ : Tf DemoPose) = ⟨4, sh 3⟩ := by decide

/-- order matters -/
example : (Tf.mul ⟨5, tn 1⟩ ⟨7, sh 3⟩ : Tf DemoPose) = ⟨7, tn (-2)⟩ ∧ (Tf.mul ⟨7, sh 3⟩ ⟨5, tn 1⟩ : Tf DemoPose) = ⟨7, tn 4⟩ ∧
    (Tf.inverse ⟨7, sh 3⟩ : Tf DemoPose) = ⟨7, sh (-3)⟩ := by decide

end Verif
