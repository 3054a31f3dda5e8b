import Verif.Spec.Box
import Mathlib.Order.MinMax
/-! # C65: spatial calls without a boundary throw

An item is given by the address of its boundary; `none` = null pointer. -/

namespace Verif
open Box
variable {K : Type} [Field K] [LinearOrder K]

/-- What the calls of an item should be if one of the boundaries is missing. -/
def C65_thrown {α : Type} (r : Res (Vols K) α) (h : Vols K) : Prop := ∃ m, r = .throw (.runtimeError m) h

/-- The full statement about the calls with two items. -/
def C65_statement : Prop := ∀ (p q : Option Nat) (h : Vols Int), p = none ∨ q = none →
  (∃ m, SItem.extendBoundaryBy p q h = .throw (.runtimeError m) h) ∧ ∃ m, SItem.query Box.contains p q h = .throw (.runtimeError m) h

/-- An item without boundary as argument: the null pointer is used. -/
theorem C65_statement_fails : ¬ C65_statement := by
  intro h1
  obtain ⟨⟨m, h⟩, -⟩ := h1 (some 0) none (fun _ => ⟨fun _ => 0, fun _ => 1⟩) (Or.inr rfl)
  cases h

/-- In general: with an own boundary and an argument without one, every call with two items is undefined behaviour. -/
theorem C65_null_argument_fails (a : Nat) (h : Vols K) : (∃ r, SItem.extendBoundaryBy (some a) none h = .ub r) ∧
    (∃ r, SItem.query Box.intersects (some a) none h = .ub r) ∧ (∃ r, SItem.query Box.intersection (some a) none h = .ub r) ∧
    (∃ r, SItem.query Box.contains (some a) none h = .ub r) ∧ ∃ r, SItem.query Box.sqDistance (some a) none h = .ub r :=
  ⟨⟨_, rfl⟩, ⟨_, rfl⟩, ⟨_, rfl⟩, ⟨_, rfl⟩, ⟨_, rfl⟩⟩

/-- Missing compared to C65: an own boundary together with an argument that has none.  A call on an item without boundary throws
`std::runtime_error` and changes nothing, whatever the argument is. -/
theorem C65_no_boundary_partial (h : Vols K) (x : Fin 3 → K) (q : Option Nat) :
    C65_thrown (SItem.extendBoundary none x h) h ∧ C65_thrown (SItem.extendBoundaryBy none q h) h ∧
    C65_thrown (SItem.ask (fun b => b.containsPoint x) none h) h ∧ C65_thrown (SItem.ask (fun b => b.sqDistPoint x) none h) h ∧
    C65_thrown (SItem.ask Box.center none h) h ∧ C65_thrown (SItem.query Box.contains none q h) h ∧
    C65_thrown (SItem.query Box.intersects none q h) h ∧ C65_thrown (SItem.query Box.intersection none q h) h ∧
    C65_thrown (SItem.query Box.sqDistance none q h) h :=
  ⟨⟨_, rfl⟩, ⟨_, rfl⟩, ⟨_, rfl⟩, ⟨_, rfl⟩, ⟨_, rfl⟩, ⟨_, rfl⟩, ⟨_, rfl⟩, ⟨_, rfl⟩, ⟨_, rfl⟩⟩

example : SItem.extendBoundaryBy none (some 1) (fun _ => ⟨fun _ => (0 : Int), fun _ => 2⟩) =
    .throw (.runtimeError "BoundingVolume is not available!") (fun _ => ⟨fun _ => 0, fun _ => 2⟩) := rfl

/-- With both boundaries the calls answer like the boxes do and change nothing: the point test and the box test say the truth about
points (the latter one-sided, see C54), the intersection has the common points, the distances are the ones of C74. -/
theorem C65_answers_like_box (h : Vols K) (x : Fin 3 → K) (a c : Nat) :
    (∃ r, SItem.ask (fun b => b.containsPoint x) (some a) h = .ok r h ∧ (r = true ↔ (h a).Has x)) ∧
    (∃ r, SItem.query Box.contains (some a) (some c) h = .ok r h ∧ (r = true → ∀ p, (h c).Has p → (h a).Has p) ∧
      ((∃ p, (h c).Has p) → (∀ p, (h c).Has p → (h a).Has p) → r = true)) ∧
    (∃ r, SItem.query Box.intersection (some a) (some c) h = .ok r h ∧ ∀ p, r.Has p ↔ (h a).Has p ∧ (h c).Has p) ∧
    SItem.query Box.sqDistance (some a) (some c) h = .ok ((h a).sqDistBox (h c)) h ∧
    SItem.ask (fun b => b.sqDistPoint x) (some a) h = .ok ((h a).sqDistPoint x) h ∧
    (∃ r, SItem.ask Box.center (some a) h = .ok r h ∧ r = fun i => ((h a).min i + (h a).max i) / 2) := by
  refine ⟨⟨_, rfl, ?_⟩, ⟨_, rfl, ?_, ?_⟩, ⟨_, rfl, ?_⟩, rfl, rfl, ⟨_, rfl, rfl⟩⟩
  · simp only [containsPoint, Has, Bool.and_eq_true, decide_eq_true_eq, forall_and]
  · simp only [containsBox, Bool.and_eq_true, decide_eq_true_eq]
    rintro ⟨h1, h2⟩ p hp i
    exact ⟨(h1 i).trans (hp i).1, (hp i).2.trans (h2 i)⟩
  · rintro ⟨p, hp⟩ hs
    have hle : ∀ i, (h c).min i ≤ (h c).max i := fun i => (hp i).1.trans (hp i).2
    simp only [containsBox, Bool.and_eq_true, decide_eq_true_eq]
    exact ⟨fun i => (hs (h c).min (fun j => ⟨le_rfl, hle j⟩) i).1, fun i => (hs (h c).max (fun j => ⟨hle j, le_rfl⟩) i).2⟩
  · intro p
    simp only [inter, Has, max_le_iff, le_min_iff]
    constructor
    · intro hp; exact ⟨fun i => ⟨(hp i).1.1, (hp i).2.1⟩, fun i => ⟨(hp i).1.2, (hp i).2.2⟩⟩
    · rintro ⟨h1, h2⟩ i; exact ⟨⟨(h1 i).1, (h2 i).1⟩, (h1 i).2, (h2 i).2⟩

/-- boxes [0,2]^3 and [1,3]^3 -/
example : SItem.query Box.contains (some 0) (some 1) (fun a => ⟨fun _ => (a : Int), fun _ => (a : Int) + 2⟩) =
    .ok false (fun a => ⟨fun _ => (a : Int), fun _ => (a : Int) + 2⟩) := rfl

end Verif
