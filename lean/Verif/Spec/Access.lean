import Verif.Model.Access
/-! # Specification: who holds access to the graph -/

namespace Verif
namespace Access
variable {T : Type} [DecidableEq T]

/-- `unlock()` is called only by a thread that called `lock()` more often than `unlock()` before. -/
def Balanced : List (AOp T) → Access T → Prop
  | [], _ => True
  | o :: os, s =>
    (∀ t, o = .unlock t → t ∈ s.manual) ∧
    match step o s with
    | .ok _ s' => Balanced os s'
    | .throw _ s' => Balanced os s'
    | .ub _ => True

/-- the thread that called `getThreadSaveAccess()` for the object, or for the one it is a copy of -/
def home (s : Access T) (x : Nat) : Option T := (s.objs.get x).bind s.guards.get

/-- another object is a copy of the same access -/
def Shared (s : Access T) (x : Nat) : Prop := ∃ y, y ≠ x ∧ s.objs.get y = s.objs.get x

/-- The operation is one a program can do: it uses objects that exist and constructs them where none is. -/
def Possible (s : Access T) : AOp T → Prop
  | .take _ x => s.objs.get x = none
  | .copy _ x y => (s.objs.get x).isSome ∧ s.objs.get y = none
  | .assign _ x y => (s.objs.get x).isSome ∧ (s.objs.get y).isSome
  | .drop _ x => (s.objs.get x).isSome
  | .lock _ => True
  | .unlock t => t ∈ s.manual

end Access
end Verif
