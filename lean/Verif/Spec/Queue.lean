import Verif.Model.Basic
import Verif.Spec.Mirror
/-!
# What events mean, one frame or connection at a time

Used to say that a queue keeps the net effect.  A later event about the same thing wins.
-/

namespace Verif

/-- the pair `o`, `t` is the connection between `a` and `b`, in any direction -/
def isConn (a b o t : FrameId) : Prop := (o = a ∧ t = b) ∨ (o = b ∧ t = a)

instance (a b o t : FrameId) : Decidable (isConn a b o t) := by unfold isConn; infer_instance

/-- does frame `f` exist after the events, if `before` says whether it existed before them? -/
def frameAfter (f : FrameId) : Bool → List Event → Bool
  | before, [] => before
  | before, .frameAdded g :: es => frameAfter f (if g = f then true else before) es
  | before, .frameRemoved g :: es => frameAfter f (if g = f then false else before) es
  | before, _ :: es => frameAfter f before es

/-- are `a` and `b` connected after the events? -/
def connAfter (a b : FrameId) : Bool → List Event → Bool
  | before, [] => before
  | before, .edgeAdded o t _ :: es => connAfter a b (if isConn a b o t then true else before) es
  | before, .edgeRemoved o t :: es => connAfter a b (if isConn a b o t then false else before) es
  | before, _ :: es => connAfter a b before es

/-- how often the connection of `a` and `b` is removed -/
def removals (a b : FrameId) : List Event → Nat
  | [] => 0
  | .edgeRemoved o t :: es => (if isConn a b o t then 1 else 0) + removals a b es
  | _ :: es => removals a b es

/-- an event that modifies the connection of `a` and `b` -/
def Event.modifies (a b : FrameId) : Event → Prop
  | .edgeModified o t _ _ => isConn a b o t
  | _ => False

instance (a b : FrameId) (e : Event) : Decidable (e.modifies a b) := by unfold Event.modifies; split <;> infer_instance

/-- an event that removes the connection of `a` and `b` -/
def Event.removes (a b : FrameId) : Event → Prop
  | .edgeRemoved o t => isConn a b o t
  | _ => False

instance (a b : FrameId) (e : Event) : Decidable (e.removes a b) := by unfold Event.removes; split <;> infer_instance

/-- item events -/
def Event.isItem : Event → Bool
  | .itemAdded .. => true
  | .itemRemoved .. => true
  | _ => false

/-- What is known about a graph at some moment: connections are symmetric, join two different frames, and these are known. -/
structure Mirror.Proper (m : Mirror) : Prop where
  symm : ∀ a b, (a, b) ∈ m.conns → (b, a) ∈ m.conns
  ne : ∀ a b, (a, b) ∈ m.conns → a ≠ b
  known : ∀ a b, (a, b) ∈ m.conns → a ∈ m.frames ∧ b ∈ m.frames

end Verif
