import Verif.Model.TransformOps
import Verif.Spec.Paths
/-! # Specification: who wrote a transform

Independent of how the graph stores edges: which call writes the transform of which pair of frames, and what it means that a pair was
left alone since. -/

namespace Verif
namespace GS
variable {F T : Type} [FrameProp F] [Group T]

/-- in the state `s` the call, if it succeeds, writes `tf` as the transform from `a` to `b` -/
def TCall.Writes (s : GS F (Tf T)) (a b : FrameId) (tf : Tf T) : TCall F T → Prop
  | .add x y t | .update x y t | .other (.addEdge x y t) | .other (.setEdge x y t) => x = a ∧ y = b ∧ t = tf
  | .addD u v t | .updateD u v t => s.g.vertexOf a = some u ∧ s.g.vertexOf b = some v ∧ t = tf
  | .updateE e t => (∃ r, getEdge a b s = .ok r s ∧ r.id = e) ∧ t = tf
  | _ => False

/-- no edge from a frame to itself is added -/
def TCall.NoSelf : TCall F T → Prop
  | .add a b _ | .other (.addEdge a b _) => a ≠ b
  | .addD u v _ => u ≠ v
  | _ => True

/-- The calls do not write the pair `a`, `b`, in either direction, and it is connected after each of them. -/
def Untouched (a b : FrameId) : List (TCall F T) → GS F (Tf T) → Prop
  | [], _ => True
  | c :: cs, s =>
    match texec c s with
    | .ok _ s' => (∀ tf, ¬ c.Writes s a b tf ∧ ¬ c.Writes s b a tf) ∧ s'.Conn a b ∧ Untouched a b cs s'
    | .throw _ s' => s'.Conn a b ∧ Untouched a b cs s'
    | .ub _ => False

/-- in the state `s` the call is meant to cut the pair `a`, `b` -/
def TCall.Cuts (s : GS F (Tf T)) (a b : FrameId) : TCall F T → Prop
  | .remove x y | .other (.removeEdge x y) => (x = a ∧ y = b) ∨ (x = b ∧ y = a)
  | .removeD u v => (s.g.vertexOf a = some u ∧ s.g.vertexOf b = some v) ∨ (s.g.vertexOf b = some u ∧ s.g.vertexOf a = some v)
  | .other (.disconnectFrame f) => f = a ∨ f = b
  | _ => False

end GS
end Verif
