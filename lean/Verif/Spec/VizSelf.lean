import Verif.Spec.Viz
/-! # Specification: what the structure visualization shows if frames have edges to themselves -/

namespace Verif
namespace Viz

/-- Like `Faithful`, but for connections between different frames; a self edge is shown as two links. -/
structure FaithfulLoops {F T : Type} [FrameProp F] [Group T] (s : GS F (Tf T)) (r : FrameId) (sc : Scene T) : Prop where
  top : sc.top = some r
  nodup : sc.frames.Nodup
  frames : ∀ f, f ∈ sc.frames ↔ Joined s r f
  root : ∀ p, Place sc r r p ↔ p = 1
  pose : ∀ f, f ≠ r → Joined s r f → ∃ tf, GS.getTransform r f s = .ok tf s ∧ ∀ p, Place sc r f p ↔ p = tf.pose
  once : ∀ a b, a ≠ b → Joined s r a → s.Conn a b →
    ((sc.tfs.map (fun x => (x.1, x.2.1)) ++ sc.links).filter (Pairs a b)).length = 1
  loops : ∀ a, Joined s r a → s.Conn a a → (sc.links.filter (Pairs a a)).length = 2
  only : ∀ o t, (o, t) ∈ sc.tfs.map (fun x => (x.1, x.2.1)) ++ sc.links → s.Conn o t ∧ Joined s r o

end Viz
end Verif
