import Verif.Model.Viz
import Verif.Spec.Paths
import Verif.Spec.Transform
/-! # Specification: what the structure visualization should show -/

namespace Verif
namespace Viz

/-- What happens to the list of possible roots: new data with these frames, the user chooses, the window is refreshed. -/
inductive VizOp
  | update (names : List FrameId)
  | choose (values : List FrameId)
  | refresh

/-- one of them -/
def VizOp.app (v : Sel) : VizOp → Sel
  | .update names => v.initNodeList names
  | .choose values => v.setNodes values
  | .refresh => v.updateMainNode

/-- all of them in order -/
def play (ops : List VizOp) : Sel := ops.foldl VizOp.app {}

/-- The window is right: it offers the frames of the graph, each once, and shows the root that is drawn as chosen. -/
def Sel.Right (v : Sel) (names : List FrameId) : Prop :=
  v.offer.Perm names ∧ v.sel = if names = [] then none else some v.currentRoot

/-- States of a window that is refreshed after each update and whose user chooses from the offered names (the values are these names in
another order, the chosen one first).  The second argument: the frames of the last update. -/
inductive Calm : Sel → List FrameId → Prop
  | start : Calm {} []
  | update {v : Sel} {l : List FrameId} (names : List FrameId) : Calm v l → names.Nodup → "" ∉ names →
      Calm (v.initNodeList names).updateMainNode names
  | choose {v : Sel} {l : List FrameId} (values : List FrameId) : Calm v l → values.Perm v.offer → Calm (v.setNodes values) l
  | refresh {v : Sel} {l : List FrameId} : Calm v l → Calm v.updateMainNode l

/-- `f` has the pose `p` as seen from the root `r` of the scene -/
inductive Place {T : Type} [Group T] (sc : Scene T) (r : FrameId) : FrameId → T → Prop
  | root : Place sc r r 1
  | child {o t : FrameId} {p q : T} : Place sc r o p → (o, t, q) ∈ sc.tfs → Place sc r t (p * q)

/-- does the pair consist of these two frames -/
def Pairs (a b : FrameId) (x : FrameId × FrameId) : Bool := x = (a, b) || x = (b, a)

/-- The scene shows the part of the graph that can be reached from the root `r`: each frame once, at the pose that `getTransform` tells;
each connection once, as a transformation or as a link; nothing else. -/
structure Faithful {F T : Type} [FrameProp F] [Group T] (s : GS F (Tf T)) (r : FrameId) (sc : Scene T) : Prop where
  top : sc.top = some r
  nodup : sc.frames.Nodup
  frames : ∀ f, f ∈ sc.frames ↔ Joined s r f
  root : ∀ p, Place sc r r p ↔ p = 1
  pose : ∀ f, f ≠ r → Joined s r f → ∃ tf, GS.getTransform r f s = .ok tf s ∧ ∀ p, Place sc r f p ↔ p = tf.pose
  once : ∀ a b, Joined s r a → s.Conn a b →
    ((sc.tfs.map (fun x => (x.1, x.2.1)) ++ sc.links).filter (Pairs a b)).length = 1
  only : ∀ o t, (o, t) ∈ sc.tfs.map (fun x => (x.1, x.2.1)) ++ sc.links → s.Conn o t ∧ Joined s r o

end Viz
end Verif
