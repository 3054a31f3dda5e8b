import Verif.Model.Transform
import Verif.Spec.TreeView
/-! # Specification: transforms along paths, consistent poses -/

namespace Verif
variable {F T : Type} [FrameProp F] [Group T]

/-- `t` is the product of the transforms of the edges along the frames of the list (as `getEdgeProperty` shows them) -/
inductive Along (s : GS F (Tf T)) : List FrameId → T → Prop
  | one (a : FrameId) : Along s [a] 1
  | step {a b : FrameId} {p : Tf T} {l : List FrameId} {t : T} :
      GS.getEdgeProperty a b s = .ok p s → Along s (b :: l) t → Along s (a :: b :: l) (p.pose * t)

/-- all transforms of edges are the ones between the given poses of the frames -/
def Consistent (s : GS F (Tf T)) (pose : FrameId → T) : Prop :=
  ∀ a b p, GS.getEdgeProperty a b s = .ok p s → p.pose = (pose a)⁻¹ * pose b

/-- there is a path from `a` to `b` -/
def Joined {E : Type} [EdgeProp E] (s : GS F E) (a b : FrameId) : Prop := ∃ l, IsPath s.Conn a b l

/-- the frames `a` and `b` are child and parent in the view -/
def ViewConn {E : Type} [EdgeProp E] (s : GS F E) (w : TreeView) (a b : FrameId) : Prop :=
  ∃ u v, GS.getVertex a s = .ok u s ∧ GS.getVertex b s = .ok v s ∧ w.TreeEdge u v

/-- every connection of the view is (still) there in the graph -/
def TreeView.Intact {E : Type} (g : G F E) (w : TreeView) : Prop := ∀ u p, w.parentOf u = some p → g.Adj u p

end Verif
