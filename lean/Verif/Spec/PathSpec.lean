import Verif.Spec.Transform
/-! # Specification: paths that watch the graph -/

namespace Verif
variable {F E : Type}

/-- `x` and `y` are consecutive frames of the list -/
def Consecutive (l : List FrameId) (x y : FrameId) : Prop := ∃ l1 l2, l = l1 ++ x :: y :: l2

/-- the events published between two states -/
def newEvents (s s' : GS F E) : List Event := (s'.trace.drop s.trace.length).map Prod.fst

end Verif
