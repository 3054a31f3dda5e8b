import Verif.Model.Graph
import Mathlib.Data.List.Chain
/-! # Specification of paths between frames -/

namespace Verif

/-- `l` is a path from `a` to `b`: consecutive frames are connected. The number of frames on it is `l.length`. -/
structure IsPath {α : Type} (conn : α → α → Prop) (a b : α) (l : List α) : Prop where
  first : l.head? = some a
  last : l.getLast? = some b
  steps : l.IsChain conn

/-- there is an edge from `a` to `b` as far as the API tells -/
def GS.Conn {F E : Type} [FrameProp F] [EdgeProp E] (s : GS F E) (a b : FrameId) : Prop := GS.containsEdge a b s = .ok true s

end Verif
