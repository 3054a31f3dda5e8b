import Verif.Model.GraphAssign
/-! The wording of the property about the assignment of graphs. -/

namespace Verif

/-- the same outcome in another state -/
def Res.inState {σ τ α : Type} (w : τ) : Res σ α → Res τ α
  | .ok a _ => .ok a w
  | .throw x _ => .throw x w
  | .ub r => .ub r

/-- undefined behaviour -/
def Res.undefined {σ α : Type} : Res σ α → Prop
  | .ub _ => True
  | _ => False

namespace AG
variable {F E : Type}

/-- since the assignment of `s`, its graph sent an event that `f` was removed -/
def removedSince (s : GS F E) (f : FrameId) (w : AG F E) : Prop := .frameRemoved f ∈ (w.a.trace.drop s.trace.length).map Prod.fst

/-- the vertex that `f` had when `s` was assigned exists no more -/
def lost (s : GS F E) (f : FrameId) (w : AG F E) : Prop := w.alive = false ∨ removedSince s f w

/-- a vertex list as seen by the user -/
def frameList (l : List (VRec F)) : List F := l.map VRec.prop

/-- an edge list as seen by the user: properties of the end points and of the edge -/
def edgeList (l : List (VRec F)) (es : List (ERec E)) : List (Option F × Option F × E) :=
  es.map (fun e => ((l.find? (fun r => r.id = e.src)).map VRec.prop, (l.find? (fun r => r.id = e.tgt)).map VRec.prop, e.prop))

end AG
end Verif
