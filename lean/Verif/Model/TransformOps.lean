import Verif.Model.Transform
/-! The remaining calls of `TransformGraph` (src/graph/TransformGraph.hpp:228-284): transforms by edge descriptor, and the calls that
write them, in all overloads.  An edge or vertex descriptor that does not belong to the graph is undefined behaviour. -/

namespace Verif
namespace GS
variable {F : Type} [FrameProp F]

/-- the record of an edge descriptor -/
def findE {E : Type} (g : G F E) (e : EId) : Option (ERec E) := g.edges.find? (fun r => r.id = e)

/-- `Graph::setEdgeProperty(vertex_descriptor, vertex_descriptor, E)` (Graph.hpp:883-901) -/
def setEdgePropertyD {E : Type} [EdgeProp E] (vo vt : VId) (p : E) (s : GS F E) : Res (GS F E) Unit :=
  match s.g.findV vo, s.g.findV vt with
  | some ro, some rt =>
    match s.g.edge vo vt with
    | none => .throw (.unknownEdge (FrameProp.getId ro.prop) (FrameProp.getId rt.prop)) s
    | some e1 =>
      let g1 := s.g.setProp e1.id p
      match g1.edge vt vo with
      | none => .ub "setEdgeProperty: assert"
      | some e2 =>
        .ok () (notify (.edgeModified (FrameProp.getId ro.prop) (FrameProp.getId rt.prop) e1.id e2.id)
          { s with g := g1.setProp e2.id (EdgeProp.inverse p) })
  | _, _ => .ub "setEdgeProperty: dangling descriptor"

variable {T : Type} [Group T]

/-- `TransformGraph::getTransform(edge_descriptor)` (TransformGraph.hpp:228-232): the edge property is converted to its
`TransformWithCovariance` and back by the constructor Transform.hpp:53, which leaves the time default constructed. -/
def getTransformE (e : EId) (s : GS F (Tf T)) : Res (GS F (Tf T)) (Tf T) :=
  match findE s.g e with
  | none => .ub "getTransform: dangling edge"
  | some r => .ok ⟨0, r.prop.pose⟩ s

/-- `TransformGraph::updateTransform(vertex_descriptor, vertex_descriptor, Transform)` (TransformGraph.hpp:234-240) -/
def updateTransformD (u v : VId) (tf : Tf T) (s : GS F (Tf T)) : Res (GS F (Tf T)) Unit := setEdgePropertyD u v tf s

/-- `TransformGraph::updateTransform(FrameId, FrameId, Transform)` (TransformGraph.hpp:242-247) -/
def updateTransform (a b : FrameId) (tf : Tf T) (s : GS F (Tf T)) : Res (GS F (Tf T)) Unit := setEdgeProperty a b tf s

/-- `TransformGraph::updateTransform(edge_descriptor, Transform)` (TransformGraph.hpp:249-256) -/
def updateTransformE (e : EId) (tf : Tf T) (s : GS F (Tf T)) : Res (GS F (Tf T)) Unit :=
  match findE s.g e with
  | none => .ub "updateTransform: dangling edge"
  | some r => updateTransformD r.src r.tgt tf s

/-- `TransformGraph::addTransform(vertex_descriptor, vertex_descriptor, Transform)` (TransformGraph.hpp:258-264) -/
def addTransformD (u v : VId) (tf : Tf T) (s : GS F (Tf T)) : Res (GS F (Tf T)) Unit := addEdgeD u v tf s

/-- `TransformGraph::addTransform(FrameId, FrameId, Transform)` (TransformGraph.hpp:265-271) -/
def addTransform (a b : FrameId) (tf : Tf T) (s : GS F (Tf T)) : Res (GS F (Tf T)) Unit := addEdge a b tf s

/-- `TransformGraph::removeTransform(vertex_descriptor, vertex_descriptor)` (TransformGraph.hpp:273-277) -/
def removeTransformD (u v : VId) (s : GS F (Tf T)) : Res (GS F (Tf T)) Unit := removeEdgeD u v s

/-- `TransformGraph::removeTransform(FrameId, FrameId)` (TransformGraph.hpp:279-283) -/
def removeTransform (a b : FrameId) (s : GS F (Tf T)) : Res (GS F (Tf T)) Unit := removeEdge a b s

/-- one call of a user of a transform graph; the vertex and edge descriptors are those of the moment -/
inductive TCall (F T : Type)
  | add (a b : FrameId) (tf : Tf T)
  | addD (u v : VId) (tf : Tf T)
  | update (a b : FrameId) (tf : Tf T)
  | updateD (u v : VId) (tf : Tf T)
  | updateE (e : EId) (tf : Tf T)
  | remove (a b : FrameId)
  | removeD (u v : VId)
  | other (c : Cmd F (Tf T))

/-- execute one call -/
def texec : TCall F T → GS F (Tf T) → Res (GS F (Tf T)) Unit
  | .add a b tf, s => addTransform a b tf s
  | .addD u v tf, s => addTransformD u v tf s
  | .update a b tf, s => updateTransform a b tf s
  | .updateD u v tf, s => updateTransformD u v tf s
  | .updateE e tf, s => updateTransformE e tf s
  | .remove a b, s => removeTransform a b s
  | .removeD u v, s => removeTransformD u v s
  | .other c, s => exec c s

/-- A history; the caller catches every exception and goes on; `none` = some call had undefined behaviour. -/
def trun : List (TCall F T) → GS F (Tf T) → Option (GS F (Tf T))
  | [], s => some s
  | c :: cs, s =>
    match texec c s with
    | .ok _ s' => trun cs s'
    | .throw _ s' => trun cs s'
    | .ub _ => none

end GS
end Verif
