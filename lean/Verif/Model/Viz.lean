import Verif.Model.Transform
/-!
# The structure visualization (viz/EnvireGraphStructureVisualization/EnvireGraphStructureVisualization.cpp)

Trusted (vizkit3d, not in the repository): `TransformerGraph` finds a frame by its name, `addFrame` adds it, `setTransformation(o, t, p)`
places `t` below `o` with the pose `p`; the scene below records these calls.  `convertTransform` (:197-205) is exact and keeps the pose.
Simplification: a name is the same as QString and as std::string (no NUL characters, valid UTF-8).
-/

namespace Verif
namespace Viz

/-! ## the list of possible roots -/

/-- The members `nodes`, `nextNodes`, `currentRoot` of `Data` (:39-47) and what the window shows: `offer`, the names in the list that the
user can choose from, and `sel`, the name that is shown as chosen. -/
structure Sel where
  nodes : List FrameId := []
  nextNodes : List FrameId := []
  currentRoot : FrameId := ""
  offer : List FrameId := []
  sel : Option FrameId := none
  deriving DecidableEq, Repr

namespace Sel

/-- `getNodes` (:49-61) -/
def getNodes (v : Sel) : List FrameId :=
  if v.currentRoot ≠ "" ∧ v.nextNodes ≠ [] then v.currentRoot :: v.nextNodes.erase v.currentRoot else v.nextNodes

/-- `setNodes` (:63-71), called when the user chooses the first one of the values. -/
def setNodes (values : List FrameId) (v : Sel) : Sel :=
  match values with
  | [] => { v with nodes := [] }
  | r :: _ => { v with nodes := values, currentRoot := r, sel := some r }

/-- `updateMainNode` (:88-103), the part about the list.  `emit propertyChanged` makes the window read the property again: it offers
the names of `getNodes` and shows the first one as chosen. -/
def updateMainNode (v : Sel) : Sel :=
  if v.nextNodes ≠ v.nodes then { v with nodes := v.nextNodes, offer := v.getNodes, sel := v.getNodes.head? } else v

/-- `initNodeList` (:111-137) for the names of the frames in the order of `getVertices` -/
def initNodeList (names : List FrameId) (v : Sel) : Sel :=
  match names with
  | [] => { v with nextNodes := [], currentRoot := "" }
  | f :: _ =>
    if v.currentRoot ∈ names then { v with nextNodes := v.currentRoot :: names.filter (fun x => x ≠ v.currentRoot) }
    else { v with nextNodes := names, currentRoot := f }

end Sel

/-! ## the scene -/

/-- Content of the `TransformerGraph`: names of its frames, the calls of `setTransformation`, the links of the cross edges, the
argument of `makeRoot`. -/
structure Scene (T : Type) where
  frames : List FrameId := []
  tfs : List (FrameId × FrameId × T) := []
  links : List (FrameId × FrameId) := []
  top : Option FrameId := none
  deriving DecidableEq, Repr

/-- `if(getFrame(...) == nullptr) addFrame(...)` (:162-166) -/
def Scene.need {T : Type} (sc : Scene T) (f : FrameId) : Scene T :=
  if f ∈ sc.frames then sc else { sc with frames := sc.frames ++ [f] }

section
variable {F T : Type} [FrameProp F] [Group T]

/-- the slot of `edgeAdded` (:153-169) -/
def onEdge (s : GS F (Tf T)) (o t : VId) (sc : Scene T) : Res (GS F (Tf T)) (Scene T) :=
  match GS.getTransformV o t s with
  | .throw x s' => .throw x s'
  | .ub r => .ub r
  | .ok tf _ =>
    match s.g.findV o, s.g.findV t with
    | some ro, some rt =>
      let sc1 := (sc.need (FrameProp.getId ro.prop)).need (FrameProp.getId rt.prop)
      .ok { sc1 with tfs := sc1.tfs ++ [(FrameProp.getId ro.prop, FrameProp.getId rt.prop, tf.pose)] } s
    | _, _ => .ub "getFrameId: dangling descriptor"

/-- the slot of `crossEdgeAdded` (:171-187); without the asserts the null pointers are used -/
def onCross (s : GS F (Tf T)) (c : CrossEdge) (sc : Scene T) : Res (GS F (Tf T)) (Scene T) :=
  match s.g.findV c.origin, s.g.findV c.target with
  | some ro, some rt =>
    if FrameProp.getId ro.prop ∈ sc.frames ∧ FrameProp.getId rt.prop ∈ sc.frames then
      .ok { sc with links := sc.links ++ [(FrameProp.getId ro.prop, FrameProp.getId rt.prop)] } s
    else .ub "drawGraphStructure: assert(srcNode), assert(tarNode)"
  | _, _ => .ub "getFrameId: dangling descriptor"

/-- the slots for the signals of the view, in order.  They only read the graph, so it makes no difference that they run while the view
is built. -/
def slots (s : GS F (Tf T)) : List ViewSignal → Scene T → Res (GS F (Tf T)) (Scene T)
  | [], sc => .ok sc s
  | .edgeAdded o t :: l, sc =>
    match onEdge s o t sc with
    | .ok sc' _ => slots s l sc'
    | .throw x s' => .throw x s'
    | .ub r => .ub r
  | .crossEdgeAdded c :: l, sc =>
    match onCross s c sc with
    | .ok sc' _ => slots s l sc'
    | .throw x s' => .throw x s'
    | .ub r => .ub r
  | .edgeRemoved _ _ :: l, sc => slots s l sc

/-- `drawGraphStructure` (:145-194) -/
def drawGraphStructure (root : FrameId) (s : GS F (Tf T)) : Res (GS F (Tf T)) (Scene T) :=
  if s.g.verts.length = 0 then .ok {} s
  else
    match GS.getTreeFresh root s with
    | .throw x s' => .throw x s'
    | .ub r => .ub r
    | .ok w _ =>
      match slots s w.signals {} with
      | .throw x s' => .throw x s'
      | .ub r => .ub r
      | .ok sc _ => .ok { sc with top := some root } s

/-- the names of the frames (:115-119) -/
def names (s : GS F (Tf T)) : List FrameId := s.g.verts.map (fun r => FrameProp.getId r.prop)

/-- `updateDataIntern` (:105-109): the new list and the new scene -/
def updateDataIntern (v : Sel) (s : GS F (Tf T)) : Res (GS F (Tf T)) (Sel × Scene T) :=
  match drawGraphStructure (v.initNodeList (names s)).currentRoot s with
  | .ok sc _ => .ok (v.initNodeList (names s), sc) s
  | .throw x s' => .throw x s'
  | .ub r => .ub r

end
end Viz
end Verif
