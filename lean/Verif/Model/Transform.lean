import Verif.Model.Graph
import Mathlib.Algebra.Group.Defs
/-!
# `Transform`, `Path` and `TransformGraph` (src/items/Transform.hpp, src/graph/Path.cpp, src/graph/TransformGraph.hpp)

Simplification: the member `transform` (`base::TransformWithCovariance`, Rock's base-types) is an element of an arbitrary group
`T`: exact arithmetic, no covariance, no invalid (NaN) transforms.  `base::Time` is a number of microseconds, 0 by default.
-/

namespace Verif

/-- `envire::core::Transform` (src/items/Transform.hpp:41-45) -/
structure Tf (T : Type) where
  time : Int
  pose : T
  deriving DecidableEq, Repr

namespace Tf
variable {T : Type} [Group T]

/-- `Transform(Position, Orientation)` with zero and identity (Transform.hpp:54-55), which is what `TransformGraph` starts with;
the time is default constructed. -/
def ident : Tf T := ⟨0, 1⟩

/-- `Transform::operator*` (Transform.hpp:86-98) -/
def mul (a b : Tf T) : Tf T := ⟨if a.time > b.time then a.time else b.time, a.pose * b.pose⟩

/-- `Transform::inverse` (Transform.hpp:100-103) -/
def inverse (a : Tf T) : Tf T := ⟨a.time, a.pose⁻¹⟩

/-- `Transform::setIdentity` (Transform.hpp:116-120): the time stays. (The covariance stays too; it is not modelled.) -/
def setIdentity (a : Tf T) : Tf T := ⟨a.time, 1⟩

end Tf

instance {T : Type} [Group T] : EdgeProp (Tf T) := ⟨Tf.inverse⟩

/-- `envire::core::Path` (src/graph/Path.hpp, Path.cpp).  `auto` is `autoUpdating`; `edges` is the set of edges of the path. -/
structure Path where
  frames : List FrameId
  edges : List (FrameId × FrameId)
  dirty : Bool
  auto : Bool
  deriving DecidableEq, Repr

namespace Path

/-- `Path::createEdges` (Path.cpp:111-122); a set, so repetitions do not matter -/
def createEdges (frames : List FrameId) : List (FrameId × FrameId) := frames.zip frames.tail

/-- `Path::Path(frames)` (Path.cpp:35-36) -/
def plain (frames : List FrameId) : Path := ⟨frames, [], false, false⟩

/-- `Path::Path(frames, graph)` (Path.cpp:38-42) -/
def subscribed (frames : List FrameId) : Path := ⟨frames, createEdges frames, false, true⟩

/-- `Path::edgeRemoved` (Path.cpp:44-56) -/
def edgeRemoved (p : Path) (o t : FrameId) : Path :=
  if p.dirty then p
  else if (o, t) ∈ p.edges then { p with dirty := true }
  else p

/-- Reaction of a path to an event: the dispatcher (GraphEventDispatcher.cpp:44-75) calls `edgeRemoved`; all other handlers are
the empty ones of the base class.  A path that is not subscribed gets no events. -/
def notify (p : Path) : Event → Path
  | .edgeRemoved o t => if p.auto then p.edgeRemoved o t else p
  | _ => p

/-- a sequence of events -/
def observe (p : Path) (evs : List Event) : Path := evs.foldl notify p

/-- `Path::setFrames` (Path.cpp:105-109) -/
def setFrames (p : Path) (frames : List FrameId) : Path := { p with frames := frames, edges := createEdges frames }

/-- `Path::unsubscribe` (Path.cpp:92-98) -/
def unsubscribe (p : Path) : Path := { p with dirty := false, edges := [], auto := false }

/-- `Path::getOrigin` (Path.cpp:63-68) -/
def getOrigin (p : Path) : Res Path FrameId :=
  match p.frames.head? with
  | none => .throw .emptyPath p
  | some f => .ok f p

/-- `Path::getTarget` (Path.cpp:70-75) -/
def getTarget (p : Path) : Res Path FrameId :=
  match p.frames.getLast? with
  | none => .throw .emptyPath p
  | some f => .ok f p

/-- `Path::at` (Path.cpp:134-137): `vector::at`; a negative index becomes a huge one. -/
def at' (p : Path) (i : Int) : Res Path FrameId :=
  if i < 0 then .throw .outOfRange p
  else
    match p.frames[i.toNat]? with
    | none => .throw .outOfRange p
    | some f => .ok f p

end Path

namespace GS
variable {F T : Type} [FrameProp F] [Group T]

/-- `Graph::getPath` (Graph.hpp:1060-1073) -/
def getPath {E : Type} [EdgeProp E] (o t : FrameId) (auto : Bool) (s : GS F E) : Res (GS F E) Path :=
  match getFrames o t s with
  | .ok l s' => .ok (if auto then .subscribed l else .plain l) s'
  | .throw x s' => .throw x s'
  | .ub r => .ub r

/-- The loop TransformGraph.hpp:119-125: product of the edge transforms along a list of vertices.  `none`: an edge is missing (its
descriptor is used without check) or the list is empty. -/
def mulPath (g : G F (Tf T)) : T → List VId → Option T
  | _, [] => none
  | acc, [_] => some acc
  | acc, u :: v :: l =>
    match g.edge u v with
    | none => none
    | some e => mulPath g (acc * e.prop.pose) (v :: l)

/-- the `throw UnknownTransformException(getFrameId(origin), getFrameId(target))` of TransformGraph.hpp:100,130 -/
def unknownTransform {α : Type} (u v : VId) (s : GS F (Tf T)) : Res (GS F (Tf T)) α :=
  match s.g.findV u, s.g.findV v with
  | some ru, some rv => .throw (.unknownTransform (FrameProp.getId ru.prop) (FrameProp.getId rv.prop)) s
  | _, _ => .ub "getFrameId: dangling descriptor"

/-- `TransformGraph::getTransform(vertex_descriptor, vertex_descriptor)` (TransformGraph.hpp:94-134) -/
def getTransformV (u v : VId) (s : GS F (Tf T)) : Res (GS F (Tf T)) (Tf T) :=
  if s.g.edges.length = 0 then unknownTransform u v s
  else
    match s.g.edge u v with
    | some e => .ok e.prop s
    | none =>
      match searchEvents s.g u with
      | none => .ub "breadthFirstSearch: endless loop"
      | some evs =>
        match searchVisitor v [] evs with
        | none => unknownTransform u v s
        | some none => .ub "discover_vertex: endless loop"
        | some (some tree) =>
          match mulPath s.g 1 tree with
          | none => .ub "getTransform: missing edge"
          | some t => .ok ⟨0, t⟩ s

/-- `TransformGraph::getTransform(FrameId, FrameId)` (TransformGraph.hpp:137-145) -/
def getTransform (o t : FrameId) (s : GS F (Tf T)) : Res (GS F (Tf T)) (Tf T) :=
  match s.g.vertexOf o with
  | none => .throw (.unknownFrame o) s
  | some u =>
    match s.g.vertexOf t with
    | none => .throw (.unknownFrame t) s
    | some v => getTransformV u v s

/-- The loops TransformGraph.hpp:161-171 and 177-187: from a vertex up to the root of the view.  A missing edge is skipped.  First
argument: fuel. -/
def tfToRoot (w : TreeView) (s : GS F (Tf T)) : Nat → Option VId → T → Res (GS F (Tf T)) T
  | fuel, od, acc =>
    if w.root = od then .ok acc s
    else
      match w.getParent od with
      | .throw x _ => .throw x s
      | .ub r => .ub r
      | .ok p _ =>
        match fuel with
        | 0 => .ub "getTransform: endless loop"
        | n + 1 =>
          match od.bind s.g.findV with
          | none => .ub "boost::edge: dangling descriptor"
          | some r =>
            match p.bind (s.g.edge r.id) with
            | some e => tfToRoot w s n p (acc * e.prop.pose)
            | none => tfToRoot w s n p acc

/-- `TransformGraph::getTransform(vertex_descriptor, vertex_descriptor, TreeView)` (TransformGraph.hpp:148-189) -/
def getTransformViewV (u v : VId) (w : TreeView) (s : GS F (Tf T)) : Res (GS F (Tf T)) (Tf T) :=
  if u = v then .ok Tf.ident s
  else
    match tfToRoot w s (w.tree.length + 1) (some u) 1 with
    | .throw x s' => .throw x s'
    | .ub r => .ub r
    | .ok a _ =>
      match tfToRoot w s (w.tree.length + 1) (some v) 1 with
      | .throw x s' => .throw x s'
      | .ub r => .ub r
      | .ok b _ => .ok ⟨0, a * b⁻¹⟩ s

/-- `TransformGraph::getTransform(FrameId, FrameId, TreeView)` (TransformGraph.hpp:221-227) -/
def getTransformView (o t : FrameId) (w : TreeView) (s : GS F (Tf T)) : Res (GS F (Tf T)) (Tf T) :=
  match s.g.vertexOf o with
  | none => .throw (.unknownFrame o) s
  | some u =>
    match s.g.vertexOf t with
    | none => .throw (.unknownFrame t) s
    | some v => getTransformViewV u v w s

/-- The loop TransformGraph.hpp:211-217: `tf * getTransform(f, path[i+1]) * ...` -/
def mulSteps (s : GS F (Tf T)) : Tf T → FrameId → List FrameId → Res (GS F (Tf T)) (Tf T)
  | acc, _, [] => .ok acc s
  | acc, f, f' :: l =>
    match getTransform f f' s with
    | .throw x s' => .throw x s'
    | .ub r => .ub r
    | .ok t _ => mulSteps s { acc with pose := acc.pose * t.pose } f' l

/-- Result of a call that reads the graph and may change the path. -/
def onPath {α : Type} (p : Path) : Res (GS F (Tf T)) α → Res Path α
  | .ok a _ => .ok a p
  | .throw x _ => .throw x p
  | .ub r => .ub r

/-- TransformGraph.hpp:210-218: product along the frames of the path -/
def pathProduct (p : Path) (s : GS F (Tf T)) : Res Path (Tf T) :=
  match p.frames with
  | f0 :: f1 :: l =>
    match getTransform f0 f1 s with
    | .throw x _ => .throw x p
    | .ub r => .ub r
    | .ok t _ => onPath p (mulSteps s t f1 l)
  | _ => .ub "getTransform: index out of range"

/-- `TransformGraph::getTransform(std::shared_ptr<Path>)` (TransformGraph.hpp:191-219).  The graph is const; the path changes. -/
def getTransformPath (p : Path) (s : GS F (Tf T)) : Res Path (Tf T) :=
  if p.frames.length ≤ 1 then .ok Tf.ident p
  else if p.dirty then
    match p.getOrigin, p.getTarget with
    | .ok o _, .ok t _ =>
      match getFrames o t s with
      | .throw x _ => .throw x p
      | .ub r => .ub r
      | .ok l _ =>
        let p1 := { p.setFrames l with dirty := false }
        if p1.frames.length = 0 then .throw .invalidPath p1
        else pathProduct p1 s
    | _, _ => .throw .emptyPath p
  else pathProduct p s

end GS
end Verif
