/-!
# Outcomes, identifiers, exceptions, events

Common vocabulary of the model.  Nothing in here contains program logic.
-/

namespace Verif

/-- `using FrameId = std::string` (src/items/ItemBase.hpp:43). -/
abbrev FrameId := String

/-- `GraphTraits::vertex_descriptor` (src/graph/GraphTypes.hpp).  In C++ the address of a list node; here a number.
A null descriptor is `none : Option VId`.  Simplification: numbers of removed vertices are never given out again, while
the address of a deleted node may be reused by a later allocation (`Model/Reuse.lean` and C99 show when this makes a difference). -/
abbrev VId := Nat

/-- `GraphTraits::edge_descriptor` (src/graph/GraphTypes.hpp).  Boost compares edge descriptors by the address of the edge
property; here each edge has its own number. Same simplification as for `VId`. -/
abbrev EId := Nat

/-- `ItemBase::Ptr` (src/items/ItemBase.hpp:54-56): a pointer to an item object, that is an index into the item heap of the
model. -/
abbrev ItemId := Nat

/-- `std::type_index` of an item (src/items/ItemBase.hpp:120-123). -/
abbrev TypeIdx := Nat

/-- The C++ exceptions that the modelled functions throw (src/graph/GraphExceptions.hpp, src/items/ItemBase.hpp and the
standard ones).  `runtimeError` is a plain `std::runtime_error`, `outOfRange` is `std::out_of_range`. -/
inductive Exn
  | unknownFrame (f : FrameId)
  | frameAlreadyExists (f : FrameId)
  | frameStillConnected (f : FrameId)
  | unknownEdge (o t : FrameId)
  | edgeAlreadyExists (o t : FrameId)
  | unknownTransform (o t : FrameId)
  | invalidPath
  | emptyPath
  | nullVertex
  | noItemsOfType (f : FrameId)
  | unknownItem
  | outOfRange
  | runtimeError (msg : String)
  deriving DecidableEq, Repr

/-- Outcome of a C++ call on a state of type `σ` with return type `α`.
* `ok a s`: returned `a`, the state is `s`;
* `throw e s`: threw `e`; `s` is the state that the caller sees afterwards;
* `ub r`: undefined behaviour, a failing `assert`, or an endless loop. -/
inductive Res (σ α : Type)
  | ok (a : α) (s : σ)
  | throw (e : Exn) (s : σ)
  | ub (reason : String)
  deriving DecidableEq, Repr

/-- The events of src/events/*.hpp: FrameAddedEvent, FrameRemovedEvent (FrameEvents.hpp), EdgeAddedEvent, EdgeModifiedEvent,
EdgeRemovedEvent (EdgeEvents.hpp), ItemAddedEvent, ItemRemovedEvent (ItemAddedEvent.hpp, ItemRemovedEvent.hpp).  Edge and
item pointers in the events are kept as numbers. -/
inductive Event
  | frameAdded (f : FrameId)
  | frameRemoved (f : FrameId)
  | edgeAdded (o t : FrameId) (e : EId)
  | edgeModified (o t : FrameId) (e inv : EId)
  | edgeRemoved (o t : FrameId)
  | itemAdded (f : FrameId) (i : ItemId)
  | itemRemoved (f : FrameId) (i : ItemId)
  deriving DecidableEq, Repr

/-- What `Graph<F,E>` requires from the frame property `F` (src/graph/Graph.hpp:44-60): a default constructor, `setId` and
`getId`.  The law is what the documentation asks for. -/
class FrameProp (F : Type) where
  dflt : F
  setId : FrameId → F → F
  getId : F → FrameId
  getId_setId : ∀ i f, getId (setId i f) = i

/-- What `Graph<F,E>` requires from the edge property `E` (src/graph/Graph.hpp:44-60): `inverse()`. No law is assumed. -/
class EdgeProp (E : Type) where
  inverse : E → E

end Verif
