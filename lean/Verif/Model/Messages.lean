import Verif.Model.Basic
/-!
# The texts of the exceptions (src/graph/GraphExceptions.hpp, src/graph/Path.hpp, src/events/GraphEventExceptions.hpp) and of events

Text is a list of characters.  `boost::uuids::to_string` is a parameter.
-/

namespace Verif
namespace Msg

/-- an exception with what it was constructed from -/
inductive Err
  | invalidPath
  | edgeAlreadyExists (a b : List Char)
  | unknownTransform (a b : List Char)
  | unknownEdge (a b : List Char)
  | unknownFrame (a : List Char)
  | foundFrame (a : List Char)
  | frameAlreadyExists (a : List Char)
  | unknownItem (a : List Char) (uuid : Nat)
  | frameStillConnected (a : List Char)
  | noItemsOfType (a type : List Char)
  | nullVertex
  | emptyPath
  | cloneNotImplemented
  deriving DecidableEq, Repr

/-! the words in the texts (irreducible for the elaborator only) -/

@[irreducible] def invalidPathTxt : List Char := "Invalid Path".toList
@[irreducible] def edgeTxt : List Char := "Edge between ".toList
@[irreducible] def transformTxt : List Char := "Transform between ".toList
@[irreducible] def andTxt : List Char := " and ".toList
@[irreducible] def existsTxt : List Char := " already exists".toList
@[irreducible] def missingTxt : List Char := " doesn't exists".toList
@[irreducible] def frameTxt : List Char := "Frame ".toList
@[irreducible] def missing1Txt : List Char := " doesn't exist".toList
@[irreducible] def foundTxt : List Char := "Found Frame ".toList
@[irreducible] def itemTxt : List Char := "The item with uuid '".toList
@[irreducible] def notPartTxt : List Char := "' is not part of frame '".toList
@[irreducible] def quoteTxt : List Char := "'".toList
@[irreducible] def noItemsTxt : List Char := "There are no items of type '".toList
@[irreducible] def inFrameTxt : List Char := "' in frame '".toList
@[irreducible] def nullVertexTxt : List Char := "Encountered a null_vertex.".toList
@[irreducible] def emptyPathTxt : List Char := "Path is empty".toList
@[irreducible] def cloneTxt : List Char := "Clone method is not implemented for this event!".toList
@[irreducible] def connectedTxt : List Char := " is stil connected to the graph. All transforms".toList ++
  (" coming from or leading to this frame need to be removed".toList ++ " before removing the frame".toList)

/-- `msg` of the exceptions (src/graph/GraphExceptions.hpp:42-43, 51-52, 60-61, 69-70, 78-79, 88-89, 97-98, 106-108, 116-119, 127-128,
136-137; src/graph/Path.hpp:40-41; src/events/GraphEventExceptions.hpp:38-39) -/
def msg (uuidText : Nat → List Char) : Err → List Char
  | .invalidPath => invalidPathTxt
  | .edgeAlreadyExists a b => edgeTxt ++ (a ++ (andTxt ++ (b ++ existsTxt)))
  | .unknownTransform a b => transformTxt ++ (a ++ (andTxt ++ (b ++ missingTxt)))
  | .unknownEdge a b => edgeTxt ++ (a ++ (andTxt ++ (b ++ missingTxt)))
  | .unknownFrame a => frameTxt ++ (a ++ missing1Txt)
  | .foundFrame a => foundTxt ++ a
  | .frameAlreadyExists a => frameTxt ++ (a ++ existsTxt)
  | .unknownItem a u => itemTxt ++ (uuidText u ++ (notPartTxt ++ (a ++ quoteTxt)))
  | .frameStillConnected a => frameTxt ++ (a ++ connectedTxt)
  | .noItemsOfType a t => noItemsTxt ++ (t ++ (inFrameTxt ++ (a ++ quoteTxt)))
  | .nullVertex => nullVertexTxt
  | .emptyPath => emptyPathTxt
  | .cloneNotImplemented => cloneTxt

/-- `what()` (src/graph/GraphExceptions.hpp:44 and so on): `msg.c_str()`, of which a reader sees the characters before the first zero -/
def what (uuidText : Nat → List Char) (e : Err) : List Char := (msg uuidText e).takeWhile (· ≠ '\x00')

/-! the texts of the types of events (irreducible for the elaborator only) -/

@[irreducible] def edgeAddedTxt : List Char := "EDGE_ADDED".toList
@[irreducible] def edgeModifiedTxt : List Char := "EDGE_MODIFIED".toList
@[irreducible] def edgeRemovedTxt : List Char := "EDGE_REMOVED".toList
@[irreducible] def frameAddedTxt : List Char := "FRAME_ADDED".toList
@[irreducible] def frameRemovedTxt : List Char := "FRAME_REMOVED".toList
@[irreducible] def itemAddedTxt : List Char := "ITEM_ADDED_TO_FRAME".toList
@[irreducible] def itemRemovedTxt : List Char := "ITEM_REMOVED_FROM_FRAME".toList

/-- `operator<<` for events (src/events/GraphEvent.cpp:33-61); the types are set by the constructors (EdgeEvents.hpp:80, 98, 116;
FrameEvents.hpp:61, 73; ItemAddedEvent.hpp:38; ItemRemovedEvent.hpp:37) -/
def eventText : Event → List Char
  | .edgeAdded .. => edgeAddedTxt
  | .edgeModified .. => edgeModifiedTxt
  | .edgeRemoved .. => edgeRemovedTxt
  | .frameAdded .. => frameAddedTxt
  | .frameRemoved .. => frameRemovedTxt
  | .itemAdded .. => itemAddedTxt
  | .itemRemoved .. => itemRemovedTxt

end Msg
end Verif
