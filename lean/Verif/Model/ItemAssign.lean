import Verif.Model.EnvireGraph
/-!
# Assigning to items that may be in a graph (src/items/Item.hpp:98-116)

Both assignment operators of `Item<T>` copy or move time, id, frame name and content.  The items of the model have a type and a frame name, so
only the frame name is seen here; the two items have the same type (otherwise the assignment is not compiled).  `ItemBase::operator=`
(ItemBase.cpp:45-53) copies nothing, so the callbacks stay.  A graph holds pointers to items and is not told.
-/

namespace Verif
namespace EG
variable {E : Type} [EdgeProp E]

/-- `*p = *q` (Item.hpp:98-106) -/
def assignItem (p q : ItemId) (s : EG E) : EG E := setItemFrame p (s.heap q).frame s

/-- `*p = std::move(*q)` (Item.hpp:108-116).  `left` is what the string of `q` holds afterwards; the standard leaves that open. -/
def moveItem (p q : ItemId) (left : FrameId) (s : EG E) : EG E := setItemFrame q left (assignItem p q s)

/-- calls of the graph and assignments -/
inductive ACmd (E : Type)
  | call (c : Cmd E)
  | assign (p q : ItemId)
  | move (p q : ItemId) (left : FrameId)

/-- execute one of them -/
def aexec : ACmd E → EG E → Res (EG E) Unit
  | .call c, s => exec c s
  | .assign p q, s => .ok () (assignItem p q s)
  | .move p q left, s => .ok () (moveItem p q left s)

/-- A history; the caller catches every exception.  `none` = undefined behaviour. -/
def arun : List (ACmd E) → EG E → Option (EG E)
  | [], s => some s
  | c :: cs, s =>
    match aexec c s with
    | .ok _ s' => arun cs s'
    | .throw _ s' => arun cs s'
    | .ub _ => none

end EG
end Verif
