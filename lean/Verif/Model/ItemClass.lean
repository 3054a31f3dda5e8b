import Verif.Model.EnvireGraph
import Verif.Model.Dispatcher
/-! # Item classes and typed access

An item class is `Item<D>` or a class that derives from an item class, as `SpatialItem<D>` (src/items/SpatialItem.hpp:43) and the
classes of plugins do. Simplifications: single inheritance, and a class that overrides `getTypeInfo` returns its own `typeid`. -/

namespace Verif

/-- an item class; `overrides` tells whether a derived class overrides `getTypeInfo` -/
inductive ICls where
  | item (data : Nat)
  | derived (name : Nat) (base : ICls) (overrides : Bool)
deriving DecidableEq, Repr

namespace ICls

/-- the class whose `typeid` the virtual function `getTypeInfo` returns (src/items/Item.hpp:200-203); a derived class without its
own version inherits that of its base -/
def typeInfo : ICls → ICls
  | .item d => .item d
  | .derived n b true => .derived n b true
  | .derived _ b false => b.typeInfo

/-- whether `dynamic_pointer_cast<T>` of an object of this class gives a pointer: the class is `T` or derives from it -/
def castsTo : ICls → ICls → Bool
  | .item d, T => T = .item d
  | .derived n b o, T => T = .derived n b o || b.castsTo T

end ICls

/-- a program's items: the class of each, the identity of `typeid` per class, and the heap in which `getTypeIndex`
(src/items/ItemBase.hpp:120-123) is the `typeid` that `getTypeInfo` returns -/
structure ItemClasses (heap : ItemId → ItemObj) where
  cls : ItemId → ICls
  tid : ICls → TypeIdx
  inj : ∀ a b, tid a = tid b → a = b
  index : ∀ i, (heap i).type = tid (cls i).typeInfo

namespace EG
variable {E : Type} {heap : ItemId → ItemObj}

/-- walking over the range of `getItems<T>(frame)` (src/graph/EnvireGraph.hpp:283-333): the list under `typeid(T)`; every
dereference goes through `ItemBaseCaster<T>` (src/items/ItemBase.hpp:187-195), which dereferences a null pointer when the
`dynamic_pointer_cast` fails -/
def typedItems (C : ItemClasses heap) (f : FrameId) (T : ICls) (s : EG E) : Res (EG E) (List ItemId) :=
  match getItemsT f (C.tid T) s with
  | .ok l s' => if l.all (fun i => (C.cls i).castsTo T) then .ok l s' else .ub "null item dereferenced"
  | .throw e s' => .throw e s'
  | .ub u => .ub u

/-- `*getItem<T>(frame, k)` (src/graph/EnvireGraph.hpp:335-365) -/
def typedItem (C : ItemClasses heap) (f : FrameId) (T : ICls) (k : Int) (s : EG E) : Res (EG E) ItemId :=
  match getItem f (C.tid T) k s with
  | .ok i s' => if (C.cls i).castsTo T then .ok i s' else .ub "null item dereferenced"
  | .throw e s' => .throw e s'
  | .ub u => .ub u

end EG

/-- `GraphItemEventDispatcher<T>::notifyGraphEvent` (src/events/GraphItemEventDispatcher.hpp:60-86) with the pointers that the calls
get: `none` is the null pointer of a failed `dynamic_pointer_cast` -/
def classNotify {heap : ItemId → ItemObj} (C : ItemClasses heap) (T : ICls) (e : Event) : List (Event × Option ItemId) :=
  match e with
  | .itemAdded _ i => if (heap i).type = C.tid T then [(e, if (C.cls i).castsTo T then some i else none)] else []
  | .itemRemoved _ i => if (heap i).type = C.tid T then [(e, if (C.cls i).castsTo T then some i else none)] else []
  | _ => []

end Verif
