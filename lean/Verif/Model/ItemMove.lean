import Verif.Model.Items
/-!
# Moving items (src/items/Item.hpp, SpatialItem.hpp)

`leftFrame` and `leftData` are what the environment leaves in a moved-from string and in moved-from data ("valid but unspecified"); a moved-from
time or id (plain numbers) keeps its value.

`SpatialItem` declares a destructor (SpatialItem.hpp:59), so the compiler declares no move constructor and no move assignment for it: moving a
`SpatialItem` is copying it (`Items.copyItem`, `Items.assign`).
-/

namespace Verif
namespace Items
variable {D V : Type}

/-- `Item(Item&&)` (Item.hpp:78-84; `ItemBase(ItemBase&&)` moves nothing, ItemBase.cpp:41-43), member by member -/
def moveConstruct (leftFrame : FrameId) (leftData : D) (a : Nat) (s : Items D V) : Nat × Items D V :=
  let o := s.objs a
  let s1 : Items D V := { s with
    objs := fun x => if x = s.fresh then ⟨.item, o.time, o.uuid, o.frame, o.data, none, []⟩ else s.objs x
    fresh := s.fresh + 1 }
  (s.fresh, (s1.upd a fun x => { x with frame := leftFrame }).upd a fun x => { x with data := leftData })

/-- `operator=(Item&&)` (Item.hpp:108-116; `ItemBase::operator=` does nothing, ItemBase.cpp:50-53) -/
def moveAssign (leftFrame : FrameId) (leftData : D) (to fr : Nat) (s : Items D V) : Items D V :=
  let s1 := s.upd to fun x => { x with time := (s.objs fr).time }
  let s2 := s1.upd to fun x => { x with uuid := (s1.objs fr).uuid }
  let s3 := (s2.upd to fun x => { x with frame := (s2.objs fr).frame }).upd fr fun x => { x with frame := leftFrame }
  (s3.upd to fun x => { x with data := (s3.objs fr).data }).upd fr fun x => { x with data := leftData }

/-- what `T b(std::move(a))` does for `T` = `Item<D>` or `SpatialItem<D>` -/
def moveNew (spatial : Bool) (leftFrame : FrameId) (leftData : D) (a : Nat) (s : Items D V) : Nat × Items D V :=
  if spatial then copyItem true a s else moveConstruct leftFrame leftData a s

/-- what `b = std::move(a)` does -/
def moveTo (spatial : Bool) (leftFrame : FrameId) (leftData : D) (to fr : Nat) (s : Items D V) : Items D V :=
  if spatial then assign true to fr s else moveAssign leftFrame leftData to fr s

end Items
end Verif
