import Verif.Model.Basic
/-!
# Item objects: copies, clones, and the contents-changed signal (src/items/Item.hpp, ItemBase.hpp/.cpp, SpatialItem.hpp)

Objects by address.  The user data `D` is a value (copying it gives an independent value).  Boundaries of spatial items are shared
pointers: addresses of volumes with content `V`.
-/

namespace Verif

/-- the class an object was created with: `Item<D>`, `SpatialItem<D>`, or another class derived from `Item<D>` -/
inductive ItemCls | item | spatial | derived (n : Nat)
  deriving DecidableEq, Repr

/-- Members of `Item<D>` (SpatioTemporal.hpp:58-68), `boundary` of `SpatialItem<D>` (SpatialItem.hpp:50), and the callbacks connected to
the signal of `ItemBase` (ItemBase.hpp:180). -/
structure IObj (D : Type) where
  cls : ItemCls
  time : Int
  uuid : Nat
  frame : FrameId
  data : D
  boundary : Option Nat
  callbacks : List Nat
  deriving DecidableEq, Repr

/-- All items and volumes; `fresh`: the next address `new` gives; `calls` (ghost): calls of callbacks with the item they were called for -/
structure Items (D V : Type) where
  objs : Nat → IObj D
  vols : Nat → V
  fresh : Nat
  calls : List (Nat × Nat)

namespace Items
variable {D V : Type}

/-- change the object at one address -/
def upd (a : Nat) (h : IObj D → IObj D) (s : Items D V) : Items D V := { s with objs := fun x => if x = a then h (s.objs x) else s.objs x }

/-- `setTime` (Item.hpp:123) -/
def setTime (a : Nat) (t : Int) : Items D V → Items D V := upd a fun o => { o with time := t }
/-- `setID` (Item.hpp:137) -/
def setID (a : Nat) (i : Nat) : Items D V → Items D V := upd a fun o => { o with uuid := i }
/-- `setFrame` (Item.hpp:151) -/
def setFrame (a : Nat) (f : FrameId) : Items D V → Items D V := upd a fun o => { o with frame := f }
/-- `setData` (Item.hpp:165-166), and changes through `getData()` or `getRawData()` -/
def setData (a : Nat) (d : D) : Items D V → Items D V := upd a fun o => { o with data := d }
/-- `SpatialItem::setBoundary` (SpatialItem.hpp:61) -/
def setBoundary (a : Nat) (p : Option Nat) : Items D V → Items D V := upd a fun o => { o with boundary := p }
/-- `connectContentsChangedCallback` (ItemBase.hpp:156-158) -/
def connect (a : Nat) (c : Nat) : Items D V → Items D V := upd a fun o => { o with callbacks := o.callbacks ++ [c] }
/-- `disconnectContentsChangedCallback` (ItemBase.hpp:165-167) -/
def disconnect (a : Nat) (c : Nat) : Items D V → Items D V := upd a fun o => { o with callbacks := o.callbacks.filter (· ≠ c) }
/-- `contentsChanged` (ItemBase.cpp:63-65), with callbacks that do not connect or disconnect -/
def contentsChanged (a : Nat) (s : Items D V) : Items D V := { s with calls := s.calls ++ (s.objs a).callbacks.map fun c => (c, a) }
/-- `extendBoundary` and other changes of the volume through the item (SpatialItem.hpp:66-77) -/
def changeBoundary (a : Nat) (f : V → V) (s : Items D V) : Items D V :=
  match (s.objs a).boundary with
  | none => s
  | some p => { s with vols := fun x => if x = p then f (s.vols x) else s.vols x }

/-- `Item(const _ItemData&)` (Item.hpp:64-68) with the time and the random id given by the environment; no frame -/
def newItem (d : D) (now : Int) (uuid : Nat) (s : Items D V) : Nat × Items D V :=
  (s.fresh, { s with objs := fun x => if x = s.fresh then ⟨.item, now, uuid, "", d, none, []⟩ else s.objs x, fresh := s.fresh + 1 })

/-- `clone` (Item.hpp:87-94): a new `Item<D>`, whatever the class of the object is (`SpatialItem` does not override it). -/
def clone (a : Nat) (now : Int) (uuid : Nat) (s : Items D V) : Nat × Items D V :=
  let r := newItem (s.objs a).data now uuid s
  let s1 := r.2.setTime r.1 (r.2.objs a).time
  let s2 := s1.setID r.1 (s1.objs a).uuid
  (r.1, s2.setFrame r.1 (s2.objs a).frame)

/-- `Item(const Item&)` (Item.hpp:70-76; `ItemBase(const ItemBase&)` copies nothing, ItemBase.cpp:37-39), and the implicit
`SpatialItem(const SpatialItem&)`, which also copies the boundary pointer. -/
def copyItem (spatial : Bool) (a : Nat) (s : Items D V) : Nat × Items D V :=
  let o := s.objs a
  (s.fresh, { s with
    objs := fun x => if x = s.fresh then
      ⟨if spatial then .spatial else .item, o.time, o.uuid, o.frame, o.data, if spatial then o.boundary else none, []⟩ else s.objs x
    fresh := s.fresh + 1 })

/-- `operator=(const Item&)` (Item.hpp:98-106; `ItemBase::operator=` does nothing, ItemBase.cpp:45-48), and the implicit
`SpatialItem::operator=`, which also copies the boundary pointer. -/
def assign (spatial : Bool) (to fr : Nat) (s : Items D V) : Items D V :=
  let s1 := s.upd to fun x => { x with time := (s.objs fr).time }
  let s2 := s1.upd to fun x => { x with uuid := (s1.objs fr).uuid }
  let s3 := s2.upd to fun x => { x with frame := (s2.objs fr).frame }
  let s4 := s3.upd to fun x => { x with data := (s3.objs fr).data }
  if spatial then s4.upd to fun x => { x with boundary := (s4.objs fr).boundary } else s4

/-- changes of one item -/
inductive Chg (D V : Type)
  | setTime (t : Int) | setID (i : Nat) | setFrame (f : FrameId) | setData (d : D) | setBoundary (p : Option Nat)
  | connect (c : Nat) | disconnect (c : Nat) | contentsChanged | changeBoundary (f : V → V)

/-- a change applied to item `a` -/
def apply (a : Nat) : Chg D V → Items D V → Items D V
  | .setTime t => setTime a t
  | .setID i => setID a i
  | .setFrame f => setFrame a f
  | .setData d => setData a d
  | .setBoundary p => setBoundary a p
  | .connect c => connect a c
  | .disconnect c => disconnect a c
  | .contentsChanged => contentsChanged a
  | .changeBoundary f => changeBoundary a f

end Items

/-- The signal of one item as `boost::signals2` keeps it (trusted): slots with their own identity, and callbacks (compared by
`disconnect`). `calls` (ghost): the callbacks called so far. -/
structure Signal where
  slots : List (Nat × Nat)
  fresh : Nat
  calls : List Nat
  deriving DecidableEq, Repr

namespace Signal

/-- a new item -/
def init : Signal := ⟨[], 0, []⟩

/-- what a callback can do with the signal -/
inductive Op | connect (c : Nat) | disconnect (c : Nat)
  deriving DecidableEq, Repr

/-- `connectContentsChangedCallback`, `disconnectContentsChangedCallback` (ItemBase.hpp:156-167): all slots with that callback are
disconnected. -/
def op : Op → Signal → Signal
  | .connect c, s => { s with slots := s.slots ++ [(s.fresh, c)], fresh := s.fresh + 1 }
  | .disconnect c, s => { s with slots := s.slots.filter (fun x => x.2 ≠ c) }

/-- Emission (trusted, Boost): goes through the slots there were at the beginning, skips those that were disconnected meanwhile.
`env` says what the callback that was called last does with the signal; it may depend on all calls so far. -/
def emit (env : List Nat → List Op) : List (Nat × Nat) → Signal → Signal
  | [], s => s
  | x :: xs, s =>
    if x ∈ s.slots then
      emit env xs ((env (s.calls ++ [x.2])).foldl (fun s o => op o s) { s with calls := s.calls ++ [x.2] })
    else emit env xs s

/-- `contentsChanged` (ItemBase.cpp:63-65) -/
def contentsChanged (env : List Nat → List Op) (s : Signal) : Signal := emit env s.slots s

/-- calls of the user -/
inductive Cmd | op (o : Op) | changed
  deriving DecidableEq, Repr

/-- a history -/
def run (env : List Nat → List Op) : List Cmd → Signal → Signal
  | [], s => s
  | .op o :: h, s => run env h (op o s)
  | .changed :: h, s => run env h (contentsChanged env s)

end Signal
end Verif
