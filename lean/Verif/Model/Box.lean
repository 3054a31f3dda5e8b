import Verif.Model.Basic
import Mathlib.Order.Defs.LinearOrder
import Mathlib.Order.Lattice
import Mathlib.Data.Fin.VecNotation
import Mathlib.Algebra.Field.Defs
/-!
# Bounding boxes (src/items/AlignedBoundingBox.cpp, src/items/SpatialItem.hpp)

Trusted (Eigen, not in the repository): the functions of `Eigen::AlignedBox<double,3>`.  They work on two corner vectors, one
coordinate at a time.  The coordinates are elements of a linear order (for distances: of an ordered field, so rounding is left out);
`lo` and `hi` are the least and greatest finite number.  NaN is left out.
-/

namespace Verif

/-- the two corners of an `Eigen::AlignedBox<double,3>` -/
structure Box (K : Type) where
  min : Fin 3 → K
  max : Fin 3 → K

/-- what a `boost::shared_ptr<BoundingVolume>` may point to -/
inductive Vol (K : Type)
  | box (b : Box K)
  /-- an object of another class derived from `BoundingVolume` -/
  | other

namespace Box
variable {K : Type} [LinearOrder K]

/-- `AlignedBoundingBox::clear`, and the default constructor (AlignedBoundingBox.cpp:32-35, 99-102): `setEmpty` -/
def empty (lo hi : K) : Box K := ⟨fun _ => hi, fun _ => lo⟩

/-- `Eigen::AlignedBox::isEmpty` -/
def isEmpty (b : Box K) : Bool := decide (∃ i, b.max i < b.min i)

/-- `AlignedBoundingBox::extend(Vector3d)` (AlignedBoundingBox.cpp:49-52) -/
def extendPoint (p : Fin 3 → K) (b : Box K) : Box K := ⟨fun i => Min.min (b.min i) (p i), fun i => Max.max (b.max i) (p i)⟩

/-- `Eigen::AlignedBox::extend(AlignedBox)` -/
def extendBox (b c : Box K) : Box K := ⟨fun i => Min.min (b.min i) (c.min i), fun i => Max.max (b.max i) (c.max i)⟩

/-- `AlignedBoundingBox::contains(Vector3d)` (AlignedBoundingBox.cpp:61-64) -/
def containsPoint (p : Fin 3 → K) (b : Box K) : Bool := decide (∀ i, b.min i ≤ p i) && decide (∀ i, p i ≤ b.max i)

/-- `Eigen::AlignedBox::contains(AlignedBox)` -/
def containsBox (b c : Box K) : Bool := decide (∀ i, b.min i ≤ c.min i) && decide (∀ i, c.max i ≤ b.max i)

/-- `Eigen::AlignedBox::intersection` -/
def inter (b c : Box K) : Box K := ⟨fun i => Max.max (b.min i) (c.min i), fun i => Min.min (b.max i) (c.max i)⟩

/-- `boost::dynamic_pointer_cast<AlignedBoundingBox>`; `none` = null pointer -/
def cast : Option (Vol K) → Option (Box K)
  | some (.box c) => some c
  | _ => none

/-- `AlignedBoundingBox::extend(shared_ptr<BoundingVolume>)` (AlignedBoundingBox.cpp:42-47) -/
def extend (v : Option (Vol K)) (b : Box K) : Res (Box K) Unit :=
  match cast v with
  | none => .ub "null pointer"
  | some c => .ok () (b.extendBox c)

/-- `AlignedBoundingBox::contains(shared_ptr<BoundingVolume>)` (AlignedBoundingBox.cpp:54-59) -/
def contains (v : Option (Vol K)) (b : Box K) : Res (Box K) Bool :=
  match cast v with
  | none => .ub "null pointer"
  | some c => .ok (b.containsBox c) b

/-- `AlignedBoundingBox::intersection` (AlignedBoundingBox.cpp:78-84) -/
def intersection (v : Option (Vol K)) (b : Box K) : Res (Box K) (Box K) :=
  match cast v with
  | none => .ub "null pointer"
  | some c => .ok (b.inter c) b

/-- `AlignedBoundingBox::intersects` (AlignedBoundingBox.cpp:86-92): the intersection is computed, but the test is about the
argument -/
def intersects (v : Option (Vol K)) (b : Box K) : Res (Box K) Bool :=
  match intersection v b with
  | .ok _ b =>
    match cast v with
    | none => .ub "null pointer"
    | some c => .ok (!c.isEmpty) b
  | .throw x b => .throw x b
  | .ub r => .ub r

section distance
variable {K : Type} [Field K] [LinearOrder K]

/-- `Eigen::AlignedBox::squaredExteriorDistance(Vector3d)`; `exteriorDistance` (AlignedBoundingBox.cpp:73-76) is its square root -/
def sqDistPoint (p : Fin 3 → K) (b : Box K) : K :=
  [(0 : Fin 3), 1, 2].foldl (fun d k =>
    if p k < b.min k then d + (b.min k - p k) * (b.min k - p k)
    else if b.max k < p k then d + (p k - b.max k) * (p k - b.max k)
    else d) 0

/-- `Eigen::AlignedBox::squaredExteriorDistance(AlignedBox)`; `exteriorDistance` (AlignedBoundingBox.cpp:66-71) is its square root -/
def sqDistBox (b c : Box K) : K :=
  [(0 : Fin 3), 1, 2].foldl (fun d k =>
    if c.max k < b.min k then d + (b.min k - c.max k) * (b.min k - c.max k)
    else if b.max k < c.min k then d + (c.min k - b.max k) * (c.min k - b.max k)
    else d) 0

/-- `AlignedBoundingBox::exteriorDistance(shared_ptr<BoundingVolume>)` (AlignedBoundingBox.cpp:66-71), squared -/
def sqDistance (v : Option (Vol K)) (b : Box K) : Res (Box K) K :=
  match cast v with
  | none => .ub "null pointer"
  | some c => .ok (b.sqDistBox c) b

/-- `AlignedBoundingBox::center` (AlignedBoundingBox.cpp:94-97) -/
def center (b : Box K) : Fin 3 → K := fun k => (b.min k + b.max k) / 2

end distance
end Box

/-- The boundaries of spatial items: `boost::shared_ptr<BoundingVolume>` objects, here all aligned boxes, by address. -/
abbrev Vols (K : Type) := Nat → Box K

namespace SItem
variable {K : Type} [LinearOrder K]

/-- `checkBoundingVolume` (SpatialItem.hpp:126-130) followed by `f` on the own boundary `p` -/
def checked {α : Type} (p : Option Nat) (f : Nat → Res (Vols K) α) (h : Vols K) : Res (Vols K) α :=
  match p with
  | none => .throw (.runtimeError "BoundingVolume is not available!") h
  | some a => f a

/-- `SpatialItem::extendBoundary(Vector3d)` (SpatialItem.hpp:66-70) of the item with the boundary `p` -/
def extendBoundary (p : Option Nat) (x : Fin 3 → K) (h : Vols K) : Res (Vols K) Unit :=
  checked p (fun a => .ok () (fun b => if b = a then (h a).extendPoint x else h b)) h

/-- `SpatialItem::extendBoundary(SpatialItem)` (SpatialItem.hpp:72-77); `q` is the boundary of the argument -/
def extendBoundaryBy (p q : Option Nat) (h : Vols K) : Res (Vols K) Unit :=
  checked p (fun a =>
    match (h a).extend (q.map (fun c => .box (h c))) with
    | .ok _ b' => .ok () (fun b => if b = a then b' else h b)
    | .throw x _ => .throw x h
    | .ub r => .ub r) h

/-- A call that only reads the two boxes: `intersects`, `intersection`, `contains(SpatialItem)`, `exteriorDistance(SpatialItem)`
(SpatialItem.hpp:79-117) -/
def query {α : Type} (f : Option (Vol K) → Box K → Res (Box K) α) (p q : Option Nat) (h : Vols K) : Res (Vols K) α :=
  checked p (fun a =>
    match f (q.map (fun c => .box (h c))) (h a) with
    | .ok x _ => .ok x h
    | .throw x _ => .throw x h
    | .ub r => .ub r) h

/-- A call that only reads the own box: `contains(Vector3d)`, `exteriorDistance(Vector3d)`, `centerOfBoundary`
(SpatialItem.hpp:93-97, 106-110, 119-123) -/
def ask {α : Type} (f : Box K → α) (p : Option Nat) (h : Vols K) : Res (Vols K) α := checked p (fun a => .ok (f (h a)) h) h

end SItem
end Verif
