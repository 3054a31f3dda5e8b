import Verif.Model.Archive
/-!
# The two formats of the items of a frame (src/items/Frame.hpp:157-269)

Class version 0 stores the numbers of types and of items as `std::size_t` (Frame.hpp:176-180, 190-194, 226-231, 239-244), the present
version 1 (Frame.hpp:151) by `saveSizeValue`, which writes another byte sequence. A `std::size_t` is a kind of token of its own; the
other functions never read or write it, so it is put in place of an edge property: `.edge (.inr n)`.
-/

namespace Verif
variable {D E : Type}

/-- a number of types or items, as version `v` writes it -/
def countTok (v : Nat) (n : Nat) : Tok D (E ⊕ Nat) := if v = 0 then .edge (.inr n) else .size n

/-- reading a `std::size_t` -/
def word? : Tok D (E ⊕ Nat) → Option Nat | .edge (.inr n) => some n | _ => none

/-- reading such a number -/
def countTok? (v : Nat) : Tok D (E ⊕ Nat) → Option Nat := if v = 0 then word? else IArchive.size?

namespace OArchive

/-- the map loop (Frame.hpp:183-213) -/
def saveTypesV (v : Nat) (R : Registry) (heap : ItemId → SObj D) : AMap TypeIdx (List ItemId) → OArchive D (E ⊕ Nat) →
    Res (OArchive D (E ⊕ Nat)) Unit
  | [], w => .ok () w
  | (_, l) :: m, w =>
    match saveList R heap l (w.put [countTok v l.length]) with
    | .ok _ w' => saveTypesV v R heap m w'
    | .throw x w' => .throw x w'
    | .ub r => .ub r

/-- `save(Archive&, const ItemMap&, version)` (Frame.hpp:157-214) -/
def saveMapV (v : Nat) (R : Registry) (heap : ItemId → SObj D) (m : AMap TypeIdx (List ItemId)) (w : OArchive D (E ⊕ Nat)) :
    Res (OArchive D (E ⊕ Nat)) Unit :=
  let ms := m.filter (fun p => savesList R heap p.2)
  saveTypesV v R heap ms (w.put [countTok v ms.length])

end OArchive

namespace IArchive

/-- the map loop (Frame.hpp:234-265) -/
def loadTypesV (v : Nat) (H : String → Bool) : Nat → AMap TypeIdx (List ItemId) → IArchive D (E ⊕ Nat) →
    Res (IArchive D (E ⊕ Nat)) (AMap TypeIdx (List ItemId))
  | 0, m, a => .ok m a
  | n + 1, m, a =>
    bind (a.read (countTok? v)) fun k a => bind (loadList H k a) fun l a =>
      match l with
      | [] => loadTypesV v H n m a
      | i :: _ =>
        match a.typeOf i with
        | none => .ub "dangling item"
        | some t => loadTypesV v H n (m.insertNew t l) a

/-- `load(Archive&, ItemMap&, version)` (Frame.hpp:216-270) -/
def loadMapV (v : Nat) (H : String → Bool) (a : IArchive D (E ⊕ Nat)) : Res (IArchive D (E ⊕ Nat)) (AMap TypeIdx (List ItemId)) :=
  bind (a.read (countTok? v)) fun n a => loadTypesV v H n [] a

end IArchive
end Verif
