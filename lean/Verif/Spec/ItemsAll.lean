import Verif.Spec.Items
/-! # Specification of the item store for all histories

As `ItemSpec.Allowed`, with removal through iterators and frames made from a property that contains items. -/

namespace Verif

/-- the list without its `k`-th element that satisfies `p` -/
def removeNth (p : ItemId → Bool) : Nat → List ItemId → List ItemId
  | _, [] => []
  | 0, i :: l => if p i then l else i :: removeNth p 0 l
  | k + 1, i :: l => if p i then i :: removeNth p k l else i :: removeNth p (k + 1) l

namespace ItemSpec

/-- What a call that ended with outcome `x` does to the items.  Removal through an iterator that points to item number `it.pos` of a type:
this item is taken out, but if it is the last one of its type in the frame, all items of this type are.  A frame made from a property has
the items of the property. -/
def AllowedAll {E : Type} (ty : ItemId → TypeIdx) (S : ItemSpec) (c : EG.Cmd E) (x : Option Exn) (S' : ItemSpec) : Prop :=
  match c, x with
  | .removeItemAt f it, none => it.frame = f ∧ ∃ i, ((S.items f).filter (fun j => ty j = it.type))[it.pos]? = some i ∧ S.name i = f ∧
      S' = (S.put f (if it.pos + 1 = ((S.items f).filter (fun j => ty j = it.type)).length then (S.items f).filter (fun j => ty j ≠ it.type)
        else removeNth (fun j => ty j = it.type) it.pos (S.items f))).rename i ""
  | .graph (.emplaceFrame f p), none => S' = S.put f p.visit
  | c, x => S.Allowed c x S'

/-- What a history with these outcomes does to the items. -/
inductive ReachesAll {E : Type} (ty : ItemId → TypeIdx) : ItemSpec → List (EG.Cmd E) → List (Option Exn) → ItemSpec → Prop
  | nil {S : ItemSpec} : ReachesAll ty S [] [] S
  | cons {S S' S'' : ItemSpec} {c : EG.Cmd E} {cs : List (EG.Cmd E)} {x : Option Exn} {xs : List (Option Exn)} :
      AllowedAll ty S c x S' → ReachesAll ty S' cs xs S'' → ReachesAll ty S (c :: cs) (x :: xs) S''

end ItemSpec

/-- a property whose items are in the lists of their types, one list per type, no empty lists -/
structure EFrame.Sorted (ty : ItemId → TypeIdx) (p : EFrame) : Prop where
  keys : p.items.keys.Nodup
  full : ∀ e ∈ p.items, e.2 ≠ []
  typed : ∀ e ∈ p.items, ∀ i ∈ e.2, ty i = e.1

end Verif
