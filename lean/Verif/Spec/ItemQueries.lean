import Verif.Spec.Items
/-! # Specification of the queries about items -/

namespace Verif
open EG
variable {E : Type}

/-- How the queries about frame `f` answer if the frame holds the items `L` (oldest first) and `ty` gives the types. -/
structure AnswersAs (ty : ItemId → TypeIdx) (s : EG E) (f : FrameId) (L : List ItemId) : Prop where
  /-- `getItems(frame, type)`: the items of that type in order, an exception if there are none -/
  items : ∀ t, getItems f t s =
    if L.filter (fun i => ty i = t) = [] then .throw (.noItemsOfType f) s else .ok (L.filter (fun i => ty i = t)) s
  /-- `getItems<T>(frame)`: the same, an empty range if there are none -/
  itemsT : ∀ t, getItemsT f t s = .ok (L.filter (fun i => ty i = t)) s
  /-- `getItem<T>(frame, k)` -/
  item : ∀ t k, getItem f t k s =
    if k < 0 then .throw .outOfRange s
    else if L.filter (fun i => ty i = t) = [] then .throw (.noItemsOfType f) s
    else match (L.filter (fun i => ty i = t))[k.toNat]? with
      | none => .throw .outOfRange s
      | some i => .ok i s
  count : ∀ t, getItemCount f t s = .ok (L.countP (fun i => ty i = t)) s
  total : getTotalItemCount f s = .ok L.length s
  contains : ∀ t, ∃ b, containsItems f t s = .ok b s ∧ (b = true ↔ ∃ i ∈ L, ty i = t)
  /-- `getItemTypes` lists every type of which there is an item once, and no other type -/
  types : ∃ ts, getItemTypes f s = .ok ts s ∧ ts.Nodup ∧ ∀ t, t ∈ ts ↔ ∃ i ∈ L, ty i = t
  /-- `visitItems` visits every item once -/
  visit : ∃ l, visitItems f s = .ok l s ∧ l.Perm L ∧ ∀ t, l.filter (fun i => ty i = t) = L.filter (fun i => ty i = t)

/-- how the queries answer about a frame that does not exist -/
structure AnswersUnknown (s : EG E) (f : FrameId) : Prop where
  items : ∀ t, getItems f t s = .throw (.unknownFrame f) s
  itemsT : ∀ t, getItemsT f t s = .throw (.unknownFrame f) s
  item : ∀ t k, getItem f t k s = .throw (.unknownFrame f) s
  count : ∀ t, getItemCount f t s = .throw (.unknownFrame f) s
  total : getTotalItemCount f s = .throw (.unknownFrame f) s
  contains : ∀ t, containsItems f t s = .throw (.unknownFrame f) s
  types : getItemTypes f s = .throw (.unknownFrame f) s
  visit : visitItems f s = .throw (.unknownFrame f) s

end Verif
