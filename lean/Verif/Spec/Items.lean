import Verif.Model.EnvireGraph
import Verif.Spec.AbsGraph
/-!
# Specification of the item store

One list of items per frame, in the order in which they were added, whatever their types; no maps, no vertices.  The graph below
it is the abstract graph of `Verif.Spec.AbsGraph`.
-/

namespace Verif

/-- the items of each frame, oldest first -/
abbrev Shelf := FrameId → List ItemId

namespace Shelf

/-- replace the items of one frame -/
def put (M : Shelf) (f : FrameId) (l : List ItemId) : Shelf := fun x => if x = f then l else M x

/-- What an observer does with an event: add an item, take one away, forget a removed frame. -/
def apply (M : Shelf) : Event → Shelf
  | .itemAdded f i => M.put f (M f ++ [i])
  | .itemRemoved f i => M.put f ((M f).erase i)
  | .frameRemoved f => M.put f []
  | _ => M

/-- handle events in order -/
def replay (M : Shelf) (evs : List Event) : Shelf := evs.foldl apply M

/-- nothing anywhere -/
def empty : Shelf := fun _ => []

end Shelf

/-- abstract state: the graph, the items of each frame, and the frame name that each item carries -/
structure AStore (E : Type) where
  graph : AGraph E
  items : Shelf
  name : ItemId → FrameId

namespace AStore
variable {E : Type} [EdgeProp E]

/-- give an item a frame name -/
def rename (S : AStore E) (i : ItemId) (f : FrameId) : AStore E :=
  { S with name := fun j => if j = i then f else S.name j }

open Classical in
/-- What each call does: the exception it throws, if any, and the new abstract state.  `ty` gives the type of each item.  Removal
through an iterator is not described here. -/
noncomputable def step (ty : ItemId → TypeIdx) (S : AStore E) : EG.Cmd E → Option Exn × AStore E
  | .graph (.removeFrame f) =>
    if f ∉ S.graph.frames then (some (.unknownFrame f), S)
    else if S.graph.connected f then (some (.frameStillConnected f), { S with items := S.items.put f [] })
    else (none, { S with graph := { S.graph with frames := S.graph.frames.erase f }, items := S.items.put f [] })
  | .graph c => ((S.graph.step c).1, { S with graph := (S.graph.step c).2 })
  | .addItemToFrame f i =>
    if f ∉ S.graph.frames then (some (.unknownFrame f), S)
    else (none, { S with items := S.items.put f (S.items f ++ [i]) }.rename i f)
  | .addItem i =>
    if S.name i ∉ S.graph.frames then (some (.unknownFrame (S.name i)), S)
    else (none, { S with items := S.items.put (S.name i) (S.items (S.name i) ++ [i]) })
  | .removeItem i =>
    if S.name i ∉ S.graph.frames then (some (.unknownFrame (S.name i)), S)
    else if ∀ j ∈ S.items (S.name i), ty j ≠ ty i then (some (.noItemsOfType (S.name i)), S)
    else if i ∉ S.items (S.name i) then (some .unknownItem, S)
    else (none, { S with items := S.items.put (S.name i) ((S.items (S.name i)).erase i) }.rename i "")
  | .removeItemAt .. => (none, S)
  | .clearFrame f =>
    if f ∉ S.graph.frames then (some (.unknownFrame f), S) else (none, { S with items := S.items.put f [] })
  | .clear => (none, { S with graph := AGraph.empty, items := Shelf.empty })
  | .setItemFrame i f => (none, S.rename i f)

/-- outcomes of a history and the final abstract state -/
noncomputable def run (ty : ItemId → TypeIdx) (S : AStore E) : List (EG.Cmd E) → List (Option Exn) × AStore E
  | [] => ([], S)
  | c :: cs => let r := run ty (S.step ty c).2 cs; ((S.step ty c).1 :: r.1, r.2)

end AStore
/-- what matters for the items of a graph: the items of each frame and the frame name that each item carries -/
structure ItemSpec where
  items : Shelf
  name : ItemId → FrameId

namespace ItemSpec

/-- replace the items of one frame -/
def put (S : ItemSpec) (f : FrameId) (l : List ItemId) : ItemSpec := { S with items := S.items.put f l }

/-- give an item a frame name -/
def rename (S : ItemSpec) (i : ItemId) (f : FrameId) : ItemSpec :=
  { S with name := fun j => if j = i then f else S.name j }

/-- What a call that ended with outcome `x` (`none`: returned) does to the items, whatever the graph below looks like.  A `clear`
that throws stops somewhere in between. -/
def Allowed {E : Type} (S : ItemSpec) : EG.Cmd E → Option Exn → ItemSpec → Prop
  | .addItemToFrame f i, none, S' => S' = (S.put f (S.items f ++ [i])).rename i f
  | .addItem i, none, S' => S' = S.put (S.name i) (S.items (S.name i) ++ [i])
  | .removeItem i, none, S' => i ∈ S.items (S.name i) ∧ S' = (S.put (S.name i) ((S.items (S.name i)).erase i)).rename i ""
  | .clearFrame f, none, S' => S' = S.put f []
  | .graph (.removeFrame f), none, S' => S' = S.put f []
  | .graph (.removeFrame f), some (.frameStillConnected _), S' => S' = S.put f []
  | .clear, none, S' => S' = ⟨Shelf.empty, S.name⟩
  | .clear, some _, S' => S'.name = S.name ∧ ∀ f, S'.items f = S.items f ∨ S'.items f = []
  | .setItemFrame i f, none, S' => S' = S.rename i f
  | _, _, S' => S' = S

/-- What a history with these outcomes does to the items. -/
inductive Reaches {E : Type} : ItemSpec → List (EG.Cmd E) → List (Option Exn) → ItemSpec → Prop
  | nil {S : ItemSpec} : Reaches S [] [] S
  | cons {S S' S'' : ItemSpec} {c : EG.Cmd E} {cs : List (EG.Cmd E)} {x : Option Exn} {xs : List (Option Exn)} :
      Allowed S c x S' → Reaches S' cs xs S'' → Reaches S (c :: cs) (x :: xs) S''

end ItemSpec
end Verif
