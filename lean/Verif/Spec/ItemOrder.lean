import Verif.Model.EnvireGraph
import Batteries.Data.List.Basic
/-! # Specification: another order of the item types

The items of a frame are a `std::unordered_map<std::type_index, ItemList>` (src/items/Frame.hpp:57-60), so nothing is known about the order
in which a loop over it sees the types.  Two graphs are shuffled copies of each other if they agree in everything but these orders.
A history with shuffles is a history in which the maps may be shuffled before each call. -/

namespace Verif
variable {E : Type}

/-- the same frame with the types in another order -/
structure EFrame.Shuffle (a b : EFrame) : Prop where
  id : b.id = a.id
  items : b.items.Perm a.items

/-- what a map from types to items of these types is: one list per type, items listed under their type -/
structure EFrame.Sound (ty : ItemId → TypeIdx) (fr : EFrame) : Prop where
  keys : fr.items.keys.Nodup
  typed : ∀ p ∈ fr.items, ∀ i ∈ p.2, ty i = p.1

/-- the same vertex with a shuffled frame -/
structure VRec.Shuffle (r r' : VRec EFrame) : Prop where
  id : r'.id = r.id
  idx : r'.idx = r.idx
  prop : r.prop.Shuffle r'.prop

/-- the same graph with shuffled frames -/
structure G.Shuffle (g g' : G EFrame E) : Prop where
  verts : List.Forall₂ VRec.Shuffle g.verts g'.verts
  edges : g'.edges = g.edges
  labels : g'.labels = g.labels
  nextV : g'.nextV = g.nextV
  nextE : g'.nextE = g.nextE
  nextIdx : g'.nextIdx = g.nextIdx

/-- The same events, except that neighbouring events on items of one frame with different types may have changed places.  So events on items
of one type keep their order, and so do all events on frames and connections. -/
inductive EventsAlike (ty : ItemId → TypeIdx) : List Event → List Event → Prop
  | nil : EventsAlike ty [] []
  | cons (e) {l l'} : EventsAlike ty l l' → EventsAlike ty (e :: l) (e :: l')
  | added (f) {i j} (l) : ty i ≠ ty j → EventsAlike ty (.itemAdded f i :: .itemAdded f j :: l) (.itemAdded f j :: .itemAdded f i :: l)
  | removed (f) {i j} (l) : ty i ≠ ty j → EventsAlike ty (.itemRemoved f i :: .itemRemoved f j :: l) (.itemRemoved f j :: .itemRemoved f i :: l)
  | trans {a b c} : EventsAlike ty a b → EventsAlike ty b c → EventsAlike ty a c

namespace EG

/-- the same graph, subscriptions, views and items; the frames are shuffled -/
structure Shuffle (ty : ItemId → TypeIdx) (s s' : EG E) : Prop where
  g : s.gs.g.Shuffle s'.gs.g
  subs : s'.gs.subs = s.gs.subs
  views : s'.gs.views = s.gs.views
  heap : s'.heap = s.heap
  events : EventsAlike ty (s.gs.trace.map Prod.fst) (s'.gs.trace.map Prod.fst)

/-- the same outcome up to the order of the types; `R` compares the returned values -/
inductive SameOutcome {α : Type} (ty : ItemId → TypeIdx) (R : α → α → Prop) : Res (EG E) α → Res (EG E) α → Prop
  | ok {a a' s s'} : R a a' → Shuffle ty s s' → SameOutcome ty R (.ok a s) (.ok a' s')
  | throw {x s s'} : Shuffle ty s s' → SameOutcome ty R (.throw x s) (.throw x s')
  | ub {m} : SameOutcome ty R (.ub m) (.ub m)

/-- a frame that is handed to the graph has a proper item map -/
def Cmd.Sound (ty : ItemId → TypeIdx) : Cmd E → Prop
  | .graph (.emplaceFrame _ p) => p.Sound ty
  | _ => True

variable [EdgeProp E]

/-- a history in which all item maps may be shuffled before each call, with the exception of each call -/
inductive RunShuffled (ty : ItemId → TypeIdx) : List (Cmd E) → EG E → List (Option Exn) → EG E → Prop
  | nil {s s'} : Shuffle ty s s' → RunShuffled ty [] s [] s'
  | ok {c cs s s1 s2 s' xs} : Shuffle ty s s1 → exec c s1 = .ok () s2 → RunShuffled ty cs s2 xs s' → RunShuffled ty (c :: cs) s (none :: xs) s'
  | throw {c cs s s1 s2 s' x xs} : Shuffle ty s s1 → exec c s1 = .throw x s2 → RunShuffled ty cs s2 xs s' →
      RunShuffled ty (c :: cs) s (some x :: xs) s'

/-- some order of the types leads the history into undefined behaviour -/
inductive CanBreak (ty : ItemId → TypeIdx) : List (Cmd E) → EG E → Prop
  | here {c cs s s1 m} : Shuffle ty s s1 → exec c s1 = .ub m → CanBreak ty (c :: cs) s
  | ok {c cs s s1 s2} : Shuffle ty s s1 → exec c s1 = .ok () s2 → CanBreak ty cs s2 → CanBreak ty (c :: cs) s
  | throw {c cs s s1 s2 x} : Shuffle ty s s1 → exec c s1 = .throw x s2 → CanBreak ty cs s2 → CanBreak ty (c :: cs) s

end EG
end Verif
