import Verif.Model.Graph
import Mathlib.Data.Finset.Basic
import Mathlib.Data.Finset.Card
import Mathlib.Data.Finset.Prod
/-!
# Specification of the graph: a set of frame names and a partial map from ordered pairs of names to properties

Independent of vertices, descriptors, lists and label maps.
-/

namespace Verif

/-- the abstract graph -/
structure AGraph (E : Type) where
  frames : Finset FrameId
  edges : FrameId → FrameId → Option E

namespace AGraph
variable {F E : Type} [EdgeProp E]

/-- nothing in it -/
def empty : AGraph E := ⟨∅, fun _ _ => none⟩

/-- write one connection: `p` from `a` to `b`, the inverse from `b` to `a` -/
def connect (A : AGraph E) (a b : FrameId) (p : E) : AGraph E where
  frames := insert a (insert b A.frames)
  edges x y := if x = a ∧ y = b then some p else if x = b ∧ y = a then some (EdgeProp.inverse p) else A.edges x y

/-- delete one connection -/
def disconnect (A : AGraph E) (a b : FrameId) : AGraph E :=
  { A with edges := fun x y => if (x = a ∧ y = b) ∨ (x = b ∧ y = a) then none else A.edges x y }

/-- delete all connections of `f` -/
def isolate (A : AGraph E) (f : FrameId) : AGraph E :=
  { A with edges := fun x y => if x = f ∨ y = f then none else A.edges x y }

/-- `f` has a connection -/
def connected (A : AGraph E) (f : FrameId) : Prop := ∃ x, (A.edges f x).isSome ∨ (A.edges x f).isSome

open Classical in
/-- what each call does: the exception it throws, if any, and the new abstract graph -/
noncomputable def step (A : AGraph E) : GS.Cmd F E → Option Exn × AGraph E
  | .addFrame f | .emplaceFrame f _ =>
    if f ∈ A.frames then (some (.frameAlreadyExists f), A) else (none, { A with frames := insert f A.frames })
  | .removeFrame f =>
    if f ∉ A.frames then (some (.unknownFrame f), A)
    else if A.connected f then (some (.frameStillConnected f), A)
    else (none, { A with frames := A.frames.erase f })
  | .disconnectFrame f =>
    if f ∉ A.frames then (some (.unknownFrame f), A) else (none, A.isolate f)
  | .addEdge a b p =>
    if (A.edges a b).isSome then (some (.edgeAlreadyExists a b), A) else (none, A.connect a b p)
  | .removeEdge a b =>
    if a ∉ A.frames then (some (.unknownFrame a), A)
    else if b ∉ A.frames then (some (.unknownFrame b), A)
    else if (A.edges a b).isSome then (none, A.disconnect a b) else (some (.unknownEdge a b), A)
  | .setEdge a b p =>
    if a ∉ A.frames then (some (.unknownFrame a), A)
    else if b ∉ A.frames then (some (.unknownFrame b), A)
    else if (A.edges a b).isSome then (none, A.connect a b p) else (some (.unknownEdge a b), A)
  | .getTree f _ _ => if f ∉ A.frames then (some (.unknownFrame f), A) else (none, A)
  | .unsubscribeView _ => (none, A)

/-- outcomes of a history and the final abstract graph -/
noncomputable def run (A : AGraph E) : List (GS.Cmd F E) → List (Option Exn) × AGraph E
  | [] => ([], A)
  | c :: cs => let r := run (A.step c).2 cs; ((A.step c).1 :: r.1, r.2)

/-- the ordered pairs that are connected -/
def pairs (A : AGraph E) : Finset (FrameId × FrameId) :=
  (A.frames ×ˢ A.frames).filter (fun x => (A.edges x.1 x.2).isSome)

end AGraph

namespace GS
variable {F E : Type} [FrameProp F] [EdgeProp E]

/-- Run a history and record the exception of each call; `none` = some call had undefined behaviour. -/
def outcomes : List (Cmd F E) → GS F E → Option (List (Option Exn) × GS F E)
  | [], s => some ([], s)
  | c :: cs, s =>
    match exec c s with
    | .ok _ s' => (outcomes cs s').map (fun r => (none :: r.1, r.2))
    | .throw x s' => (outcomes cs s').map (fun r => (some x :: r.1, r.2))
    | .ub _ => none

end GS
end Verif
