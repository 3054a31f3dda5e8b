import Verif.Spec.AbsGraphViews
/-! # Specification of the graph with self edges and subscribed tree views

As `AGraph.StepV`.  The exceptions are self edges: writing a property to a self edge stores the inverse, and a self edge cannot be removed
(the call is undefined behaviour, so there is no step for it). -/

namespace Verif
namespace AGraph
variable {F E : Type} [EdgeProp E]

/-- the call does not write to or remove an existing self edge -/
def sparesLoops (A : AGraph E) : GS.Cmd F E → Prop
  | .setEdge a b _ | .removeEdge a b => a = b → A.edges a a = none
  | .disconnectFrame f => A.edges f f = none
  | _ => True

/-- the call removes an existing self edge -/
def removesLoop (A : AGraph E) : GS.Cmd F E → Prop
  | .removeEdge a b => a = b ∧ (A.edges a a).isSome
  | .disconnectFrame f => (A.edges f f).isSome
  | _ => False

/-- One call on the abstract graph `A` while the views `S` are subscribed: possible exceptions and new graphs. -/
inductive StepL (A : AGraph E) (S : Finset Nat) : GS.Cmd F E → Option Exn → AGraph E → Prop
  /-- as without self edges and views -/
  | same (c : GS.Cmd F E) : A.sparesLoops c → StepL A S c (A.step c).1 (A.step c).2
  /-- a self edge gets the inverse of the new property -/
  | setSelf (a : FrameId) (p : E) : (A.edges a a).isSome → StepL A S (.setEdge a a p) none (A.connect a a (EdgeProp.inverse p))
  /-- the edge is gone, but the call throws -/
  | removeEdge (a b : FrameId) (m : String) : S.Nonempty → a ≠ b → (A.edges a b).isSome →
      StepL A S (.removeEdge a b) (some (.runtimeError m)) (A.disconnect a b)
  /-- some edges of the frame are gone, but not a self edge; then the call throws -/
  | disconnectFrame (f : FrameId) (N : Finset FrameId) (m : String) : S.Nonempty → N.Nonempty → f ∉ N → (∀ n ∈ N, (A.edges f n).isSome) →
      StepL A S (.disconnectFrame f) (some (.runtimeError m)) (A.cutFrom f N)

/-- histories: initial graph and views, calls, exceptions, final graph and views -/
inductive RunL : AGraph E → Finset Nat → List (GS.Cmd F E) → List (Option Exn) → AGraph E → Finset Nat → Prop
  | nil (A : AGraph E) (S : Finset Nat) : RunL A S [] [] A S
  | cons {A A' A'' : AGraph E} {S S' : Finset Nat} {c : GS.Cmd F E} {cs : List (GS.Cmd F E)} {x : Option Exn} {xs : List (Option Exn)} :
      StepL A S c x A' → RunL A' (subsAfter S x.isNone c) cs xs A'' S' → RunL A S (c :: cs) (x :: xs) A'' S'

/-- the frames with a self edge -/
def loops (A : AGraph E) : Finset FrameId := A.frames.filter (fun f => (A.edges f f).isSome)

end AGraph
end Verif
