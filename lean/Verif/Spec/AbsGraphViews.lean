import Verif.Spec.AbsGraph
/-! # Specification of the graph with subscribed tree views

As `AGraph.step`, but while a view is subscribed the removal of edges may end with a `runtime_error`. -/

namespace Verif
namespace AGraph
variable {F E : Type} [EdgeProp E]

/-- delete the connections of `f` with the frames in `N` -/
def cutFrom (A : AGraph E) (f : FrameId) (N : Finset FrameId) : AGraph E :=
  { A with edges := fun x y => if (x = f ∧ y ∈ N) ∨ (y = f ∧ x ∈ N) then none else A.edges x y }

/-- which views are subscribed after the call; `ok`: it returned normally -/
def subsAfter (S : Finset Nat) (ok : Bool) : GS.Cmd F E → Finset Nat
  | .getTree _ true p => if ok then insert p S else S
  | .unsubscribeView p => S.erase p
  | _ => S

/-- One call on the abstract graph `A` while the views `S` are subscribed: possible exceptions and new graphs. -/
inductive StepV (A : AGraph E) (S : Finset Nat) : GS.Cmd F E → Option Exn → AGraph E → Prop
  /-- as without views -/
  | same (c : GS.Cmd F E) : StepV A S c (A.step c).1 (A.step c).2
  /-- the edge is gone, but the call throws -/
  | removeEdge (a b : FrameId) (m : String) : S.Nonempty → (A.edges a b).isSome →
      StepV A S (.removeEdge a b) (some (.runtimeError m)) (A.disconnect a b)
  /-- some edges of the frame are gone, then the call throws -/
  | disconnectFrame (f : FrameId) (N : Finset FrameId) (m : String) : S.Nonempty → N.Nonempty → (∀ n ∈ N, (A.edges f n).isSome) →
      StepV A S (.disconnectFrame f) (some (.runtimeError m)) (A.cutFrom f N)

/-- histories: initial graph and views, calls, exceptions, final graph and views -/
inductive RunV : AGraph E → Finset Nat → List (GS.Cmd F E) → List (Option Exn) → AGraph E → Finset Nat → Prop
  | nil (A : AGraph E) (S : Finset Nat) : RunV A S [] [] A S
  | cons {A A' A'' : AGraph E} {S S' : Finset Nat} {c : GS.Cmd F E} {cs : List (GS.Cmd F E)} {x : Option Exn} {xs : List (Option Exn)} :
      StepV A S c x A' → RunV A' (subsAfter S x.isNone c) cs xs A'' S' → RunV A S (c :: cs) (x :: xs) A'' S'

end AGraph
end Verif
