import Verif.Model.EnvireGraph
/-!
# Two `EnvireGraph`s in one program

The graphs are separate objects, the items are shared: the copy constructor (EnvireGraph.cpp:39-54) copies the lists of
`std::shared_ptr<ItemBase>` in the frames, and the application may add one item to several graphs.
-/

namespace Verif

/-- two graphs and the items of the program -/
structure TwoG (E : Type) where
  a : GS EFrame E
  b : GS EFrame E
  heap : ItemId → ItemObj

namespace TwoG
variable {E : Type} [EdgeProp E]

/-- the first graph with the items -/
def left (w : TwoG E) : EG E := ⟨w.a, w.heap⟩

/-- the second graph with the items -/
def right (w : TwoG E) : EG E := ⟨w.b, w.heap⟩

/-- `EnvireGraph b(a)`: two graphs after copying -/
def ofCopy (s : EG E) : Option (TwoG E) := s.copy.map (fun c => ⟨s.gs, c.gs, s.heap⟩)

/-- a call of the first graph -/
def execLeft (c : EG.Cmd E) (w : TwoG E) : Res (TwoG E) Unit :=
  match EG.exec c w.left with
  | .ok _ s => .ok () ⟨s.gs, w.b, s.heap⟩
  | .throw x s => .throw x ⟨s.gs, w.b, s.heap⟩
  | .ub m => .ub m

/-- a call of the second graph -/
def execRight (c : EG.Cmd E) (w : TwoG E) : Res (TwoG E) Unit :=
  match EG.exec c w.right with
  | .ok _ s => .ok () ⟨w.a, s.gs, s.heap⟩
  | .throw x s => .throw x ⟨w.a, s.gs, s.heap⟩
  | .ub m => .ub m

/-- calls of the second graph only; exceptions are caught -/
def runRight : List (EG.Cmd E) → TwoG E → Option (TwoG E)
  | [], w => some w
  | c :: cs, w =>
    match execRight c w with
    | .ok _ w' => runRight cs w'
    | .throw _ w' => runRight cs w'
    | .ub _ => none

end TwoG
end Verif
