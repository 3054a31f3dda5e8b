/-!
# The 2D widget (viz/EnvireGraph2DStructureVisualization/EnvireGraph2DStructurWidget.cpp)

Two threads: the window, and the layout thread of `layoutGraph`.  The unit of interleaving is one access to a shared member; a block
that holds `currentGraphMutex` is one step.  Trusted: Qt (a queued call runs later in the thread of the window, calls keep their
order), graphviz (`agmemread` returns NULL for text that it cannot read; using the NULL is undefined), `std::mutex`, and sequentially
consistent memory: `needRedraw`, `pauseRedraw` and `runLayoutThread` are plain `bool`s that are read without the mutex, which is a data
race in C++.  `D` is the type of the graph texts.
-/

namespace Verif
namespace Widget

/-- where the layout thread is: before the test of the loop (:85), after the sleep (:89), before the two tests of :92, before the block
with the mutex (:97), after it (:103) with the text; ended (:121) or crashed -/
inductive Phase (D : Type)
  | top | slept | testNeed | testPause | checked
  | drawing (d : D)
  | ended | crashed
  deriving DecidableEq, Repr

/-- The members (EnvireGraph2DStructurWidget.hpp).  `posted`: queued calls of `displaySvg`; a renderer is a number with the text that it
draws.  `shown`: the renderer of the item, which is also `shared_renderer`.  `freed`: deleted renderers in order.  `box`: the state of the
check box. -/
structure W (D : Type) where
  cur : Option D := none
  need : Bool := false
  pause : Bool := true
  run : Bool := true
  phase : Phase D := .top
  posted : List (Nat × D) := []
  next : Nat := 0
  shown : Option (Nat × D) := none
  freed : List Nat := []
  box : Bool := true
  deriving DecidableEq, Repr

variable {D : Type}

/-- `displayGraph` (:141-147) -/
def display (d : D) (w : W D) : W D := { w with cur := some d, need := true }

/-- the user clicks the check box; `pauseToggled` (:125-128) -/
def toggle (w : W D) : W D := { w with box := !w.box, pause := !w.pause }

/-- the window runs the next queued call; `displaySvg` (:130-137) -/
def deliver (w : W D) : W D :=
  match w.posted with
  | [] => w
  | r :: l => { w with posted := l, shown := some r, freed := w.freed ++ (w.shown.map Prod.fst).toList }

/-- the destructor up to the join (:74-78) -/
def close (w : W D) : W D := { w with run := false }

/-- One step of `layoutGraph` (:80-122).  `readable`: can graphviz read the text. -/
def layout (readable : D → Bool) (w : W D) : W D :=
  match w.phase with
  | .top => if w.run then { w with phase := .slept } else { w with phase := .ended }
  | .slept => if w.run then { w with phase := .testNeed } else { w with phase := .ended }
  | .testNeed => if w.need then { w with phase := .testPause } else { w with phase := .top }
  | .testPause => if w.pause then { w with phase := .top } else { w with phase := .checked }
  | .checked =>
    match w.cur with
    | none => { w with phase := .crashed }
    | some d => { w with phase := .drawing d, need := false }
  | .drawing d =>
    if readable d then { w with phase := .top, posted := w.posted ++ [(w.next, d)], next := w.next + 1 }
    else { w with phase := .crashed }
  | .ended => w
  | .crashed => w

/-- what can happen next -/
inductive Act (D : Type)
  | display (d : D)
  | toggle
  | deliver
  | close
  | layout

/-- one step -/
def Act.app (readable : D → Bool) (w : W D) : Act D → W D
  | .display d => Widget.display d w
  | .toggle => Widget.toggle w
  | .deliver => Widget.deliver w
  | .close => Widget.close w
  | .layout => Widget.layout readable w

/-- any interleaving, from the constructed widget -/
def exec (readable : D → Bool) (l : List (Act D)) : W D := l.foldl (Act.app readable) {}

end Widget

end Verif
