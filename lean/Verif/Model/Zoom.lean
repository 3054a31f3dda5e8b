import Mathlib.Algebra.Field.Basic
/-! # Model: the zoom of the 2D widget

`QZoomableGraphicsView` (viz/EnvireGraph2DStructureVisualization/QZoomableGraphicsView.cpp 39-46).  Simplifications: numbers of a field instead
of doubles; of the transformation of the `QGraphicsView` only its scale, which is the same in both directions because it starts as the identity
and nothing but `scale(factor, factor)` changes it (the widget never sets it, EnvireGraph2DStructurWidget.cpp 50-75); the scroll position is left
out. -/

namespace Verif
namespace Zoom
variable {K : Type} [Field K]

/-- `wheelEvent` (QZoomableGraphicsView.cpp 39-46): `delta` is `QWheelEvent::delta()`, an int. -/
def wheelEvent (delta : Int) (scale : K) : K :=
  let numDegrees : K := (delta : K) / 8
  let numSteps := numDegrees / 15
  let factor := 1 + numSteps / 10
  scale * factor

/-- the wheel events of a user, one after the other -/
def wheel (l : List Int) (scale : K) : K := l.foldl (fun z d => wheelEvent d z) scale

end Zoom
end Verif
