import Verif.Model.Widget
/-! # Specification: what the 2D widget should show -/

namespace Verif
namespace Widget
variable {D : Type}

/-- the texts given to the widget, in order -/
def sent (l : List (Act D)) : List D := l.filterMap (fun | .display d => some d | _ => none)

/-- the text whose drawing this action puts on the screen, if any -/
def put (a : Act D) (posted : List (Nat × D)) : List D :=
  match a, posted with
  | .deliver, r :: _ => [r.2]
  | _, _ => []

/-- the texts whose drawings were put on the screen so far, in order (last component), while the actions run -/
def watch (readable : D → Bool) (l : List (Act D)) : W D × List D :=
  l.foldl (fun x a => (a.app readable x.1, x.2 ++ put a x.1.posted)) ({}, [])

/-- nothing is left to do: no new text, no drawing under way, no queued call -/
def W.Idle (w : W D) : Prop := w.need = false ∧ w.posted = [] ∧ ∀ d, w.phase ≠ .drawing d

end Widget
end Verif
