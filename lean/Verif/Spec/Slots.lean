import Verif.Model.Basic
/-!
# The frames in the order of their creation

Specification side of C10 and C46: a list with one entry for each frame ever created, in the order of creation; the entry of a removed
frame is `none`.  It is computed from the published events only.
-/

namespace Verif

/-- one event -/
def slotStep (l : List (Option FrameId)) : Event → List (Option FrameId)
  | .frameAdded f => if some f ∈ l then l else l ++ [some f]
  | .frameRemoved f => l.map (fun x => if x = some f then none else x)
  | _ => l

/-- all events in order -/
def slots (evs : List Event) : List (Option FrameId) := evs.foldl slotStep []

/-- some frame that is still there was created after a frame that was removed -/
def Gap (l : List (Option FrameId)) : Prop := ∃ l1 l2 l3 f, l = l1 ++ none :: (l2 ++ some f :: l3)

end Verif
