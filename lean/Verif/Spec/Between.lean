import Verif.Model.Graph
/-! The events that a piece of a program causes. -/

namespace Verif
variable {F E : Type}

/-- the events that were published between `s` and `s'` -/
def eventsBetween (s s' : GS F E) : List Event := (s'.trace.drop s.trace.length).map Prod.fst

theorem eventsBetween_of {s s' : GS F E} {l : List (Event × G F E)} (h : s'.trace = s.trace ++ l) :
    eventsBetween s s' = l.map Prod.fst := by
  rw [eventsBetween, h, List.drop_left]

theorem eventsBetween_of_map {s s' : GS F E} {l : List Event} (h : s'.trace.map Prod.fst = s.trace.map Prod.fst ++ l) :
    eventsBetween s s' = l := by
  rw [eventsBetween, List.map_drop, h]
  simp

theorem eventsBetween_self (s : GS F E) : eventsBetween s s = [] := by simp [eventsBetween]

end Verif
