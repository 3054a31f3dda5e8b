import Verif.Model.Basic
import Mathlib.Data.Finset.Basic
/-!
# Specification of an observer that rebuilds the graph from events

Strict: it stops (`none`) at the first event that does not make sense, for example an edge between unknown frames, a frame that
is announced twice, or the removal of a frame that still has connections.
-/

namespace Verif

/-- what the observer knows: names of frames and ordered pairs that are connected -/
structure Mirror where
  frames : Finset FrameId
  conns : Finset (FrameId × FrameId)

namespace Mirror

/-- knows nothing -/
def empty : Mirror := ⟨∅, ∅⟩

/-- handle one event -/
def apply (m : Mirror) : Event → Option Mirror
  | .frameAdded f => if f ∈ m.frames then none else some { m with frames := insert f m.frames }
  | .frameRemoved f =>
    if f ∈ m.frames ∧ ∀ c ∈ m.conns, c.1 ≠ f ∧ c.2 ≠ f then some { m with frames := m.frames.erase f } else none
  | .edgeAdded a b _ =>
    if a ∈ m.frames ∧ b ∈ m.frames ∧ a ≠ b ∧ (a, b) ∉ m.conns then
      some { m with conns := insert (a, b) (insert (b, a) m.conns) }
    else none
  | .edgeModified a b _ _ => if (a, b) ∈ m.conns then some m else none
  | .edgeRemoved a b =>
    if (a, b) ∈ m.conns then some { m with conns := (m.conns.erase (a, b)).erase (b, a) } else none
  | .itemAdded .. | .itemRemoved .. => some m

/-- handle events in order -/
def replay (m : Mirror) : List Event → Option Mirror
  | [] => some m
  | e :: es => (m.apply e).bind (fun m' => m'.replay es)

end Mirror
end Verif
