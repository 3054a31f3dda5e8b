import Verif.Spec.Mirror
/-!
# Specification of an observer that keeps sets of names

Unlike `Mirror.apply` it accepts every event: what is announced is inserted, what is taken back is erased.
-/

namespace Verif.Mirror

/-- handle one event, without any check -/
def take (m : Mirror) : Event → Mirror
  | .frameAdded f => { m with frames := insert f m.frames }
  | .frameRemoved f => { m with frames := m.frames.erase f }
  | .edgeAdded a b _ => { m with conns := insert (a, b) (insert (b, a) m.conns) }
  | .edgeRemoved a b => { m with conns := (m.conns.erase (a, b)).erase (b, a) }
  | .edgeModified .. | .itemAdded .. | .itemRemoved .. => m

end Verif.Mirror
