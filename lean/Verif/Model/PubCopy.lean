import Verif.Model.Publisher
/-!
# Copies of publishers and subscribers

`GraphEventPublisher` and `GraphEventSubscriber` declare neither a copy constructor nor a copy assignment
(GraphEventPublisher.hpp:42-96, GraphEventSubscriber.hpp:39-58), so the implicit ones copy member by member.  They are used by
the implicit assignment of `Graph`, `TransformGraph` and `EnvireGraph`, and by copies and assignments of dispatchers, paths, queues
and of other classes that derive from `GraphEventPublisher`.  The copy constructors of the graphs do not copy the publisher
(Graph.hpp:402-418, EnvireGraph.cpp:39-55).
-/

namespace Verif

namespace PW

/-- Implicit copy constructor and copy assignment of `GraphEventSubscriber` (GraphEventSubscriber.hpp:39-58): `t` gets the
pointer of `s`, and no publisher hears of it.  A constructor makes `t`, an assignment overwrites the pointer that `t` had; the
effect on the members is the same. -/
def copySub (s t : SubId) (w : PW) : Res PW Unit :=
  if s ∈ w.deadSubs ∨ t ∈ w.deadSubs then .ub "copy of a destroyed subscriber" else .ok () (w.setPtr t (w.ptr s))

/-- Implicit copy constructor and copy assignment of `GraphEventPublisher` (GraphEventPublisher.hpp:42-96): all members. -/
def copyPub (p q : PubId) (w : PW) : Res PW Unit :=
  if p ∈ w.deadPubs ∨ q ∈ w.deadPubs then .ub "copy of a destroyed publisher"
  else .ok () (w.setPub q { w.pubs p with changes := (w.pubs q).changes + 1 })

end PW

/-- calls and copies -/
inductive CAct
  | call (a : Act)
  /-- `Subscriber t(s)` or `t = s` -/
  | copySub (s t : SubId)
  /-- `Publisher q(p)` or `q = p` -/
  | copyPub (p q : PubId)
  deriving DecidableEq, Repr

namespace PW

/-- one call or copy -/
def cact (env : PEnv) (n : Nat) : CAct → PW → Res PW Unit
  | .call a, w => act env n a w
  | .copySub s t, w => copySub s t w
  | .copyPub p q, w => copyPub p q w

/-- a program with copies; `none` = undefined behaviour -/
def crun (env : PEnv) (n : Nat) : List CAct → PW → Option PW
  | [], w => some w
  | a :: as, w =>
    match cact env n a w with
    | .ok _ w' => crun env n as w'
    | .throw _ w' => crun env n as w'
    | .ub _ => none

end PW
end Verif
