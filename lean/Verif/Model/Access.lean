import Verif.Model.AMap
import Verif.Model.Basic
/-!
# Access objects of the thread-safe graph (src/util/ThreadSaveEnvireGraph.hpp:21-64, 183-192)

An access object has a shared pointer to a `lock_guard` of the recursive mutex.  Its destructor is declared by the user, so C++ gives it a
copy constructor and a copy assignment but no move: `GraphAccess b = std::move(a)` copies.  The `lock_guard` is destroyed, and the mutex
unlocked, by the thread that destroys the last copy.  Trusted: `std::recursive_mutex`, `std::lock_guard`, `std::shared_ptr`.
-/

namespace Verif

/-- The mutex (owner and how often it is locked), the living `lock_guard`s, and the guard of each access object.  Ghosts: the thread
that created each guard; one entry in `manual` for each `lock()` that was not undone by `unlock()`. -/
structure Access (T : Type) where
  owner : Option (T × Nat)
  guards : AMap Nat T
  objs : AMap Nat Nat
  next : Nat
  manual : List T
  deriving DecidableEq, Repr

/-- what the threads do with access objects; `x`, `y` are places where an object can be -/
inductive AOp (T : Type)
  /-- `GraphAccess x = graph->getThreadSaveAccess();` -/
  | take (t : T) (x : Nat)
  /-- `GraphAccess y = x;` or `GraphAccess y = std::move(x);` -/
  | copy (t : T) (x y : Nat)
  /-- `y = x;` -/
  | assign (t : T) (x y : Nat)
  /-- `x` is destroyed -/
  | drop (t : T) (x : Nat)
  /-- `graph->lock()` -/
  | lock (t : T)
  /-- `graph->unlock()` -/
  | unlock (t : T)

namespace Access
variable {T : Type} [DecidableEq T]

/-- nothing locked -/
def start : Access T := ⟨none, [], [], 0, []⟩

/-- `recursive_mutex::lock`; `none`: the thread has to wait -/
def acquire (t : T) : Option (T × Nat) → Option (T × Nat)
  | none => some (t, 1)
  | some (u, n) => if u = t then some (t, n + 1) else none

/-- `recursive_mutex::unlock`; `none`: the mutex is not owned by this thread, which is undefined behaviour -/
def release (t : T) : Option (T × Nat) → Option (Option (T × Nat))
  | none => none
  | some (u, n) => if u = t then some (if n ≤ 1 then none else some (t, n - 1)) else none

/-- A shared pointer to guard `g` is gone: the last one destroys the guard. -/
def unref (t : T) (g : Nat) (s : Access T) : Res (Access T) Bool :=
  if g ∈ s.objs.map (·.2) then .ok true s
  else
    match release t s.owner with
    | none => .ub "unlock: mutex owned by another thread"
    | some o => .ok true { s with owner := o, guards := s.guards.erase g }

/-- One operation; `ok false`: the thread has to wait and nothing happened.  Using a place with no object, or constructing an object
where one is, is not a C++ program. -/
def step : AOp T → Access T → Res (Access T) Bool
  | .take t x, s =>
    match s.objs.get x with
    | some _ => .ub "object exists"
    | none =>
      match acquire t s.owner with
      | none => .ok false s
      | some o => .ok true { s with owner := some o, guards := s.guards.set s.next t, objs := s.objs.set x s.next, next := s.next + 1 }
  | .copy _ x y, s =>
    match s.objs.get x, s.objs.get y with
    | some g, none => .ok true { s with objs := s.objs.set y g }
    | none, _ => .ub "no object"
    | _, some _ => .ub "object exists"
  | .assign t x y, s =>
    match s.objs.get x, s.objs.get y with
    | some g, some g' => if g = g' then .ok true s else unref t g' { s with objs := s.objs.set y g }
    | _, _ => .ub "no object"
  | .drop t x, s =>
    match s.objs.get x with
    | none => .ub "no object"
    | some g => unref t g { s with objs := s.objs.erase x }
  | .lock t, s =>
    match acquire t s.owner with
    | none => .ok false s
    | some o => .ok true { s with owner := some o, manual := t :: s.manual }
  | .unlock t, s =>
    match release t s.owner with
    | none => .ub "unlock: mutex owned by another thread"
    | some o => .ok true { s with owner := o, manual := s.manual.erase t }

/-- a history; `none` = undefined behaviour -/
def run : List (AOp T) → Access T → Option (Access T)
  | [], s => some s
  | o :: os, s =>
    match step o s with
    | .ok _ s' => run os s'
    | .throw _ s' => run os s'
    | .ub _ => none

end Access
end Verif
