/-!
# Threads using a graph through `ThreadSaveEnvireGraph` (src/util/ThreadSaveEnvireGraph.hpp)

A thread is a tree: what it does next may depend on everything it has read.  The unit of interleaving is one access to the graph, so an
operation of the graph is a sequence of accesses, in between other threads can run.  Trusted: `std::recursive_mutex` and
`std::lock_guard`; sequentially consistent memory (in C++ two accesses that are not ordered by the mutex are a data race and therefore
undefined behaviour; this is the predicate `Race`).
-/

namespace Verif

/-- What a thread still has to do: nothing (with a result, exceptions are results), lock or unlock the mutex, or one access to the
shared state `σ`: change it by `f` and go on depending on what it was. -/
inductive Prog (σ ρ : Type)
  | done (r : ρ)
  | lock (k : Prog σ ρ)
  | unlock (k : Prog σ ρ)
  | step (f : σ → σ) (k : σ → Prog σ ρ)

namespace Prog
variable {σ ρ τ : Type}

/-- one after the other -/
def bind : Prog σ ρ → (ρ → Prog σ τ) → Prog σ τ
  | done r, k => k r
  | lock p, k => lock (p.bind k)
  | unlock p, k => unlock (p.bind k)
  | step f p, k => step f (fun s => (p s).bind k)

/-- `std::lock_guard<std::recursive_mutex> lock(mutex);` before `body`; unlocked when the block is left, also by an exception (then the
result of `body` is the exception). -/
def guarded (body : Prog σ ρ) : Prog σ ρ := lock (body.bind fun r => unlock (done r))

end Prog

/-- the member functions of `ThreadSaveEnvireGraph` (ThreadSaveEnvireGraph.hpp:82-178) -/
inductive Method
  | addFrame | removeFrame | clear | containsFrame | containsEdge | addTransform | updateTransform | removeTransform
  | getTransform | getPosition | getOrientation | getFrames | addItem | addItemToFrame | removeItemFromFrame | getItem | getItems
  | visitItems
  deriving DecidableEq, Repr

/-- Which of them begin with a `lock_guard`: all but `containsEdge` (ThreadSaveEnvireGraph.hpp:102-104). -/
def Method.locks : Method → Bool
  | .containsEdge => false
  | _ => true

/-- What the program of a thread does: return, call a member function with arguments of type `A`, do something while holding
the mutex (`getThreadSaveAccess()`, ThreadSaveEnvireGraph.hpp:62-64, or `lock()` ... `unlock()`, :183-192), or access the graph directly
through a pointer (`GraphAccess::operator->`, `getUnsafeGraph()`, or a reference returned by an earlier call). -/
inductive User (A σ ρ : Type)
  | ret (r : ρ)
  | call (m : Method) (a : A) (k : ρ → User A σ ρ)
  | held (b : User A σ ρ) (k : ρ → User A σ ρ)
  | raw (f : σ → σ) (k : σ → User A σ ρ)

/-- A call through the wrapper; `impl` is the code of the function of `EnvireGraph` that it calls. -/
def Method.wrapped {A σ ρ : Type} (impl : Method → A → Prog σ ρ) (m : Method) (a : A) : Prog σ ρ :=
  if m.locks then (impl m a).guarded else impl m a

/-- the code of a thread -/
def User.code {A σ ρ : Type} (impl : Method → A → Prog σ ρ) : User A σ ρ → Prog σ ρ
  | ret r => .done r
  | call m a k => (m.wrapped impl a).bind fun r => (k r).code impl
  | held b k => (b.code impl).guarded.bind fun r => (k r).code impl
  | raw f k => .step f fun s => (k s).code impl

/-- All threads: the shared state, owner and count of the recursive mutex, what each thread still has to do; `log` (ghost): the threads
in the order in which they obtained the free mutex. -/
structure Threads (T σ ρ : Type) where
  state : σ
  owner : Option (T × Nat)
  progs : T → Prog σ ρ
  log : List T

namespace Threads
variable {T σ ρ : Type} [DecidableEq T]

/-- thread `t` goes on with `p` -/
def put (c : T → Prog σ ρ) (t : T) (p : Prog σ ρ) : T → Prog σ ρ := fun u => if u = t then p else c u

/-- Thread `t` makes one move.  A thread that waits for the mutex does not move.  Unlocking a mutex that one does not own is undefined
(`none`). -/
def turn (t : T) (c : Threads T σ ρ) : Option (Threads T σ ρ) :=
  match c.progs t with
  | .done _ => some c
  | .lock k =>
    match c.owner with
    | none => some { c with owner := some (t, 1), progs := put c.progs t k, log := c.log ++ [t] }
    | some (u, n) => if u = t then some { c with owner := some (t, n + 1), progs := put c.progs t k } else some c
  | .unlock k =>
    match c.owner with
    | none => none
    | some (u, n) =>
      if u = t then some { c with owner := if n ≤ 1 then none else some (t, n - 1), progs := put c.progs t k } else none
  | .step f k => some { c with state := f c.state, progs := put c.progs t (k c.state) }

/-- the threads move in the order of the schedule -/
def exec : List T → Threads T σ ρ → Option (Threads T σ ρ)
  | [], c => some c
  | t :: ts, c => (turn t c).bind (exec ts)

/-- before the first move -/
def start (s : σ) (ps : T → Prog σ ρ) : Threads T σ ρ := ⟨s, none, ps, []⟩

/-- Two threads may access the graph at the same time. -/
def Race (c : Threads T σ ρ) : Prop := ∃ t u f k f' k', t ≠ u ∧ c.progs t = .step f k ∧ c.progs u = .step f' k'

end Threads
end Verif
