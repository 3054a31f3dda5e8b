import Verif.Model.Threads
/-!
# Threads using several graphs through `ThreadSaveEnvireGraph` (src/util/ThreadSaveEnvireGraph.hpp)

As `Model/Threads.lean`, with one recursive mutex for each wrapper.  Functions of the user run while a wrapper holds its mutex: the
function given to `visitItems` (ThreadSaveEnvireGraph.hpp:175-178), the handlers of events that a call publishes ("using a recursive mutex
to allow graph modifications", :199), everything between `lock()` and `unlock()` (:183-192) and during the life of an access object (:62-64).
They may call other wrappers.
-/

namespace Verif

/-- what a thread still has to do; `M`: the wrappers -/
inductive MProg (M σ ρ : Type)
  | done (r : ρ)
  | lock (m : M) (k : MProg M σ ρ)
  | unlock (m : M) (k : MProg M σ ρ)
  | step (f : σ → σ) (k : σ → MProg M σ ρ)

namespace MProg
variable {M σ ρ τ : Type}

/-- one after the other -/
def bind : MProg M σ ρ → (ρ → MProg M σ τ) → MProg M σ τ
  | done r, k => k r
  | lock m p, k => lock m (p.bind k)
  | unlock m p, k => unlock m (p.bind k)
  | step f p, k => step f (fun s => (p s).bind k)

/-- `std::lock_guard<std::recursive_mutex> lock(mutex);` before `body` -/
def guarded (m : M) (body : MProg M σ ρ) : MProg M σ ρ := lock m (body.bind fun r => unlock m (done r))

end MProg

/-- What the program of a thread does: return; access the data of the graphs (`raw`: a step of the code of the graph, or an access of the
user through a pointer); call a member function of the wrapper `g`; do something while holding the mutex of `g`.  The body of a call is
the code of the graph together with the functions of the user that it runs. -/
inductive Caller (M σ ρ : Type)
  | ret (r : ρ)
  | raw (f : σ → σ) (k : σ → Caller M σ ρ)
  | call (g : M) (m : Method) (body : Caller M σ ρ) (k : ρ → Caller M σ ρ)
  | held (g : M) (body : Caller M σ ρ) (k : ρ → Caller M σ ρ)

/-- the code of a thread -/
def Caller.code {M σ ρ : Type} : Caller M σ ρ → MProg M σ ρ
  | ret r => .done r
  | raw f k => .step f fun s => (k s).code
  | call g m b k => (if m.locks then b.code.guarded g else b.code).bind fun r => (k r).code
  | held g b k => (b.code.guarded g).bind fun r => (k r).code

/-- all threads: the shared state, owner and count of each mutex, what each thread still has to do -/
structure Many (T M σ ρ : Type) where
  state : σ
  owner : M → Option (T × Nat)
  progs : T → MProg M σ ρ

namespace Many
variable {T M σ ρ : Type} [DecidableEq T] [DecidableEq M]

/-- thread `t` goes on with `p` -/
def put (c : T → MProg M σ ρ) (t : T) (p : MProg M σ ρ) : T → MProg M σ ρ := fun u => if u = t then p else c u

/-- the mutex `m` gets the owner `x` -/
def own (o : M → Option (T × Nat)) (m : M) (x : Option (T × Nat)) : M → Option (T × Nat) := fun n => if n = m then x else o n

/-- Thread `t` makes one move.  A thread that waits for a mutex does not move.  Unlocking a mutex that one does not own is undefined
(`none`). -/
def turn (t : T) (c : Many T M σ ρ) : Option (Many T M σ ρ) :=
  match c.progs t with
  | .done _ => some c
  | .lock m k =>
    match c.owner m with
    | none => some { c with owner := own c.owner m (some (t, 1)), progs := put c.progs t k }
    | some (u, n) => if u = t then some { c with owner := own c.owner m (some (t, n + 1)), progs := put c.progs t k } else some c
  | .unlock m k =>
    match c.owner m with
    | none => none
    | some (u, n) =>
      if u = t then some { c with owner := own c.owner m (if n ≤ 1 then none else some (t, n - 1)), progs := put c.progs t k } else none
  | .step f k => some { c with state := f c.state, progs := put c.progs t (k c.state) }

/-- the threads move in the order of the schedule -/
def exec : List T → Many T M σ ρ → Option (Many T M σ ρ)
  | [], c => some c
  | t :: ts, c => (turn t c).bind (exec ts)

/-- before the first move -/
def start (s : σ) (ps : T → MProg M σ ρ) : Many T M σ ρ := ⟨s, fun _ => none, ps⟩

end Many
end Verif
