import Verif.Model.Threads
/-! # Threads one after the other -/

namespace Verif
variable {A T σ ρ : Type}

/-- The program accesses the graph only through calls other than `containsEdge`, or while it holds the mutex (`h`). -/
def User.Safe (h : Bool) : User A σ ρ → Prop
  | ret _ => True
  | call m _ k => (m ≠ .containsEdge ∨ h = true) ∧ ∀ r, (k r).Safe h
  | held b k => b.Safe true ∧ ∀ r, (k r).Safe h
  | raw _ k => h = true ∧ ∀ s, (k s).Safe h

/-- What `p` does if no other thread runs; mutexes do not matter then. -/
def Prog.alone : Prog σ ρ → σ → σ × ρ
  | done r, s => (s, r)
  | lock k, s => k.alone s
  | unlock k, s => k.alone s
  | step f k, s => (k s).alone (f s)

/-- `p` is a piece of code of the graph: it locks and unlocks in pairs (calls from inside, for example from subscribers, may lock
again), starting and ending with the count `lo`; `d` is the count now; it accesses the graph only while the mutex is held. -/
def Prog.Paired (lo : Nat) : Nat → Prog σ ρ → Prop
  | d, done _ => d = lo
  | d, lock k => k.Paired lo (d + 1)
  | d, unlock k => lo < d ∧ k.Paired lo (d - 1)
  | d, step _ k => 0 < d ∧ ∀ s, (k s).Paired lo d

/-- The program of one thread, run alone; `sem` is the meaning of the functions of the graph. -/
def User.alone (sem : Method → A → σ → σ × ρ) : User A σ ρ → σ → σ × ρ
  | ret r, s => (s, r)
  | call m a k, s => (k (sem m a s).2).alone sem (sem m a s).1
  | held b k, s => (k (b.alone sem s).2).alone sem (b.alone sem s).1
  | raw f k, s => (k s).alone sem (f s)

/-- The next operation of a thread, in one piece. -/
def User.next (sem : Method → A → σ → σ × ρ) : User A σ ρ → σ → Option (σ × User A σ ρ)
  | ret _, _ => none
  | call m a k, s => some ((sem m a s).1, k (sem m a s).2)
  | held b k, s => some ((b.alone sem s).1, k (b.alone sem s).2)
  | raw _ _, _ => none

/-- Whole operations, one after the other; the list says which thread is next. -/
def serial [DecidableEq T] (sem : Method → A → σ → σ × ρ) : List T → (T → User A σ ρ) → σ → Option (σ × (T → User A σ ρ))
  | [], us, s => some (s, us)
  | t :: ts, us, s =>
    match (us t).next sem s with
    | none => none
    | some (s', u) => serial sem ts (fun x => if x = t then u else us x) s'

end Verif
