import Verif.Model.ManyGraphs
import Mathlib.Logic.Relation
/-! # Specification: threads using several wrapped graphs -/

namespace Verif
variable {T M σ ρ : Type}

/-- The thread, being inside the wrappers `H`, enters a wrapper `g` in which it is not yet only if `before h g` for all of them. -/
def Caller.Ordered (before : M → M → Prop) : List M → Caller M σ ρ → Prop
  | _, ret _ => True
  | H, raw _ k => ∀ s, (k s).Ordered before H
  | H, call g m b k =>
    (if m.locks then (g ∈ H ∨ ∀ h ∈ H, before h g) ∧ b.Ordered before (g :: H) else b.Ordered before H) ∧ ∀ r, (k r).Ordered before H
  | H, held g b k => (g ∈ H ∨ ∀ h ∈ H, before h g) ∧ b.Ordered before (g :: H) ∧ ∀ r, (k r).Ordered before H

/-- no wrapper comes, directly or through others, before itself -/
def Acyclic (before : M → M → Prop) : Prop := ∀ m, ¬ Relation.TransGen before m m

/-- The thread is never inside of two different wrappers.  `H`: the wrapper in which it is. -/
def Caller.OneAtATime : Option M → Caller M σ ρ → Prop
  | _, ret _ => True
  | H, raw _ k => ∀ s, (k s).OneAtATime H
  | H, call g m b k =>
    (if m.locks then (∀ h, H = some h → h = g) ∧ b.OneAtATime (some g) else b.OneAtATime H) ∧ ∀ r, (k r).OneAtATime H
  | H, held g b k => (∀ h, H = some h → h = g) ∧ b.OneAtATime (some g) ∧ ∀ r, (k r).OneAtATime H

/-- the thread `t` waits for a mutex that another thread owns -/
def Many.Waits (c : Many T M σ ρ) (t : T) : Prop := ∃ m k u n, c.progs t = .lock m k ∧ c.owner m = some (u, n) ∧ u ≠ t

/-- the thread has finished -/
def Many.Finished (c : Many T M σ ρ) (t : T) : Prop := ∃ r, c.progs t = .done r

end Verif
