import Verif.Lemmas.ManyGraphs
set_option linter.unusedSectionVars false
set_option synthInstance.maxSize 1024
/-! # C98: threads that use several wrapped graphs never block each other for good

False: two threads that call one wrapper inside of a function that runs under the mutex of another one can wait for each other for ever.
It holds if the order in which the wrappers are entered has no cycle, for instance if no thread is inside of two wrappers. -/

namespace Verif
open Many
variable {T M σ ρ : Type} [DecidableEq T] [DecidableEq M]

/-- the threads run the programs `us` -/
def Many.run (us : T → Caller M σ ρ) (s : σ) (ts : List T) : Option (Many T M σ ρ) := exec ts (start s fun t => (us t).code)

/-- The full claim: whatever happened, all threads can still finish. -/
def C98_statement (T M σ ρ : Type) [DecidableEq T] [DecidableEq M] : Prop :=
  ∀ (us : T → Caller M σ ρ) (s : σ) (ts : List T), ∃ ts' c, Many.run us s (ts ++ ts') = some c ∧ ∀ t, c.Finished t

/-- No mutex is ever given back by a thread that does not own it, whatever the threads do. -/
theorem C98_defined (us : T → Caller M σ ρ) (s : σ) (ts : List T) : ∃ c, Many.run us s ts = some c := by
  obtain ⟨c, hc, -⟩ := Fine.exec (R := fun _ _ => True) ts
    (Fine.start (s := s) fun t => (us t).ordered_any [] |> Caller.Ordered.ranked (us t) (by simp))
  exact ⟨c, hc⟩

/-- A thread that has finished owns no mutex. -/
theorem C98_released (us : T → Caller M σ ρ) (s : σ) (ts : List T) {c : Many T M σ ρ} (h : Many.run us s ts = some c) {t : T}
    (hd : c.Finished t) (m : M) (n : Nat) : c.owner m ≠ some (t, n) := by
  obtain ⟨c', hc, hf⟩ := Fine.exec (R := fun _ _ => True) ts
    (Fine.start (s := s) fun t => (us t).ordered_any [] |> Caller.Ordered.ranked (us t) (by simp))
  rw [Many.run] at h
  rw [h] at hc; cases hc
  intro ho
  obtain ⟨r, hr⟩ := hd
  have h1 := hf.ranked t
  rw [hr] at h1
  have h2 := congrFun h1 m
  have h3 := hf.pos m t n ho
  simp [holds, ho] at h2
  omega

/-- If the wrappers are entered in an order without a cycle, then in every reachable situation some thread can move unless all have finished. -/
theorem C98_moves_partial [Finite T] {before : M → M → Prop} (hb : Acyclic before) (us : T → Caller M σ ρ) (ho : ∀ t, (us t).Ordered before [])
    (s : σ) (ts : List T) : ∃ c, Many.run us s ts = some c ∧ ((∀ t, c.Finished t) ∨ ∃ t, ¬ c.Finished t ∧ ¬ c.Waits t) := by
  obtain ⟨c, hc, hf⟩ := Fine.exec ts (Fine.start (s := s) fun t => Caller.Ordered.ranked (us t) (by simp) (ho t))
  refine ⟨c, hc, ?_⟩
  by_cases h : ∀ t, c.Finished t
  · exact Or.inl h
  · push Not at h
    obtain ⟨t, h⟩ := h
    exact Or.inr (hf.no_deadlock hb t h)

/-- If the wrappers are entered in an order without a cycle, then whatever happened, all threads can still finish. -/
theorem C98_ordered_partial [Finite T] {before : M → M → Prop} (hb : Acyclic before) (us : T → Caller M σ ρ)
    (ho : ∀ t, (us t).Ordered before []) (s : σ) (ts : List T) :
    ∃ ts' c, Many.run us s (ts ++ ts') = some c ∧ ∀ t, c.Finished t := by
  have := Fintype.ofFinite T
  obtain ⟨c, hc, hf⟩ := Fine.exec ts (Fine.start (s := s) fun t => Caller.Ordered.ranked (us t) (by simp) (ho t))
  obtain ⟨ts', c', h1, h2⟩ := hf.finish hb
  exact ⟨ts', c', by rw [Many.run, exec_append, hc]; exact h1, h2⟩

/-- So they can if no thread is ever inside of two different wrappers. -/
theorem C98_one_partial [Finite T] (us : T → Caller M σ ρ) (ho : ∀ t, (us t).OneAtATime none) (s : σ) (ts : List T) :
    ∃ ts' c, Many.run us s (ts ++ ts') = some c ∧ ∀ t, c.Finished t := by
  refine C98_ordered_partial (before := fun _ _ => False) ?_ us (fun t => (ho t).ordered (us t) (by simp) (by simp)) s ts
  intro m hm
  rcases hm with h | ⟨-, h⟩ <;> exact h

/-- A program that enters `a` and inside of it `b` by calls of member functions. -/
def nested (a : M) (m : Method) (b : M) (m' : Method) (body : Caller M σ ρ) (k k' : ρ → Caller M σ ρ) : Caller M σ ρ :=
  .call a m (.call b m' body k) k'

private theorem nested_code {a : M} {m : Method} {b : M} {m' : Method} (body : Caller M σ ρ) (k k' : ρ → Caller M σ ρ)
    (hm : m.locks = true) (hm' : m'.locks = true) : ∃ q, (nested a m b m' body k k').code = .lock a (.lock b q) := by
  simp only [nested, Caller.code, hm, hm', if_true, MProg.guarded, MProg.bind]
  exact ⟨_, rfl⟩

/-- all of the threads in `S` wait for a mutex that another one of them owns -/
private def Stuck (S : List T) (c : Many T M σ ρ) : Prop :=
  ∀ t ∈ S, ∃ m k u n, c.progs t = .lock m k ∧ c.owner m = some (u, n) ∧ u ≠ t ∧ u ∈ S

private theorem stuck_turn {S : List T} {c : Many T M σ ρ} (h : Stuck S c) (t : T) {c' : Many T M σ ρ} (hc : turn t c = some c') :
    Stuck S c' := by
  by_cases ht : t ∈ S
  · obtain ⟨m, k, u, n, h1, h2, h3, -⟩ := h t ht
    simp [turn, h1, h2, h3] at hc
    subst hc; exact h
  · intro v hv
    obtain ⟨m, k, u, n, h1, h2, h3, h4⟩ := h v hv
    have hvt : v ≠ t := fun e => ht (e ▸ hv)
    have hut : u ≠ t := fun e => ht (e ▸ h4)
    refine ⟨m, k, u, n, ?_, ?_, h3, h4⟩
    · unfold turn at hc
      split at hc
      · cases hc; exact h1
      · split at hc
        · cases hc; simp [put, hvt, h1]
        · split at hc <;> cases hc
          · simp [put, hvt, h1]
          · exact h1
      · split at hc
        · cases hc
        · split at hc <;> cases hc
          simp [put, hvt, h1]
      · cases hc; simp [put, hvt, h1]
    · unfold turn at hc
      split at hc
      · cases hc; exact h2
      · rename_i m' k' hp
        split at hc
        · rename_i ho
          cases hc
          have : m ≠ m' := by rintro rfl; rw [h2] at ho; cases ho
          simp [own, this, h2]
        · rename_i x y ho
          split at hc <;> cases hc
          · rename_i hx
            have : m ≠ m' := by rintro rfl; rw [h2] at ho; cases ho; exact hut hx
            simp [own, this, h2]
          · exact h2
      · rename_i m' k' hp
        split at hc
        · cases hc
        · rename_i x y ho
          split at hc <;> cases hc
          rename_i hx
          have : m ≠ m' := by rintro rfl; rw [h2] at ho; cases ho; exact hut hx
          simp [own, this, h2]
      · cases hc; exact h2

private theorem stuck_exec {S : List T} (ts : List T) : ∀ {c c' : Many T M σ ρ}, Stuck S c → exec ts c = some c' → Stuck S c' := by
  induction ts with
  | nil => intro c c' h hc; cases hc; exact h
  | cons t ts ih =>
    intro c c' h hc
    simp only [exec, Option.bind_eq_some_iff] at hc
    obtain ⟨c1, h1, h2⟩ := hc
    exact ih (stuck_turn h t h1) h2

private theorem each_enters (g : T → M) (p : T → MProg M σ ρ) (S : List T) : ∀ (ts : List T) (c : Many T M σ ρ), ts.Nodup → (∀ t ∈ ts, t ∈ S) →
    (∀ t ∈ S, ∀ u ∈ S, g t = g u → t = u) → (∀ t ∈ ts, c.progs t = .lock (g t) (p t)) → (∀ t ∈ ts, c.owner (g t) = none) →
    ∃ c', exec ts c = some c' ∧ (∀ t ∈ ts, c'.progs t = p t ∧ c'.owner (g t) = some (t, 1)) ∧
      (∀ t, t ∉ ts → c'.progs t = c.progs t) ∧ ∀ m, (∀ t ∈ ts, g t ≠ m) → c'.owner m = c.owner m := by
  intro ts
  induction ts with
  | nil => intro c _ _ _ _ _; exact ⟨c, rfl, by simp, fun _ _ => rfl, fun _ _ => rfl⟩
  | cons t ts ih =>
    intro c hn hs hg hp ho
    have hn' := List.nodup_cons.1 hn
    have h1 : turn t c = some { c with owner := own c.owner (g t) (some (t, 1)), progs := put c.progs t (p t) } := by
      simp [turn, hp t (by simp), ho t (by simp)]
    have hne : ∀ u ∈ ts, u ≠ t := fun u hu e => hn'.1 (e ▸ hu)
    have hgne : ∀ u ∈ ts, g u ≠ g t := fun u hu e => hne u hu (hg u (hs u (by simp [hu])) t (hs t (by simp)) e)
    obtain ⟨c', k1, k2, k3, k4⟩ := ih { c with owner := own c.owner (g t) (some (t, 1)), progs := put c.progs t (p t) } hn'.2
      (fun u hu => hs u (by simp [hu])) hg
      (fun u hu => by simp [put, hne u hu, hp u (by simp [hu])])
      (fun u hu => by simp [own, hgne u hu, ho u (by simp [hu])])
    refine ⟨c', by simp only [exec, h1]; exact k1, ?_, ?_, ?_⟩
    · intro u hu
      rcases List.mem_cons.1 hu with rfl | hu
      · refine ⟨by rw [k3 u hn'.1]; simp [put], ?_⟩
        rw [k4 _ (fun v hv => hgne v hv)]; simp [own]
      · exact k2 u hu
    · intro u hu
      simp only [List.mem_cons, not_or] at hu
      rw [k3 u hu.2]; simp [put, hu.1]
    · intro m hm
      rw [k4 m (fun v hv => hm v (by simp [hv]))]
      simp [own, Ne.symm (hm t (by simp))]

/-- Threads `S` that each enter a wrapper of their own and inside of it that of another one of them: after each made one move they wait
for ever, whatever the other threads do. -/
theorem C98_deadlock (us : T → Caller M σ ρ) (S : List T) (hn : S.Nodup) (g : T → M) (hg : ∀ t ∈ S, ∀ u ∈ S, g t = g u → t = u)
    (nx : T → T) (hx : ∀ t ∈ S, nx t ∈ S ∧ nx t ≠ t)
    (hu : ∀ t ∈ S, ∃ m m' body k k', m.locks = true ∧ m'.locks = true ∧ us t = nested (g t) m (g (nx t)) m' body k k') (s : σ) (ts : List T) :
    ∃ c, Many.run us s (S ++ ts) = some c ∧ ∀ t ∈ S, c.Waits t ∧ ¬ c.Finished t := by
  have hq : ∀ t, ∃ q, t ∈ S → (us t).code = .lock (g t) (.lock (g (nx t)) q) := by
    intro t
    by_cases ht : t ∈ S
    · obtain ⟨m, m', body, k, k', h1, h2, h3⟩ := hu t ht
      obtain ⟨q, hq⟩ := nested_code (a := g t) (b := g (nx t)) body k k' h1 h2
      exact ⟨q, fun _ => by rw [h3, hq]⟩
    · exact ⟨.unlock (g t) (us t).code, fun h => absurd h ht⟩
  choose q hq using hq
  obtain ⟨c1, h1, h2, -, -⟩ := each_enters g (fun t => .lock (g (nx t)) (q t)) S S (start s fun t => (us t).code) hn (fun _ h => h) hg
    (fun t ht => hq t ht) (fun _ _ => rfl)
  have hst : Stuck S c1 := by
    intro t ht
    exact ⟨_, _, nx t, 1, (h2 t ht).1, (h2 _ (hx t ht).1).2, (hx t ht).2, (hx t ht).1⟩
  obtain ⟨c, hc⟩ := C98_defined us s (S ++ ts)
  refine ⟨c, hc, fun t ht => ?_⟩
  rw [Many.run, exec_append, h1] at hc
  obtain ⟨m, k, u, n, k1, k2, k3, -⟩ := stuck_exec ts hst hc t ht
  exact ⟨⟨m, k, u, n, k1, k2, k3⟩, fun ⟨r, hr⟩ => by rw [k1] at hr; cases hr⟩

/-- The full claim fails as soon as there are two threads and two wrappers. -/
theorem C98_statement_fails [Nontrivial T] [Nontrivial M] [Inhabited σ] [Inhabited ρ] : ¬ C98_statement T M σ ρ := by
  intro h
  obtain ⟨t, u, htu⟩ := exists_pair_ne T
  obtain ⟨a, b, hab⟩ := exists_pair_ne M
  let g : T → M := fun v => if v = t then a else b
  let nx : T → T := fun v => if v = t then u else t
  let us : T → Caller M σ ρ := fun v => nested (g v) .visitItems (g (nx v)) .addFrame (.ret default) (fun r => .ret r) (fun r => .ret r)
  obtain ⟨ts', c, h1, h2⟩ := h us default [t, u]
  obtain ⟨c', k1, k2⟩ := C98_deadlock us [t, u] (by simp [htu]) g
    (by intro x hx y hy; simp at hx hy; rcases hx with rfl | rfl <;> rcases hy with rfl | rfl <;> simp [g, htu, Ne.symm htu, hab, Ne.symm hab])
    nx (by intro x hx; simp at hx; rcases hx with rfl | rfl <;> simp [nx, htu, Ne.symm htu])
    (fun x _ => ⟨_, _, _, _, _, rfl, rfl, rfl⟩) default ts'
  rw [h1] at k1; cases k1
  exact (k2 t (by simp)).2 (h2 t)

/-! Examples: two threads, two wrappers, both count accesses in the shared state. -/

namespace ManyDemo

/-- one access to the data -/
def tick (r : Nat) : Caller Bool Nat Nat := .raw (· + 1) fun s => .ret (s + r)

/-- both threads visit the items of `false` and in the visitor add a frame to `true` -/
def good : Bool → Caller Bool Nat Nat := fun _ => nested false .visitItems true .addFrame (tick 10) .ret fun r => .held true (tick r) .ret

/-- each thread visits the items of its own graph and in the visitor adds a frame to the other one -/
def bad : Bool → Caller Bool Nat Nat := fun t => nested t .visitItems (!t) .addFrame (tick 10) .ret .ret

/-- what a thread returned -/
def result (c : Many Bool Bool Nat Nat) (t : Bool) : Option Nat := match c.progs t with | .done r => some r | _ => none

-- the second thread waits until the first one is out of the first graph
example : (Many.run good 0 [false, true, false, true, false, false, false]).map
    (fun c => (result c false, result c true, c.owner false, c.owner true, c.state)) = some (none, none, none, none, 1) := by decide +kernel
example : (Many.run good 0 ([false, true, false, true, false] ++ List.replicate 8 true ++ List.replicate 6 false ++ List.replicate 8 true)).map
    (fun c => (result c false, result c true, c.owner false, c.owner true, c.state)) = some (some 11, some 15, none, none, 4) := by decide +kernel
-- each alone is fine
example : (Many.run bad 0 (List.replicate 5 false ++ List.replicate 5 true)).map
    (fun c => (result c false, result c true, c.owner false, c.owner true, c.state)) = some (some 10, some 11, none, none, 2) := by decide +kernel
-- together they are stuck
example : (Many.run bad 0 ([false, true] ++ List.replicate 50 false ++ List.replicate 50 true)).map
    (fun c => (result c false, result c true, c.owner false, c.owner true, c.state)) =
      some (none, none, some (false, 1), some (true, 1), 0) := by decide +kernel
-- `containsEdge` does not lock, so with it nothing is stuck
example : (Many.run (fun t => nested t .visitItems (!t) .containsEdge (tick 10) Caller.ret Caller.ret) 0 [false, true, false, false, true, true]).map
    (fun c => (result c false, result c true, c.owner false, c.owner true, c.state)) = some (some 10, some 11, none, none, 2) := by decide +kernel
-- the mutexes are recursive: the same graph again inside of it
example : (Many.run (fun t => nested t .visitItems t .addFrame (tick 10) Caller.ret Caller.ret) 0 [false, false, true, true, true]).map
    (fun c => (result c false, c.owner false, c.owner true, c.state)) = some (none, some (false, 2), some (true, 2), 1) := by decide +kernel
-- ... and it is still locked after the inner call has returned
example : (Many.run (fun t => nested t .visitItems t .addFrame (tick 10) Caller.ret Caller.ret) 0 [false, false, false, false]).map
    (fun c => (result c false, c.owner false, c.owner true, c.state)) = some (none, some (false, 1), none, 1) := by decide +kernel
-- an access object holds the mutex, so the other thread waits
example : (Many.run (fun _ : Bool => (.held true (tick 3) .ret : Caller Bool Nat Nat)) 0 [false, true, true, false, false, true]).map
    (fun c => (result c false, result c true, c.owner true, c.state)) = some (some 3, none, some (true, 1), 1) := by decide +kernel

theorem good_ordered (t : Bool) : (good t).Ordered (fun a b => a = false ∧ b = true) [] := by
  simp [good, nested, tick, Caller.Ordered, Method.locks]

theorem before_acyclic : Acyclic (fun a b : Bool => a = false ∧ b = true) := by
  have : ∀ a b : Bool, Relation.TransGen (fun a b : Bool => a = false ∧ b = true) a b → a = false ∧ b = true := by
    intro a b h
    induction h with
    | single h => exact h
    | tail _ h1 h2 => exact ⟨h2.1, h1.2⟩
  intro m hm
  have := this m m hm
  rw [this.1] at this; cases this.2

example (ts : List Bool) : ∃ ts' c, Many.run good 0 (ts ++ ts') = some c ∧ ∀ t, c.Finished t :=
  C98_ordered_partial before_acyclic good good_ordered 0 ts
example (ts : List Bool) : ∃ c, Many.run good 0 ts = some c ∧ ((∀ t, c.Finished t) ∨ ∃ t, ¬ c.Finished t ∧ ¬ c.Waits t) :=
  C98_moves_partial before_acyclic good good_ordered 0 ts
example : ∃ ts' c, Many.run (fun t : Bool => (.call t .visitItems (tick 10) fun r => .call (!t) .addFrame (tick r) .ret : Caller Bool Nat Nat)) 0
    ([false, true] ++ ts') = some c ∧ ∀ t, c.Finished t :=
  C98_one_partial _ (by intro t; simp [tick, Caller.OneAtATime, Method.locks]) 0 _
example (ts : List Bool) : ∃ c, Many.run bad 0 ([false, true] ++ ts) = some c ∧ ∀ t ∈ [false, true], c.Waits t ∧ ¬ c.Finished t :=
  C98_deadlock bad [false, true] (by decide) id (by simp) not (by simp) (fun t _ => ⟨_, _, _, _, _, rfl, rfl, rfl⟩) 0 ts
example : ¬ C98_statement Bool Bool Nat Nat := C98_statement_fails
example : ∃ c, Many.run bad 0 [true, true, false] = some c := C98_defined bad 0 _
example {c} (h : Many.run bad 0 (List.replicate 5 false) = some c) : c.owner true ≠ some (false, 1) :=
  C98_released bad 0 _ h (by cases h; exact ⟨10, rfl⟩) true 1

end ManyDemo
end Verif
