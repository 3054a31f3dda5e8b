import Verif.Lemmas.Threads
import Verif.Model.EnvireGraph
/-!
# C60: calls through the thread-safe wrapper are atomic

Any number of threads with any programs, any code `impl` of the graph functions (it may call the wrapper again, for example from
subscribers; `sem` is what the code does if it runs alone), any schedule.  The programs access the graph only by calls that lock or while
they hold the mutex (`Safe`).
-/

namespace Verif
variable {A T σ ρ : Type} [DecidableEq T]

/-- Nothing undefined happens and no two threads are ever inside the graph at the same time. -/
theorem C60_one_at_a_time {impl : Method → A → Prog σ ρ} (hi : ∀ m a, (impl m a).Paired 1 1) (us : T → User A σ ρ)
    (hs : ∀ t, (us t).Safe false) (s : σ) (sched : List T) :
    ∃ c, Threads.exec sched (.start s fun t => (us t).code impl) = some c ∧ ¬ c.Race ∧
      ∀ t f k, c.progs t = .step f k → ∃ n, c.owner = some (t, n) := by
  obtain ⟨c, h1, h2, -⟩ := Threads.exec_inv (Threads.start_inv (s := s) fun t => User.code_paired hi (hs t) 0 (by simp)) sched
  refine ⟨c, h1, h2.no_race, fun t f k ht => ?_⟩
  have := h2.paired t
  rw [ht] at this
  exact ⟨_, Threads.depth_owner h2 this.1⟩

/-- the second thread wants the mutex while the first one is inside: it stays where it is -/
example : ((Threads.exec [true, false, false] (.start 0 fun _ : Bool => (User.call Method.addFrame () fun _ => .ret ()).code (σ := Nat)
      fun _ _ => .step (· + 1) fun _ => .done ())).map fun c => (c.state, c.owner.map Prod.fst, c.log)) = some (0, some true, [true]) := rfl

/-- Whenever the mutex is free, the graph and what each thread has seen are those obtained by executing the operations one after the
other in the order in which they obtained the mutex.  If the mutex is not free, then this is so as soon as the owner has made its next
moves; the others have not seen anything of the unfinished operation. -/
theorem C60_serial {impl : Method → A → Prog σ ρ} {sem : Method → A → σ → σ × ρ} (hi : ∀ m a, (impl m a).Paired 1 1)
    (hsem : ∀ m a s, (impl m a).alone s = sem m a s) (us : T → User A σ ρ) (hs : ∀ t, (us t).Safe false) (s : σ) (sched : List T)
    {c : Threads T σ ρ} (hc : Threads.exec sched (.start s fun t => (us t).code impl) = some c) :
    ∃ s' us', serial sem c.log us s = some (s', us') ∧ (∀ t, (us' t).Safe false) ∧
      (c.owner = none → s' = c.state ∧ ∀ t, c.progs t = (us' t).code impl) ∧
      ∀ t n, c.owner = some (t, n) → (∀ u, u ≠ t → c.progs u = (us' u).code impl) ∧
        ∃ m c', Threads.exec (List.replicate m t) c = some c' ∧ c'.owner = none ∧ s' = c'.state ∧ c'.log = c.log ∧
          ∀ u, c'.progs u = (us' u).code impl := by
  obtain ⟨c0, h1, h2, l, h3, h4⟩ := Threads.exec_inv (Threads.start_inv (s := s) fun t => User.code_paired hi (hs t) 0 (by simp)) sched
  rw [hc] at h1; obtain rfl := Option.some.inj h1
  obtain rfl : c.log = l := by simpa [Threads.start] using h3
  obtain ⟨us', h5, h5', h6⟩ := Threads.serial_of_serialP hi hsem c.log us s hs (r := c.settle) h4
  refine ⟨_, us', h5, h5', fun ho => ?_, fun t n ho => ⟨fun u hu => ?_, ?_⟩⟩
  · have e : c.settle = (c.state, c.progs) := by simp [Threads.settle, ho]
    rw [e] at h6 ⊢
    exact ⟨rfl, fun t => congrFun h6 t⟩
  · rw [← congrFun h6 u]; simp [Threads.settle, ho, Threads.put, hu]
  · obtain ⟨m, hm⟩ := Threads.settle_exec (c.progs t) c t n h2 ho rfl
    exact ⟨m, _, hm, rfl, rfl, rfl, fun u => congrFun h6 u⟩

/-- the mutex is free after the first operation; the second thread has not begun -/
example : ((Threads.exec [true, true, true] (.start 0 fun _ : Bool => (User.call Method.addFrame () fun _ => .ret ()).code (σ := Nat)
      fun _ _ => .step (· + 1) fun _ => .done ())).map fun c => (c.state, c.owner, c.log)) = some (1, none, [true]) := rfl

/-- When all threads are finished, graph and results are those of the operations one after the other. -/
theorem C60_finished {impl : Method → A → Prog σ ρ} {sem : Method → A → σ → σ × ρ} (hi : ∀ m a, (impl m a).Paired 1 1)
    (hsem : ∀ m a s, (impl m a).alone s = sem m a s) (us : T → User A σ ρ) (hs : ∀ t, (us t).Safe false) (s : σ) (sched : List T)
    {c : Threads T σ ρ} (hc : Threads.exec sched (.start s fun t => (us t).code impl) = some c) (r : T → ρ)
    (hr : ∀ t, c.progs t = .done (r t)) : serial sem c.log us s = some (c.state, fun t => .ret (r t)) := by
  obtain ⟨c0, h1, h2, -⟩ := Threads.exec_inv (Threads.start_inv (s := s) fun t => User.code_paired hi (hs t) 0 (by simp)) sched
  rw [hc] at h1; obtain rfl := Option.some.inj h1
  obtain ⟨s', us', h3, h3', h4, -⟩ := C60_serial hi hsem us hs s sched hc
  have ho : c.owner = none := by
    cases ho : c.owner with
    | none => rfl
    | some x =>
      have h5 := h2.paired x.1
      have h6 := h2.pos x.1 x.2 ho
      rw [hr] at h5; simp [Prog.Paired, Threads.depth, ho] at h5; omega
  obtain ⟨rfl, h5⟩ := h4 ho
  rw [h3]
  congr 2
  funext t
  exact User.code_done (h3' t) ((h5 t).symm.trans (hr t))

/-- one adds 1, the other doubles: the order in which they obtained the mutex decides -/
example : ((Threads.exec [false, true, false, false, true, true, true] (.start 3 fun _ : Bool => (User.call Method.addFrame () fun _ => .ret ()).code (σ := Nat)
      fun _ _ => .step (· + 1) fun _ => .done ())).map fun c => (c.state, c.log)) = some (5, [false, true]) := rfl

/-- a thread that makes these calls, one after the other -/
def C60_caller {C σ : Type} : List (Method × C) → User C σ Unit
  | [] => .ret ()
  | (m, c) :: cs => .call m c fun _ => C60_caller cs

/-- what a call does with the graph; `none`: undefined behaviour before -/
def C60_sem {E : Type} [EdgeProp E] (_ : Method) (c : EG.Cmd E) (s : Option (EG E)) : Option (EG E) × Unit :=
  (s.bind fun s => EG.run [c] s, ())

private theorem run_append {E : Type} [EdgeProp E] (cs ds : List (EG.Cmd E)) (s : EG E) : EG.run (cs ++ ds) s = (EG.run cs s).bind (EG.run ds) := by
  induction cs generalizing s with
  | nil => rfl
  | cons c cs ih =>
    simp only [List.cons_append, EG.run]
    split <;> simp [ih]

private theorem serial_caller {E : Type} [EdgeProp E] (l : List T) : ∀ (ls : T → List (Method × EG.Cmd E)) (us : T → User (EG.Cmd E) (Option (EG E)) Unit)
    (s s' : Option (EG E)) (us' : T → User (EG.Cmd E) (Option (EG E)) Unit), (∀ t, us t = C60_caller (ls t)) →
    serial C60_sem l us s = some (s', us') →
    ∃ (w : List (T × EG.Cmd E)) (rest : T → List (Method × EG.Cmd E)), w.map Prod.fst = l ∧ s' = s.bind (EG.run (w.map Prod.snd)) ∧
      (∀ t, us' t = C60_caller (rest t)) ∧ ∀ t, (w.filter (fun x => x.1 = t)).map Prod.snd ++ (rest t).map Prod.snd = (ls t).map Prod.snd := by
  induction l with
  | nil =>
    intro ls us s s' us' h1 h2
    simp [serial] at h2
    obtain ⟨rfl, rfl⟩ := h2
    exact ⟨[], ls, rfl, by cases s <;> rfl, h1, by simp⟩
  | cons t l ih =>
    intro ls us s s' us' h1 h2
    simp only [serial] at h2
    rw [h1 t] at h2
    cases hl : ls t with
    | nil => simp [hl, C60_caller, User.next] at h2
    | cons mc cs =>
      obtain ⟨m, c⟩ := mc
      simp only [hl, C60_caller, User.next] at h2
      obtain ⟨w, rest, g1, g2, g3, g4⟩ := ih (fun x => if x = t then cs else ls x) _ _ _ _ (fun x => by
        show (if x = t then C60_caller cs else us x) = _
        split
        · rfl
        · exact h1 x) h2
      refine ⟨(t, c) :: w, rest, by simp [g1], ?_, g3, fun x => ?_⟩
      · rw [g2]
        cases s with
        | none => rfl
        | some s => simpa [C60_sem] using (run_append [c] (w.map Prod.snd) s).symm
      · have := g4 x
        by_cases e : x = t
        · subst e; simpa [hl] using this
        · simp only [e, if_false] at this; simp [Ne.symm e, this]

/-- For `EnvireGraph` itself: threads that make calls.  Whenever the mutex is free, the graph is the one after a history of whole calls of
one thread (`EG.run`), which takes from each thread a beginning of its calls, in order; everything proved about histories holds. -/
theorem C60_envire_graph {E : Type} [EdgeProp E] {impl : Method → EG.Cmd E → Prog (Option (EG E)) Unit}
    (hi : ∀ m a, (impl m a).Paired 1 1) (hsem : ∀ m a s, (impl m a).alone s = C60_sem m a s) (calls : T → List (Method × EG.Cmd E))
    (hl : ∀ t, ∀ x ∈ calls t, x.1 ≠ .containsEdge) (s : EG E) (sched : List T) {c : Threads T (Option (EG E)) Unit}
    (hc : Threads.exec sched (.start (some s) fun t => (C60_caller (calls t)).code impl) = some c) (ho : c.owner = none) :
    ∃ w : List (T × EG.Cmd E), w.map Prod.fst = c.log ∧ c.state = EG.run (w.map Prod.snd) s ∧
      (∀ t, (w.filter (fun x => x.1 = t)).map Prod.snd <+: (calls t).map Prod.snd) ∧
      ((∀ t, c.progs t = .done ()) → ∀ t, (w.filter (fun x => x.1 = t)).map Prod.snd = (calls t).map Prod.snd) := by
  have hs : ∀ t, (C60_caller (σ := Option (EG E)) (calls t)).Safe false := by
    intro t
    have := hl t
    generalize calls t = cs at this
    induction cs with
    | nil => trivial
    | cons x cs ih => exact ⟨.inl (this x (by simp)), fun _ => ih fun y hy => this y (by simp [hy])⟩
  obtain ⟨s', us', h1, -, h2, -⟩ := C60_serial hi hsem _ hs (some s) sched hc
  obtain ⟨rfl, -⟩ := h2 ho
  obtain ⟨w, rest, h3, h4, h5, h6⟩ := serial_caller c.log calls _ _ _ _ (fun _ => rfl) h1
  refine ⟨w, h3, by simpa using h4, fun t => ⟨_, h6 t⟩, fun hd t => ?_⟩
  have h7 := C60_finished hi hsem _ hs (some s) sched hc (fun _ => ()) hd
  rw [h1] at h7
  have h8 : us' t = .ret () := by simpa using congrFun (Prod.mk.inj (Option.some.inj h7)).2 t
  rw [h5 t] at h8
  cases hr : rest t with
  | nil => have := h6 t; rw [hr] at this; simpa using this
  | cons x xs => rw [hr] at h8; simp [C60_caller] at h8

/-- Two threads each add one to a counter in two accesses (read, write) of a locking method.  In this schedule the second thread tries to
get the mutex in the middle of the operation of the first one. -/
example : ((Threads.exec [true, true, false, true, false, true, false, false, false, false]
    (.start 0 fun _ : Bool => (C60_caller [(.addFrame, ())]).code (σ := Nat)
      fun _ _ => .step id fun s => .step (fun _ => s + 1) fun _ => .done ())).map fun c => (c.state, c.log)) = some (2, [true, false]) := rfl

end Verif
