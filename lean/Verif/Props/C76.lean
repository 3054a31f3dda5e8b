import Verif.Lemmas.Threads
/-! # C76: threads that use the wrapper never block each other for good -/

namespace Verif
variable {A T σ ρ : Type} [DecidableEq T]

namespace Threads

/-- A thread can finish alone if nobody else owns the mutex. -/
private theorem finish_one (p : Prog σ ρ) : ∀ (c : Threads T σ ρ) (t : T), Inv c → (∀ u n, c.owner = some (u, n) → u = t) → c.progs t = p →
    ∃ m c', exec (List.replicate m t) c = some c' ∧ Inv c' ∧ c'.owner = none ∧ (∃ r, c'.progs t = .done r) ∧
      ∀ u, u ≠ t → c'.progs u = c.progs u := by
  have move : ∀ (c : Threads T σ ρ) (t : T) (q : Prog σ ρ) (c1 : Threads T σ ρ), turn t c = some c1 → c1.progs = put c.progs t q →
      (∃ m c', exec (List.replicate m t) c1 = some c' ∧ Inv c' ∧ c'.owner = none ∧ (∃ r, c'.progs t = .done r) ∧
        ∀ u, u ≠ t → c'.progs u = c1.progs u) →
      ∃ m c', exec (List.replicate m t) c = some c' ∧ Inv c' ∧ c'.owner = none ∧ (∃ r, c'.progs t = .done r) ∧
        ∀ u, u ≠ t → c'.progs u = c.progs u := by
    rintro c t q c1 h1 h2 ⟨m, c', h3, h4, h5, h6, h7⟩
    refine ⟨m + 1, c', by rw [List.replicate_succ, exec, h1]; exact h3, h4, h5, h6, fun u hu => ?_⟩
    rw [h7 u hu, h2]; simp [put, hu]
  induction p with
  | done r =>
    intro c t h ho hp
    refine ⟨0, c, rfl, h, ?_, ⟨r, hp⟩, fun _ _ => rfl⟩
    cases hq : c.owner with
    | none => rfl
    | some x =>
      have h1 := h.paired t
      have h2 := h.pos x.1 x.2 hq
      have h3 := ho x.1 x.2 hq
      rw [hp] at h1; simp [Prog.Paired, depth, hq, h3] at h1; omega
  | lock k ih =>
    intro c t h ho hp
    obtain ⟨c1, h1, h2, -⟩ := turn_inv h t
    have e : c1.progs = put c.progs t k ∧ ∀ u n, c1.owner = some (u, n) → u = t := by
      cases hq : c.owner with
      | none => simp [turn, hp, hq] at h1; subst h1; exact ⟨rfl, by simp +contextual [eq_comm]⟩
      | some x =>
        have h3 := ho x.1 x.2 hq
        simp [turn, hp, hq, h3] at h1; subst h1; exact ⟨rfl, by simp +contextual [eq_comm]⟩
    exact move c t k c1 h1 e.1 (ih c1 t h2 e.2 (by rw [e.1, put_same]))
  | unlock k ih =>
    intro c t h ho hp
    obtain ⟨c1, h1, h2, -⟩ := turn_inv h t
    have e : c1.progs = put c.progs t k ∧ ∀ u n, c1.owner = some (u, n) → u = t := by
      cases hq : c.owner with
      | none => simp [turn, hp, hq] at h1
      | some x =>
        have h3 := ho x.1 x.2 hq
        simp [turn, hp, hq, h3] at h1; subst h1
        refine ⟨rfl, fun u n hu => ?_⟩
        by_cases hn : x.2 ≤ 1
        · simp [hn] at hu
        · simp [hn] at hu; exact hu.1.symm
    exact move c t k c1 h1 e.1 (ih c1 t h2 e.2 (by rw [e.1, put_same]))
  | step f k ih =>
    intro c t h ho hp
    obtain ⟨c1, h1, h2, -⟩ := turn_inv h t
    have e : c1 = { c with state := f c.state, progs := put c.progs t (k c.state) } := by simp [turn, hp] at h1; exact h1.symm
    subst e
    exact move c t _ _ h1 rfl (ih _ _ t h2 ho (put_same _ _ _))

private theorem finish_all (ts : List T) : ∀ (c : Threads T σ ρ), Inv c → c.owner = none →
    ∃ l c', exec l c = some c' ∧ Inv c' ∧ c'.owner = none ∧ (∀ t ∈ ts, ∃ r, c'.progs t = .done r) ∧
      ∀ t r, c.progs t = .done r → c'.progs t = .done r := by
  induction ts with
  | nil => intro c h ho; exact ⟨[], c, rfl, h, ho, by simp, fun _ _ h => h⟩
  | cons t ts ih =>
    intro c h ho
    obtain ⟨m, c1, h1, h2, h3, ⟨r, h4⟩, h5⟩ := finish_one (c.progs t) c t h (by simp [ho]) rfl
    obtain ⟨l, c2, h6, h7, h8, h9, h10⟩ := ih c1 h2 h3
    refine ⟨List.replicate m t ++ l, c2, by rw [exec_append, h1]; exact h6, h7, h8, ?_, fun u x hu => ?_⟩
    · intro u hu
      rcases List.mem_cons.1 hu with rfl | hu
      · exact ⟨r, h10 _ _ h4⟩
      · exact h9 u hu
    · by_cases e : u = t
      · subst e
        -- a finished thread does not move
        have : ∀ m, exec (List.replicate m u) c = some c := by
          intro m
          induction m with
          | zero => rfl
          | succ m ih => rw [List.replicate_succ, exec]; simp [turn, hu, ih]
        rw [this] at h1; obtain rfl := Option.some.inj h1
        exact h10 u x hu
      · exact h10 u x (by rw [h5 u e]; exact hu)

end Threads

/-- Finitely many threads, any programs that lock (with nested locking, also from subscribers), any code of the graph that ends: after
every schedule the threads can still all come to their end. -/
theorem C76_no_deadlock {impl : Method → A → Prog σ ρ} (hi : ∀ m a, (impl m a).Paired 1 1) (us : T → User A σ ρ)
    (hs : ∀ t, (us t).Safe false) (s : σ) (all : List T) (hall : ∀ t, t ∈ all) (sched : List T) :
    ∃ more c, Threads.exec (sched ++ more) (.start s fun t => (us t).code impl) = some c ∧ ∀ t, ∃ r, c.progs t = .done r := by
  obtain ⟨c, h1, h2, -⟩ := Threads.exec_inv (Threads.start_inv (s := s) fun t => User.code_paired hi (hs t) 0 (by simp)) sched
  have : ∃ l c1, Threads.exec l c = some c1 ∧ Threads.Inv c1 ∧ c1.owner = none := by
    cases ho : c.owner with
    | none => exact ⟨[], c, rfl, h2, ho⟩
    | some x =>
      obtain ⟨m, c1, h3, h4, h5, -⟩ := Threads.finish_one (c.progs x.1) c x.1 h2 (by simp [ho]; rintro u n rfl; simp) rfl
      exact ⟨_, c1, h3, h4, h5⟩
  obtain ⟨l, c1, h3, h4, h5⟩ := this
  obtain ⟨l2, c2, h6, -, -, h7, -⟩ := Threads.finish_all all c1 h4 h5
  exact ⟨l ++ l2, c2, by rw [Threads.exec_append, h1, Option.bind_some, Threads.exec_append, h3]; exact h6, fun t => h7 t (hall t)⟩

/-- two threads; the schedule stops while the first one is inside, and goes on with the second one first -/
example : (Threads.exec ([true, true] ++ [false, false, true, true, false, false, false]) (.start 0 fun _ : Bool =>
    (User.call .addFrame () fun r => .ret r : User Unit Nat Unit).code fun _ _ => .step (· + 1) fun _ => .done ())).map
      (fun c => (c.state, c.owner, [true, false].map fun t => match c.progs t with | .done _ => true | _ => false)) =
    some (2, none, [true, true]) := rfl

/-- A thread only ever waits for a thread that is able to move on: the owner of the mutex is at a step that it can do. -/
theorem C76_owner_moves {impl : Method → A → Prog σ ρ} (hi : ∀ m a, (impl m a).Paired 1 1) (us : T → User A σ ρ)
    (hs : ∀ t, (us t).Safe false) (s : σ) (sched : List T) {c : Threads T σ ρ}
    (hc : Threads.exec sched (.start s fun t => (us t).code impl) = some c) :
    (∀ t n, c.owner = some (t, n) → ∃ c', Threads.turn t c = some c' ∧ c'.progs t ≠ c.progs t) ∧
    (c.owner = none → ∀ t, (∃ r, c.progs t = .done r) ∨ ∃ c', Threads.turn t c = some c' ∧ c'.progs t ≠ c.progs t) := by
  obtain ⟨c0, h1, h2, -⟩ := Threads.exec_inv (Threads.start_inv (s := s) fun t => User.code_paired hi (hs t) 0 (by simp)) sched
  rw [hc] at h1; obtain rfl := Option.some.inj h1
  have size : ∀ (k : Prog σ ρ), k ≠ .lock k ∧ k ≠ .unlock k := by
    intro k
    induction k with
    | done r => simp
    | lock k ih => exact ⟨fun h => ih.1 (Prog.lock.inj h), by simp⟩
    | unlock k ih => exact ⟨by simp, fun h => ih.2 (Prog.unlock.inj h)⟩
    | step f k ih => simp
  have size' : ∀ (k : Prog σ ρ) (f : σ → σ) (g : σ → Prog σ ρ) (x : σ), k = .step f g → g x ≠ k := by
    intro k
    induction k with
    | done r => simp
    | lock k ih => simp
    | unlock k ih => simp
    | step f k ih =>
      intro f' g x h h'
      obtain ⟨rfl, rfl⟩ := Prog.step.inj h
      exact ih x f k x h' rfl
  constructor
  · intro t n ho
    obtain ⟨c1, h3, -⟩ := Threads.turn_inv h2 t
    refine ⟨c1, h3, ?_⟩
    have h4 := h2.paired t
    have h5 := h2.pos t n ho
    cases hq : c.progs t with
    | done r => rw [hq] at h4; simp [Prog.Paired, Threads.depth, ho] at h4; omega
    | lock k => simp [Threads.turn, hq, ho] at h3; subst h3; simp [Threads.put]; exact (size k).1
    | unlock k => simp [Threads.turn, hq, ho] at h3; subst h3; simp [Threads.put]; exact (size k).2
    | step f k => simp [Threads.turn, hq] at h3; subst h3; simp only [Threads.put_same]; exact size' _ f k _ rfl
  · intro ho t
    obtain ⟨c1, h3, -⟩ := Threads.turn_inv h2 t
    have h4 := h2.paired t
    cases hq : c.progs t with
    | done r => exact .inl ⟨r, rfl⟩
    | lock k => refine .inr ⟨c1, h3, ?_⟩; simp [Threads.turn, hq, ho] at h3; subst h3; simp [Threads.put]; exact (size k).1
    | unlock k => rw [hq] at h4; simp [Prog.Paired, Threads.depth, ho] at h4
    | step f k => rw [hq] at h4; simp [Prog.Paired, Threads.depth, ho] at h4

/-- a thread that locks twice (a call inside a held block) does not wait for itself -/
example : (Threads.exec [true, true, true, true, true, true] (.start 0 fun _ : Bool =>
    (User.held (.call .addFrame () fun r => .ret r) fun r => .ret r : User Unit Nat Unit).code
      fun _ _ => .step (· + 1) fun _ => .done ())).map (fun c => (c.state, c.owner, match c.progs true with | .done _ => true | _ => false)) =
    some (1, none, true) := rfl

end Verif
