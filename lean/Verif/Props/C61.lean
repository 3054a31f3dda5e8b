import Verif.Props.C60
import Verif.Spec.Demo
/-!
# C61: no call through the thread-safe wrapper sees a half-done change

Fails: `containsEdge` does not lock, and references returned by `getItems` are used after the mutex was released.
-/

namespace Verif
variable {A T σ ρ : Type} [DecidableEq T]

/-- the program uses the graph only by calls of the wrapper -/
def C61_onlyCalls : User A σ ρ → Prop
  | .ret _ => True
  | .call _ _ k => ∀ r, C61_onlyCalls (k r)
  | .held _ _ => False
  | .raw _ _ => False

/-- the full statement: threads that only make calls are never in the graph at the same time, and their results are those of whole
operations in some order -/
def C61_statement : Prop :=
  ∀ (impl : Method → FrameId × FrameId → Prog (GS DemoFrame Int) (List Bool))
    (sem : Method → FrameId × FrameId → GS DemoFrame Int → GS DemoFrame Int × List Bool),
    (∀ m a, (impl m a).Paired 1 1) → (∀ m a s, (impl m a).alone s = sem m a s) →
    ∀ (us : Bool → User (FrameId × FrameId) (GS DemoFrame Int) (List Bool)), (∀ t, C61_onlyCalls (us t)) → ∀ s sched c,
      Threads.exec sched (.start s fun t => (us t).code impl) = some c → ¬ c.Race ∧
      ∀ r : Bool → List Bool, (∀ t, c.progs t = .done (r t)) → ∃ l s', serial sem l us s = some (s', fun t => .ret (r t))

/-- A call of `containsEdge` in one thread and any call that accesses the graph in another one: there is a race, whatever the code of the
graph is (both begin with an access). -/
theorem C61_containsEdge_races (impl : Method → A → Prog σ ρ) (t u : T) (htu : t ≠ u) (us : T → User A σ ρ) (a b : A) (m : Method)
    (hm : m ≠ .containsEdge) (k k' : ρ → User A σ ρ) (ht : us t = .call .containsEdge a k) (hu : us u = .call m b k')
    (f : σ → σ) (p : σ → Prog σ ρ) (hp : impl .containsEdge a = .step f p) (f' : σ → σ) (p' : σ → Prog σ ρ) (hp' : impl m b = .step f' p')
    (s : σ) : ∃ c, Threads.exec [u] (.start s fun t => (us t).code impl) = some c ∧ c.Race := by
  have h1 : (us u).code impl = .lock ((impl m b).bind fun r => .unlock ((k' r).code impl)) := by
    rw [hu, User.code, Method.wrapped, if_pos (Method.locks_iff.2 hm), Prog.guarded_bind]
  have h2 : (us t).code impl = .step f fun s => (p s).bind fun r => (k r).code impl := by
    rw [ht, User.code, Method.wrapped, hp]; rfl
  refine ⟨⟨s, some (u, 1), Threads.put (fun t => (us t).code impl) u ((impl m b).bind fun r => .unlock ((k' r).code impl)), [u]⟩, ?_, ?_⟩
  · simp [Threads.exec, Threads.turn, Threads.start, h1]
  · refine ⟨t, u, f, fun s => (p s).bind fun r => (k r).code impl, f', fun s => (p' s).bind fun r => .unlock ((k' r).code impl), htu, ?_, ?_⟩
    · simp only [Threads.put, htu, if_false]; exact h2
    · simp only [Threads.put, if_true, hp', Prog.bind]

/-- a thread that asks for a connection while the other one is inside `addTransform`: its access happens at once -/
example : ((Threads.exec [true, false] (.start 0 fun t : Bool => (User.call (if t then Method.addTransform else .containsEdge) () fun _ => .ret ()).code
      (σ := Nat) fun _ _ => .step (· + 1) fun _ => .done ())).map fun c => (c.state, c.owner.map Prod.fst)) = some (1, some true) := rfl

/-- `getItems` returns a reference; reading it later is an access without the mutex: a race with every other call. -/
theorem C61_reference_races (impl : Method → A → Prog σ ρ) (hi : ∀ m a, (impl m a).Paired 1 1) (t u : T) (htu : t ≠ u)
    (us : T → User A σ ρ) (a b : A) (m : Method)
    (hm : m ≠ .containsEdge) (f : σ → σ) (k : σ → User A σ ρ) (k' : ρ → User A σ ρ) (ht : us t = .call .getItems a fun _ => .raw f k)
    (hu : us u = .call m b k') (f' : σ → σ) (p' : σ → Prog σ ρ) (hp' : impl m b = .step f' p')
    (s : σ) : ∃ sched c, Threads.exec sched (.start s fun t => (us t).code impl) = some c ∧ c.Race := by
  classical
  let q : Prog σ ρ := (impl .getItems a).bind fun _ => .unlock ((User.raw f k).code impl)
  have h1 : (us u).code impl = .lock ((impl m b).bind fun r => .unlock ((k' r).code impl)) := by
    rw [hu, User.code, Method.wrapped, if_pos (Method.locks_iff.2 hm), Prog.guarded_bind]
  have h2 : (us t).code impl = .lock q := by
    rw [ht, User.code, Method.wrapped, if_pos (show Method.getItems.locks = true from rfl), Prog.guarded_bind]
  -- run the call of `getItems` alone
  have run : ∀ (p : Prog σ ρ) (lo d : Nat), p.Paired lo d → 1 ≤ lo → ∀ (s : σ) (ps : T → Prog σ ρ) (l : List T) (k : ρ → Prog σ ρ),
      ps t = p.bind k → 0 < d → ∃ n r s', Threads.exec (List.replicate n t) ⟨s, some (t, d), ps, l⟩ =
        some ⟨s', some (t, lo), Threads.put ps t (k r), l⟩ := by
    intro p
    induction p with
    | done r =>
      intro lo d h _ s ps l k hps _
      simp only [Prog.Paired] at h; subst h
      refine ⟨0, r, s, ?_⟩
      have : Threads.put ps t (k r) = ps := by rw [← Threads.put_self ps t, hps]; exact Threads.put_put ps t _ _
      simp [Threads.exec, this]
    | lock p ih =>
      intro lo d h hlo s ps l k hps hd
      obtain ⟨n, r, s', hn⟩ := ih lo (d + 1) h hlo s (Threads.put ps t (p.bind k)) l k (Threads.put_same _ _ _) (by omega)
      refine ⟨n + 1, r, s', ?_⟩
      rw [List.replicate_succ, Threads.exec]
      simp [Threads.turn, hps, Prog.bind, hn, Threads.put_put]
    | unlock p ih =>
      intro lo d h hlo s ps l k hps hd
      have h1 := h.1
      obtain ⟨n, r, s', hn⟩ := ih lo (d - 1) h.2 hlo s (Threads.put ps t (p.bind k)) l k (Threads.put_same _ _ _) (by omega)
      refine ⟨n + 1, r, s', ?_⟩
      rw [List.replicate_succ, Threads.exec]
      have : ¬ d ≤ 1 := by omega
      simp [Threads.turn, hps, Prog.bind, hn, Threads.put_put, this]
    | step g p ih =>
      intro lo d h hlo s ps l k hps hd
      obtain ⟨n, r, s', hn⟩ := ih s lo d (h.2 s) hlo (g s) (Threads.put ps t ((p s).bind k)) l k (Threads.put_same _ _ _) hd
      refine ⟨n + 1, r, s', ?_⟩
      rw [List.replicate_succ, Threads.exec]
      simp [Threads.turn, hps, Prog.bind, hn, Threads.put_put]
  obtain ⟨n, r, s', hn⟩ := run (impl .getItems a) 1 1 (hi _ _) (Nat.le_refl 1) s (Threads.put (fun t => (us t).code impl) t q) [t]
    (fun _ => .unlock ((User.raw f k).code impl)) (Threads.put_same _ _ _) (Nat.lt_succ_self 0)
  refine ⟨t :: (List.replicate n t ++ [t, u]), ⟨s', some (u, 1), Threads.put (Threads.put (fun t => (us t).code impl) t
    ((User.raw f k).code impl)) u ((impl m b).bind fun r => .unlock ((k' r).code impl)), [t, u]⟩, ?_, ?_⟩
  · simp only [Threads.exec, Threads.turn, Threads.start, h2, List.nil_append, Option.bind_some]
    rw [Threads.exec_append, hn]
    simp [Threads.exec, Threads.turn, Threads.put_same, Threads.put_put]
    simp [Threads.put, Ne.symm htu, h1]
  · refine ⟨t, u, f, fun s => (k s).code impl, f', fun s => (p' s).bind fun r => .unlock ((k' r).code impl), htu, ?_, ?_⟩
    · simp only [Threads.put, htu, if_false, if_true]; rfl
    · simp only [Threads.put, if_true, hp', Prog.bind]

/-- the items are read through the reference while the other thread is inside `addFrame` -/
example : ((Threads.exec [false, false, false, true, false] (.start 0 fun t : Bool =>
      (if t then User.call Method.addFrame () fun _ => .ret () else User.call Method.getItems () fun _ => .raw (· + 10) fun _ => .ret ()).code
      (σ := Nat) fun _ _ => .step (· + 1) fun _ => .done ())).map fun c => (c.state, c.owner.map Prod.fst)) = some (11, some true) := rfl

/-- The code of `addTransform` (`Graph::add_edge`, Graph.hpp:630-657) for existing frames that are not connected and without tree views:
the edge is added, then the reverse edge; `containsEdge` is one access. -/
def C61_impl (m : Method) (a : FrameId × FrameId) : Prog (GS DemoFrame Int) (List Bool) :=
  match m with
  | .addTransform => .step (addOne a.1 a.2) fun _ => .step (addOne a.2 a.1) fun _ => .done []
  | .containsEdge => .step id fun s => .done [(GS.containsEdge a.1 a.2 s).val?.getD false]
  | _ => .done []
where addOne (o t : FrameId) (s : GS DemoFrame Int) : GS DemoFrame Int :=
    match s.g.vertexOf o, s.g.vertexOf t with
    | some vo, some vt => { s with g := (s.g.addEdge vo vt 5).1 }
    | _, _ => s

/-- a graph with two frames that are not connected -/
def C61_graph : GS DemoFrame Int := (GS.run [.addFrame "a", .addFrame "b"] GS.init).getD GS.init

/-- one thread connects the frames, the other one asks for both directions -/
def C61_users : Bool → User (FrameId × FrameId) (GS DemoFrame Int) (List Bool)
  | true => .call .addTransform ("a", "b") fun r => .ret r
  | false => .call .containsEdge ("a", "b") fun r => .call .containsEdge ("b", "a") fun r' => .ret (r ++ r')

private def answer : User (FrameId × FrameId) (GS DemoFrame Int) (List Bool) → List Bool
  | .ret r => r
  | _ => []

/-- The second thread is told that `a` to `b` exists but `b` to `a` does not.  No order of whole operations gives these answers. -/
theorem C61_half_done_seen :
    (∃ c, Threads.exec [true, true, false, false, true, true, true] (.start C61_graph fun t => (C61_users t).code C61_impl) = some c ∧
      c.progs true = .done [] ∧ c.progs false = .done [true, false]) ∧
    ∀ l s', serial (fun m a s => (C61_impl m a).alone s) l C61_users C61_graph ≠
      some (s', fun t => .ret (if t then [] else [true, false])) := by
  refine ⟨⟨_, rfl, rfl, rfl⟩, fun l s' h => ?_⟩
  have h1 := congrArg (Option.map fun x => answer (x.2 false)) h
  clear h
  simp only [Option.map_some, answer, Bool.false_eq_true, if_false] at h1
  rcases l with _ | ⟨t1, _ | ⟨t2, _ | ⟨t3, _ | ⟨t4, l⟩⟩⟩⟩
  · exact absurd h1 (by decide +kernel)
  · revert h1; revert t1; decide +kernel
  · revert h1; revert t1 t2; decide +kernel
  · revert h1; revert t1 t2 t3; decide +kernel
  · have : (serial (fun m a s => (C61_impl m a).alone s) (t1 :: t2 :: t3 :: t4 :: l) C61_users C61_graph) = none := by
      cases t1 <;> cases t2 <;> cases t3 <;> cases t4 <;> rfl
    rw [this] at h1; simp at h1

theorem C61_statement_fails : ¬ C61_statement := by
  intro h
  obtain ⟨⟨c, h1, h2, h3⟩, h4⟩ := C61_half_done_seen
  have hp : ∀ m a, (C61_impl m a).Paired 1 1 := by
    intro m a
    unfold C61_impl
    split
    · exact ⟨Nat.one_pos, fun _ => ⟨Nat.one_pos, fun _ => rfl⟩⟩
    · exact ⟨Nat.one_pos, fun _ => rfl⟩
    · rfl
  have hu : ∀ t, C61_onlyCalls (C61_users t) := by intro t; cases t <;> simp [C61_users, C61_onlyCalls]
  obtain ⟨l, s', h5⟩ := (h C61_impl _ hp (fun _ _ _ => rfl) C61_users hu C61_graph _ c h1).2 (fun t => if t then [] else [true, false])
    (fun t => by cases t; exact h3; exact h2)
  exact h4 l s' h5

/-- Missing compared to C61: `containsEdge` outside a block that holds the mutex, and access to returned references.  Calls that lock see
only states between whole operations: a finished thread has the results it gets if all operations are executed one after the other in the
order in which they obtained the mutex, whatever the other threads have done so far. -/
theorem C61_results_partial {impl : Method → A → Prog σ ρ} {sem : Method → A → σ → σ × ρ} (hi : ∀ m a, (impl m a).Paired 1 1)
    (hsem : ∀ m a s, (impl m a).alone s = sem m a s) (us : T → User A σ ρ) (hs : ∀ t, (us t).Safe false) (s : σ) (sched : List T) :
    ∃ c, Threads.exec sched (.start s fun t => (us t).code impl) = some c ∧ ¬ c.Race ∧
      ∃ s' us', serial sem c.log us s = some (s', us') ∧ ∀ t r, c.progs t = .done r → us' t = .ret r := by
  obtain ⟨c, h1, h2, h3⟩ := C60_one_at_a_time hi us (hs) s sched
  obtain ⟨s', us', h4, h4', h5, h6⟩ := C60_serial hi hsem us (hs) s sched h1
  refine ⟨c, h1, h2, s', us', h4, fun t r hr => User.code_done (impl := impl) (h4' t) ?_⟩
  cases ho : c.owner with
  | none => rw [← (h5 ho).2 t, hr]
  | some x =>
    obtain ⟨h7, -⟩ := h6 x.1 x.2 ho
    by_cases e : t = x.1
    · obtain ⟨c0, g1, g2, -⟩ := Threads.exec_inv (Threads.start_inv (s := s) fun t => User.code_paired hi (hs t) 0 (by simp)) sched
      rw [h1] at g1; obtain rfl := Option.some.inj g1
      have g3 := g2.paired t
      have g4 := g2.pos x.1 x.2 ho
      rw [hr] at g3; simp [Prog.Paired, Threads.depth, ho, e] at g3; omega
    · rw [← h7 t e, hr]

/-- the same two programs, but the second one holds the mutex while it asks: both answers agree, here in the schedule from above -/
example : (Threads.exec [true, true, false, false, true, true, true, false, false, false, false, false]
    (.start C61_graph fun t => (if t then C61_users true else .held (C61_users false) fun r => .ret r).code C61_impl)).map
      (fun c => match c.progs false with | .done r => r | _ => []) = some [true, true] := rfl

end Verif
