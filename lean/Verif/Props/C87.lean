import Verif.Lemmas.Access
set_option linter.unusedSectionVars false
/-! # C87: an access object gives exclusive access as long as it exists -/

namespace Verif
open Access
variable {T : Type} [DecidableEq T]

/-- In every history: a thread that has just obtained an access object (by `getThreadSaveAccess` or as a copy) owns the mutex, and no
destruction of an access object is undefined behaviour. -/
def C87_statement (T : Type) [DecidableEq T] : Prop :=
  ∀ (os : List (AOp T)) (s : Access T), Balanced os start → run os start = some s →
    (∀ t x s', step (.take t x) s = .ok true s' → ∃ n, s'.owner = some (t, n)) ∧
    (∀ t x y s', step (.copy t x y) s = .ok true s' → ∃ n, s'.owner = some (t, n)) ∧
    (∀ t x, (s.objs.get x).isSome → ∃ s', step (.drop t x) s = .ok true s')

/-- Missing compared to `C87_statement`: copies that were made or are destroyed by other threads (`C87_copy_fails`, `C87_ub_fails`).
After every history, with nested and copied access objects, assignments and manual locks of any number of threads: as long as an access
object exists, the thread that called `getThreadSaveAccess` for it, or for the object it is a copy of, owns the mutex; every other thread
waits, with `getThreadSaveAccess` and with `lock`; and the mutex is free exactly when there is no access object and no manual lock. -/
theorem C87_exclusive_partial (os : List (AOp T)) (hb : Balanced os start) {s : Access T} (h : run os start = some s) :
    (∀ x, (s.objs.get x).isSome → ∃ t n, s.home x = some t ∧ s.owner = some (t, n) ∧
      ∀ u, u ≠ t → (∀ y, s.objs.get y = none → step (.take u y) s = .ok false s) ∧ step (.lock u) s = .ok false s) ∧
    (s.owner = none ↔ (∀ x, s.objs.get x = none) ∧ s.manual = []) := by
  have hi := run_inv os Inv.start hb h
  constructor
  · intro x hx
    obtain ⟨g, hg⟩ := Option.isSome_iff_exists.1 hx
    obtain ⟨t, ht⟩ := hi.live x g hg
    obtain ⟨n, hn⟩ := hi.mine g t ht
    refine ⟨t, n, by simp [home, hg, ht], hn, fun u hu => ?_⟩
    have ha : acquire u s.owner = none := by simp [hn, acquire, Ne.symm hu]
    exact ⟨fun y hy => by simp only [step, hy, ha], by simp only [step, ha]⟩
  · constructor
    · intro ho
      have hf := hi.free ho
      refine ⟨fun x => ?_, List.eq_nil_of_length_eq_zero (by omega)⟩
      cases hx : s.objs.get x with
      | none => rfl
      | some g =>
        obtain ⟨t, ht⟩ := hi.live x g hx
        obtain ⟨n, hn⟩ := hi.mine g t ht
        rw [ho] at hn; cases hn
    · rintro ⟨h1, h2⟩
      cases ho : s.owner with
      | none => rfl
      | some p =>
        obtain ⟨t, n⟩ := p
        obtain ⟨hc, hpos⟩ := hi.count t n ho
        rw [h2] at hc
        cases hg : s.guards with
        | nil => rw [hg] at hc; simp at hc; omega
        | cons p m =>
          obtain ⟨g, u⟩ := p
          have : s.guards.get g = some u := by rw [hg]; simp [AMap.get]
          obtain ⟨x, hx⟩ := hi.used g u this
          rw [h1 x] at hx; cases hx

/-- thread 1 takes access twice and copies one, thread 2 has to wait; then the first two are destroyed: still locked, once -/
example : run [.take 1 0, .take 1 1, .copy 1 0 2, .take 2 3, .lock 2, .drop 1 0, .drop 1 1] (start : Access Nat) =
      some ⟨some (1, 1), [(0, 1)], [(2, 0)], 2, []⟩ ∧
    Balanced [.take 1 0, .take 1 1, .copy 1 0 2, .take 2 3, .lock 2, .drop 1 0, .drop 1 1] (start : Access Nat) ∧
    run [.take 1 0, .take 1 1, .copy 1 0 2, .take 2 3, .drop 1 0, .drop 1 1, .drop 1 2, .take 2 3] (start : Access Nat) =
      some ⟨some (2, 1), [(2, 2)], [(3, 2)], 3, []⟩ := by
  refine ⟨by decide, ?_, by decide⟩
  simp [Balanced, step, start, acquire, AMap.get, AMap.set, unref, release, AMap.erase]

/-- Exactly which operations are undefined behaviour: those that end the last copy of an access in another thread than the one that
obtained it. -/
theorem C87_undefined (os : List (AOp T)) (hb : Balanced os start) {s : Access T} (h : run os start = some s) (o : AOp T)
    (ho : s.Possible o) : (∃ m, step o s = .ub m) ↔
      ∃ t x, (o = .drop t x ∨ ∃ y, o = .assign t y x ∧ s.objs.get y ≠ s.objs.get x) ∧ ¬ Shared s x ∧ s.home x ≠ some t := by
  have hi := run_inv os Inv.start hb h
  cases o with
  | take t x =>
    have ho : s.objs.get x = none := ho
    simp only [step, ho, reduceCtorEq, false_or, exists_false, iff_false, not_exists, false_and]
    intro m
    cases acquire t s.owner <;> simp
  | copy t x y =>
    obtain ⟨h1, h2⟩ := ho
    obtain ⟨g, hg⟩ := Option.isSome_iff_exists.1 h1
    simp [step, hg, h2]
  | assign t x y =>
    obtain ⟨h1, h2⟩ := ho
    obtain ⟨g, hg⟩ := Option.isSome_iff_exists.1 h1
    obtain ⟨g', hg'⟩ := Option.isSome_iff_exists.1 h2
    obtain ⟨u, hu⟩ := hi.live y g' hg'
    have hh : s.home y = some u := by simp [home, hg', hu]
    by_cases hgg : g = g'
    · subst hgg
      constructor
      · rintro ⟨m, hm⟩
        simp [step, hg, hg'] at hm
      · rintro ⟨t', z, (e | ⟨y', e, hne⟩), -⟩
        · cases e
        · cases e
          rw [hg, hg'] at hne
          exact absurd rfl hne
    · rcases assign_spec hi t hg hg' hgg hu with ⟨k0, k1, k2⟩ | ⟨k0, rfl, s2, k1, k2, -⟩ | ⟨k0, k3, k1⟩
      · rw [k1]
        constructor
        · rintro ⟨m, hm⟩; cases hm
        · rintro ⟨t', z, (e | ⟨y', e, -⟩), hz, -⟩
          · cases e
          · cases e; exact absurd k0 hz
      · rw [k1]
        constructor
        · rintro ⟨m, hm⟩; cases hm
        · rintro ⟨t', z, (e | ⟨y', e, -⟩), -, hz⟩
          · cases e
          · cases e; exact absurd hh hz
      · rw [k1]
        refine ⟨fun _ => ⟨t, y, .inr ⟨x, rfl, ?_⟩, k0, ?_⟩, fun _ => ⟨_, rfl⟩⟩
        · rw [hg, hg']; simpa using hgg
        · rw [hh]; simpa using Ne.symm k3
  | drop t x =>
    obtain ⟨g, hg⟩ := Option.isSome_iff_exists.1 ho
    obtain ⟨u, hu⟩ := hi.live x g hg
    have hh : s.home x = some u := by simp [home, hg, hu]
    rcases drop_spec hi t hg hu with ⟨k0, k1, k2⟩ | ⟨k0, rfl, s2, k1, k2, -⟩ | ⟨k0, k3, k1⟩
    · rw [k1]
      constructor
      · rintro ⟨m, hm⟩; cases hm
      · rintro ⟨t', z, (e | ⟨y', e, -⟩), hz, -⟩
        · cases e; exact absurd k0 hz
        · cases e
    · rw [k1]
      constructor
      · rintro ⟨m, hm⟩; cases hm
      · rintro ⟨t', z, (e | ⟨y', e, -⟩), -, hz⟩
        · cases e; exact absurd hh hz
        · cases e
    · rw [k1]
      exact ⟨fun _ => ⟨t, x, .inl rfl, k0, by rw [hh]; simpa using Ne.symm k3⟩, fun _ => ⟨_, rfl⟩⟩
  | lock t =>
    simp only [step, reduceCtorEq, false_or, exists_false, iff_false, not_exists, false_and]
    intro m
    cases acquire t s.owner <;> simp
  | unlock t =>
    have ho : t ∈ s.manual := ho
    obtain ⟨n, hn⟩ := hi.man t ho
    simp [step, hn, release]

/-- a copy in another thread may be destroyed there while the original exists, but not after it -/
example : ∃ s1 s2 : Access Nat, run [.take 1 0, .copy 2 0 1] start = some s1 ∧ step (.drop 2 1) s1 = .ok true s2 ∧
    s2 = ⟨some (1, 1), [(0, 1)], [(0, 0)], 1, []⟩ ∧
    run [.take 1 0, .copy 2 0 1, .drop 1 0, .drop 2 1] (start : Access Nat) = none ∧
    run [.take 1 0, .take 1 1, .assign 2 0 1] (start : Access Nat) = none := ⟨_, _, rfl, rfl, rfl, rfl, rfl⟩

/-- A thread that only ever destroys its own access objects gives the mutex back: once its last object is gone and it has undone its
manual locks, the mutex is free or belongs to another thread. -/
theorem C87_given_back (os : List (AOp T)) (hb : Balanced os start) {s : Access T} (h : run os start = some s) (t : T)
    (h1 : ∀ x, s.home x ≠ some t) (h2 : t ∉ s.manual) (n : Nat) : s.owner ≠ some (t, n) := by
  have hi := run_inv os Inv.start hb h
  intro ho
  obtain ⟨hc, hpos⟩ := hi.count t n ho
  cases hg : s.guards with
  | nil =>
    cases hm : s.manual with
    | nil => rw [hg, hm] at hc; simp at hc; omega
    | cons u m =>
      obtain ⟨k, hk⟩ := hi.man u (by rw [hm]; simp)
      rw [ho] at hk
      cases hk
      exact h2 (by rw [hm]; simp)
  | cons p m =>
    obtain ⟨g, u⟩ := p
    have hgu : s.guards.get g = some u := by rw [hg]; simp [AMap.get]
    obtain ⟨k, hk⟩ := hi.mine g u hgu
    rw [ho] at hk
    cases hk
    obtain ⟨x, hx⟩ := hi.used g t hgu
    exact h1 x (by simp [home, hx, hgu])

/-- thread 1 is finished, thread 2 waited and has the mutex now -/
example : ∃ s : Access Nat, run [.lock 1, .take 1 0, .take 2 1, .drop 1 0, .unlock 1, .take 2 1] start = some s ∧
    s.owner = some (2, 1) ∧ s.home 0 = none ∧ s.home 1 = some 2 ∧ s.manual = [] := ⟨_, rfl, rfl, rfl, rfl, rfl⟩

/-- A copy handed to another thread gives access to the graph without the mutex: both threads can use the graph. -/
theorem C87_copy_fails : ∃ s : Access Nat, run [.take 1 0, .copy 2 0 1] start = some s ∧ s.owner = some (1, 1) ∧
    (s.objs.get 0).isSome ∧ (s.objs.get 1).isSome := ⟨_, rfl, rfl, rfl, rfl⟩

/-- An access object handed over to another thread, for example in a lambda or a future, is undefined behaviour when it is destroyed
there. -/
theorem C87_ub_fails : ¬ C87_statement Nat := by
  intro h
  obtain ⟨s', hs⟩ := (h [.take 1 0, .copy 2 0 1, .drop 1 0] _ (by simp [Balanced, step, start, acquire, AMap.get, AMap.set, unref, AMap.erase]) rfl).2.2 2 1 rfl
  have : step (.drop 2 1) (⟨some (1, 1), [(0, 1)], [(1, 0)], 1, []⟩ : Access Nat) = .ub "unlock: mutex owned by another thread" := rfl
  exact absurd (hs.symm.trans this) (by simp)

/-- `std::move` does not hand the lock over: after `GraphAccess b = std::move(a)` and the destruction of `b` the mutex is still locked. -/
theorem C87_move_fails : run [.take 1 0, .copy 1 0 1, .drop 1 1] (start : Access Nat) = some ⟨some (1, 1), [(0, 1)], [(0, 0)], 1, []⟩ := rfl

end Verif
