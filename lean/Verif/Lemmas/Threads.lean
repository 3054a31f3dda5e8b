import Verif.Spec.Threads
set_option linter.unusedSectionVars false
/-! # Lemmas about threads -/

namespace Verif
variable {A T σ ρ τ υ : Type} [DecidableEq T]

theorem Method.locks_iff {m : Method} : m.locks = true ↔ m ≠ .containsEdge := by cases m <;> simp [Method.locks]

namespace Prog

theorem bind_assoc (p : Prog σ ρ) (k : ρ → Prog σ τ) (l : τ → Prog σ υ) : (p.bind k).bind l = p.bind fun r => (k r).bind l := by
  induction p with
  | done r => rfl
  | lock k ih => simp only [bind, ih]
  | unlock k ih => simp only [bind, ih]
  | step f k ih => simp only [bind]; congr 1; funext s; exact ih s

theorem guarded_bind (p : Prog σ ρ) (k : ρ → Prog σ τ) : p.guarded.bind k = lock (p.bind fun r => unlock (k r)) := by
  simp [guarded, bind, bind_assoc]

/-- Run the rest of a critical section: until the count is zero. -/
def solo : Nat → Prog σ ρ → σ → σ × Prog σ ρ
  | _, done r, s => (s, done r)
  | d, lock k, s => solo (d + 1) k s
  | d, unlock k, s => if d ≤ 1 then (s, k) else solo (d - 1) k s
  | d, step f k, s => solo d (k s) (f s)

theorem Paired.shift {lo d : Nat} {p : Prog σ ρ} (h : p.Paired lo d) (m : Nat) : p.Paired (lo + m) (d + m) := by
  induction p generalizing d with
  | done r => simp only [Paired] at *; omega
  | lock k ih => simp only [Paired] at *; have := ih h; rwa [Nat.add_right_comm] at this
  | unlock k ih =>
    simp only [Paired] at *
    refine ⟨by omega, ?_⟩
    have := ih h.2
    have e : d - 1 + m = d + m - 1 := by omega
    rwa [e] at this
  | step f k ih => simp only [Paired] at *; exact ⟨by omega, fun s => ih s (h.2 s)⟩

theorem Paired.bind {lo lo' d : Nat} {p : Prog σ ρ} {k : ρ → Prog σ τ} (h : p.Paired lo d) (hl : lo' ≤ lo)
    (hk : ∀ r, (k r).Paired lo' lo) : (p.bind k).Paired lo' d := by
  induction p generalizing d with
  | done r => simp only [Paired] at h; subst h; exact hk r
  | lock p ih => exact ih h
  | unlock p ih => exact ⟨by have := h.1; omega, ih h.2⟩
  | step f p ih => exact ⟨h.1, fun s => ih s (h.2 s)⟩

theorem Paired.guarded {p : Prog σ ρ} (h : p.Paired 1 1) (d : Nat) : p.guarded.Paired d d := by
  have := h.shift d
  rw [Nat.add_comm 1 d] at this
  exact this.bind (Nat.le_succ d) fun r => ⟨Nat.lt_succ_self d, rfl⟩

theorem solo_bind {lo d : Nat} {p : Prog σ ρ} {k : ρ → Prog σ τ} (h : p.Paired lo d) (hlo : 1 ≤ lo) (s : σ) :
    solo d (p.bind k) s = solo lo (k (p.alone s).2) (p.alone s).1 := by
  induction p generalizing d s with
  | done r => simp only [Paired] at h; subst h; rfl
  | lock p ih => simp only [Prog.bind, solo, alone]; exact ih h s
  | unlock p ih =>
    simp only [Prog.bind, solo, alone]
    have := h.1
    rw [if_neg (by omega)]; exact ih h.2 s
  | step f p ih => simp only [Prog.bind, solo, alone]; exact ih s (h.2 s) (f s)

theorem alone_bind (p : Prog σ ρ) (k : ρ → Prog σ τ) (s : σ) :
    (p.bind k).alone s = (k (p.alone s).2).alone (p.alone s).1 := by
  induction p generalizing s with
  | done r => rfl
  | lock p ih => exact ih s
  | unlock p ih => exact ih s
  | step f p ih => exact ih s (f s)

end Prog

section code
variable {impl : Method → A → Prog σ ρ} {sem : Method → A → σ → σ × ρ}

theorem User.code_paired (hi : ∀ m a, (impl m a).Paired 1 1) {h : Bool} {u : User A σ ρ} (hs : u.Safe h) (d : Nat)
    (hd : h = true → 1 ≤ d) : (u.code impl).Paired d d := by
  induction u generalizing d h with
  | ret r => rfl
  | call m a k ih =>
    have hw : (m.wrapped impl a).Paired d d := by
      unfold Method.wrapped
      split
      · exact (hi m a).guarded d
      · rename_i hl
        have : 1 ≤ d := hd (hs.1.resolve_left (fun h => hl (Method.locks_iff.2 h)))
        have h2 := (hi m a).shift (d - 1)
        have e : 1 + (d - 1) = d := by omega
        rwa [e] at h2
    exact hw.bind (Nat.le_refl d) fun r => ih r (hs.2 r) d hd
  | held b k ihb ih =>
    exact (Prog.Paired.guarded (ihb hs.1 1 fun _ => Nat.le_refl 1) d).bind (Nat.le_refl d) fun r => ih r (hs.2 r) d hd
  | raw f k ih => exact ⟨hd hs.1, fun s => ih s (hs.2 s) d hd⟩

theorem Prog.alone_guarded (p : Prog σ ρ) (s : σ) : p.guarded.alone s = p.alone s := by
  simp [Prog.guarded, Prog.alone, Prog.alone_bind]

theorem User.code_alone (hsem : ∀ m a s, (impl m a).alone s = sem m a s) (u : User A σ ρ) (s : σ) :
    (u.code impl).alone s = u.alone sem s := by
  induction u generalizing s with
  | ret r => rfl
  | call m a k ih =>
    have hw : ∀ s, (m.wrapped impl a).alone s = sem m a s := by
      intro s; unfold Method.wrapped; split
      · rw [Prog.alone_guarded, hsem]
      · rw [hsem]
    simp only [User.code, User.alone, Prog.alone_bind, hw, ih]
  | held b k ihb ih => simp only [User.code, User.alone, Prog.alone_bind, Prog.alone_guarded, ihb, ih]
  | raw f k ih => simp only [User.code, User.alone, Prog.alone, ih]

/-- One critical section of a program is its next operation. -/
theorem User.code_section (hi : ∀ m a, (impl m a).Paired 1 1) (hsem : ∀ m a s, (impl m a).alone s = sem m a s) {u : User A σ ρ}
    (hs : u.Safe false) {p : Prog σ ρ} (hp : u.code impl = .lock p) (s : σ) :
    ∃ s' u', u.next sem s = some (s', u') ∧ u'.Safe false ∧ Prog.solo 1 p s = (s', u'.code impl) := by
  cases u with
  | ret r => simp [User.code] at hp
  | call m a k =>
    have hl : m.locks = true := Method.locks_iff.2 (by simpa [User.Safe] using hs.1)
    simp only [User.code, Method.wrapped, hl, if_true, Prog.guarded_bind, Prog.lock.injEq] at hp
    subst hp
    refine ⟨_, _, rfl, hs.2 _, ?_⟩
    rw [Prog.solo_bind (hi m a) (Nat.le_refl 1), hsem]; rfl
  | held b k =>
    simp only [User.code, Prog.guarded_bind, Prog.lock.injEq] at hp
    subst hp
    refine ⟨_, _, rfl, hs.2 _, ?_⟩
    rw [Prog.solo_bind (User.code_paired hi hs.1 1 fun _ => Nat.le_refl 1) (Nat.le_refl 1), User.code_alone hsem]; rfl
  | raw f k => simp [User.Safe] at hs

theorem User.code_done {u : User A σ ρ} (hs : u.Safe false) {r : ρ} (h : u.code impl = .done r) : u = .ret r := by
  cases u with
  | ret x => simp [User.code] at h; rw [h]
  | call m a k =>
    have hl : m.locks = true := Method.locks_iff.2 (by simpa [User.Safe] using hs.1)
    simp [User.code, Method.wrapped, hl, Prog.guarded_bind] at h
  | held b k => simp [User.code, Prog.guarded_bind] at h
  | raw f k => simp [User.code] at h

end code

namespace Threads

/-- whole critical sections one after the other -/
def serialP : List T → (T → Prog σ ρ) → σ → Option (σ × (T → Prog σ ρ))
  | [], ps, s => some (s, ps)
  | t :: ts, ps, s =>
    match ps t with
    | .lock k => serialP ts (put ps t (Prog.solo 1 k s).2) (Prog.solo 1 k s).1
    | _ => none

theorem serialP_append (l1 l2 : List T) (ps : T → Prog σ ρ) (s : σ) :
    serialP (l1 ++ l2) ps s = (serialP l1 ps s).bind fun r => serialP l2 r.2 r.1 := by
  induction l1 generalizing ps s with
  | nil => rfl
  | cons t l1 ih =>
    simp only [List.cons_append, serialP]
    split
    · rw [ih]
    · rfl

/-- the state after the owner of the mutex has finished its critical section -/
def settle (c : Threads T σ ρ) : σ × (T → Prog σ ρ) :=
  match c.owner with
  | none => (c.state, c.progs)
  | some (t, n) => ((Prog.solo n (c.progs t) c.state).1, put c.progs t (Prog.solo n (c.progs t) c.state).2)

/-- how often `t` has locked the mutex -/
def depth (c : Threads T σ ρ) (t : T) : Nat :=
  match c.owner with
  | none => 0
  | some (u, n) => if u = t then n else 0

/-- the mutex and the programs fit together -/
structure Inv (c : Threads T σ ρ) : Prop where
  paired : ∀ t, (c.progs t).Paired 0 (c.depth t)
  pos : ∀ t n, c.owner = some (t, n) → 0 < n

theorem put_put (ps : T → Prog σ ρ) (t : T) (p q : Prog σ ρ) : put (put ps t p) t q = put ps t q := by
  funext u; simp only [put]; split <;> rfl

theorem put_self (ps : T → Prog σ ρ) (t : T) : put ps t (ps t) = ps := by
  funext u; simp only [put]; split
  · rename_i h; rw [h]
  · rfl

theorem put_same (ps : T → Prog σ ρ) (t : T) (p : Prog σ ρ) : put ps t p t = p := by simp [put]

theorem depth_owner {c : Threads T σ ρ} (h : Inv c) {t : T} (hd : 0 < c.depth t) : c.owner = some (t, c.depth t) := by
  unfold depth at *
  cases ho : c.owner with
  | none => simp [ho] at hd
  | some x =>
    obtain ⟨u, n⟩ := x
    simp only [ho] at hd ⊢
    split at hd
    · rename_i e; subst e; simp
    · omega

theorem turn_inv {c : Threads T σ ρ} (h : Inv c) (t : T) : ∃ c', turn t c = some c' ∧ Inv c' ∧
    ∃ l, c'.log = c.log ++ l ∧ serialP l (settle c).2 (settle c).1 = some (settle c') := by
  unfold turn
  have hp := h.paired t
  cases hq : c.progs t with
  | done r => exact ⟨c, rfl, h, [], by simp, rfl⟩
  | lock k =>
    rw [hq] at hp
    cases ho : c.owner with
    | none =>
      have hd : ∀ u, c.depth u = 0 := by intro u; simp [depth, ho]
      refine ⟨_, rfl, ⟨?_, ?_⟩, [t], rfl, ?_⟩
      · intro u
        by_cases e : u = t
        · subst e; rw [hd u] at hp; simpa [depth, put, Prog.Paired] using hp
        · have := h.paired u
          rw [hd u] at this
          simpa [depth, put, e, Ne.symm e] using this
      · intro u n hu; simp at hu; omega
      · simp [settle, ho, serialP, hq, put_same, put_put]
    | some x =>
      obtain ⟨u, n⟩ := x
      by_cases e : u = t
      · subst e
        have hd : c.depth u = n := by simp [depth, ho]
        simp only [if_true]
        refine ⟨_, rfl, ⟨?_, ?_⟩, [], by simp, ?_⟩
        · intro v
          by_cases e : v = u
          · subst e; rw [hd] at hp; simpa [depth, put, Prog.Paired] using hp
          · have := h.paired v
            have hv : c.depth v = 0 := by simp [depth, ho, Ne.symm e]
            rw [hv] at this
            simpa [depth, put, e, Ne.symm e] using this
        · intro v m hv; simp at hv; omega
        · simp [settle, ho, serialP, hq, put_same, put_put, Prog.solo]
      · simp only [e, if_false]; exact ⟨c, rfl, h, [], by simp, rfl⟩
  | unlock k =>
    rw [hq] at hp
    obtain ⟨hp1, hp2⟩ := hp
    have ho := depth_owner h hp1
    generalize c.depth t = n at *
    simp only [ho, if_true]
    refine ⟨_, rfl, ⟨?_, ?_⟩, [], by simp, ?_⟩
    · intro u
      by_cases e : u = t
      · subst e
        by_cases hn : n ≤ 1
        · have e1 : n - 1 = 0 := by omega
          rw [e1] at hp2; simpa [depth, put, hn] using hp2
        · simpa [depth, put, hn] using hp2
      · have := h.paired u
        have hv : c.depth u = 0 := by simp [depth, ho, Ne.symm e]
        rw [hv] at this
        by_cases hn : n ≤ 1
        · simpa [depth, put, hn, e] using this
        · simpa [depth, put, hn, e, Ne.symm e] using this
    · intro v m hv
      by_cases hn : n ≤ 1
      · simp [hn] at hv
      · simp [hn] at hv; omega
    · by_cases hn : n ≤ 1
      · simp [settle, ho, serialP, hq, Prog.solo, hn]
      · simp [settle, ho, serialP, hq, Prog.solo, hn, put_same, put_put]
  | step f k =>
    rw [hq] at hp
    obtain ⟨hp1, hp2⟩ := hp
    have ho := depth_owner h hp1
    refine ⟨_, rfl, ⟨?_, ?_⟩, [], by simp, ?_⟩
    · intro u
      by_cases e : u = t
      · subst e; simpa [depth, put] using hp2 c.state
      · simpa [depth, put, e] using h.paired u
    · exact h.pos
    · simp [settle, ho, serialP, hq, Prog.solo, put_same, put_put]

theorem exec_inv {c : Threads T σ ρ} (h : Inv c) (ts : List T) : ∃ c', exec ts c = some c' ∧ Inv c' ∧
    ∃ l, c'.log = c.log ++ l ∧ serialP l (settle c).2 (settle c).1 = some (settle c') := by
  induction ts generalizing c with
  | nil => exact ⟨c, rfl, h, [], by simp, rfl⟩
  | cons t ts ih =>
    obtain ⟨c1, h1, h2, l1, h3, h4⟩ := turn_inv h t
    obtain ⟨c2, h5, h6, l2, h7, h8⟩ := ih h2
    refine ⟨c2, by simp [exec, h1, h5], h6, l1 ++ l2, by rw [h7, h3, List.append_assoc], ?_⟩
    rw [serialP_append, h4]; exact h8

theorem exec_append (l1 l2 : List T) (c : Threads T σ ρ) : exec (l1 ++ l2) c = (exec l1 c).bind (exec l2) := by
  induction l1 generalizing c with
  | nil => rfl
  | cons t l1 ih => simp only [List.cons_append, exec]; cases turn t c <;> simp [ih]

/-- No two threads are at an access. -/
theorem Inv.no_race {c : Threads T σ ρ} (h : Inv c) : ¬ Race c := by
  rintro ⟨t, u, f, k, f', k', hne, ht, hu⟩
  have h1 := h.paired t; rw [ht] at h1
  have h2 := h.paired u; rw [hu] at h2
  have h3 := depth_owner h h1.1
  rw [depth_owner h h2.1] at h3
  simp at h3; exact hne h3.1.symm

/-- The owner of the mutex can finish its critical section alone. -/
theorem settle_exec (p : Prog σ ρ) : ∀ (c : Threads T σ ρ) (t : T) (n : Nat), Inv c → c.owner = some (t, n) → c.progs t = p →
    ∃ m, exec (List.replicate m t) c = some { c with state := (settle c).1, progs := (settle c).2, owner := none } := by
  induction p with
  | done r =>
    intro c t n h ho hp
    have h1 := h.paired t
    have h2 := h.pos t n ho
    rw [hp] at h1; simp [Prog.Paired, depth, ho] at h1; omega
  | lock k ih =>
    intro c t n h ho hp
    obtain ⟨c1, h1, h2, -⟩ := turn_inv h t
    have e : c1 = { c with owner := some (t, n + 1), progs := put c.progs t k } := by
      simp [turn, hp, ho] at h1; exact h1.symm
    subst e
    obtain ⟨m, hm⟩ := ih _ t (n + 1) h2 rfl (put_same _ _ _)
    refine ⟨m + 1, ?_⟩
    rw [List.replicate_succ, exec, h1, Option.bind_some, hm]
    simp [settle, ho, hp, put_same, put_put, Prog.solo]
  | unlock k ih =>
    intro c t n h ho hp
    obtain ⟨c1, h1, h2, -⟩ := turn_inv h t
    by_cases hn : n ≤ 1
    · refine ⟨1, ?_⟩
      simp [exec, turn, hp, ho, hn, settle, Prog.solo]
    · have e : c1 = { c with owner := some (t, n - 1), progs := put c.progs t k } := by
        simp [turn, hp, ho, hn] at h1; exact h1.symm
      subst e
      obtain ⟨m, hm⟩ := ih _ t (n - 1) h2 rfl (put_same _ _ _)
      refine ⟨m + 1, ?_⟩
      rw [List.replicate_succ, exec, h1, Option.bind_some, hm]
      simp [settle, ho, hp, put_same, put_put, Prog.solo, hn]
  | step f k ih =>
    intro c t n h ho hp
    obtain ⟨c1, h1, h2, -⟩ := turn_inv h t
    have e : c1 = { c with state := f c.state, progs := put c.progs t (k c.state) } := by
      simp [turn, hp] at h1; exact h1.symm
    subst e
    obtain ⟨m, hm⟩ := ih _ _ t n h2 ho (put_same _ _ _)
    refine ⟨m + 1, ?_⟩
    rw [List.replicate_succ, exec, h1, Option.bind_some, hm]
    simp [settle, ho, hp, put_same, put_put, Prog.solo]

theorem start_inv {s : σ} {ps : T → Prog σ ρ} (h : ∀ t, (ps t).Paired 0 0) : Inv (start s ps) :=
  ⟨fun t => h t, by simp [start]⟩

/-- Critical sections are operations. -/
theorem serial_of_serialP {impl : Method → A → Prog σ ρ} {sem : Method → A → σ → σ × ρ} (hi : ∀ m a, (impl m a).Paired 1 1)
    (hsem : ∀ m a s, (impl m a).alone s = sem m a s) (l : List T) (us : T → User A σ ρ) (s : σ) (hs : ∀ t, (us t).Safe false)
    {r : σ × (T → Prog σ ρ)} (hr : serialP l (fun t => (us t).code impl) s = some r) :
    ∃ us', serial sem l us s = some (r.1, us') ∧ (∀ t, (us' t).Safe false) ∧ r.2 = fun t => (us' t).code impl := by
  induction l generalizing us s with
  | nil => simp [serialP] at hr; subst hr; exact ⟨us, rfl, hs, rfl⟩
  | cons t l ih =>
    simp only [serialP] at hr
    split at hr
    · rename_i k hk
      obtain ⟨s', u', h1, h2, h3⟩ := User.code_section (sem := sem) hi hsem (hs t) hk s
      rw [h3] at hr
      have e : put (fun t => (us t).code impl) t (u'.code impl) = fun x => (if x = t then u' else us x).code impl := by
        funext x; simp only [put]; split <;> rfl
      rw [e] at hr
      obtain ⟨us', h4, h5, h6⟩ := ih _ s' (fun x => by split; exact h2; exact hs x) hr
      exact ⟨us', by simp [serial, h1, h4], h5, h6⟩
    · simp at hr

end Threads
end Verif
