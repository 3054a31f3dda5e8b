import Verif.Lemmas.QueueMem
set_option linter.unusedSimpArgs false
/-! # C104: an event queue deletes every event that it copied, once

`notifyGraphEvent` makes a copy of each event that it keeps.  The full property: every copy is deleted exactly once, at the latest when
its queue is destroyed, and is not used afterwards.

It fails: events that a later event supersedes, and events that are left when the queue is destroyed, are never deleted; and a copy of
a queue shares the events of the original. -/

namespace Verif
open QW

/-- the full statement -/
def C104_statement : Prop :=
  (∀ (env : Nat → QEnv) (n : Nat) (os : List QOp) (s : QW), run env n os init = some s → (∀ q, s.life q ≠ .alive) →
    ∀ p, s.cell p = none) ∧
  ∀ (env : Nat → QEnv) (n : Nat) (os : List QOp) (s : QW) (q : Nat), run env n os init = some s →
    s.step env n (.flush q) ≠ .ub "flush: deleted event"

section
variable {env : Nat → QEnv} {n : Nat}

variable {os : List QOp} {s : QW} (hp : ∀ o ∈ os, o.plain) (hr : run env n os init = some s)
include hp hr

/-- Without copies of queues: every pointer of a queue points to an event that exists, and no event has two pointers. -/
theorem C104_pointers_partial (q : Nat) :
    (s.queues q).Nodup ∧ ∀ p ∈ s.queues q, s.cell p ≠ none ∧ ∀ r, r ≠ q → p ∉ s.queues r := by
  have i : PInv env n os s := by simpa using run_pinv (init_pinv env n) hp hr
  exact ⟨i.inv.nodup q, fun p h => ⟨i.inv.live q p h, fun r hrq hx => hrq (i.inv.disj r q p hx h)⟩⟩

/-- Without copies of queues: each queue holds and has processed what the model of values (C33-C36, C72) says for its own calls. -/
theorem C104_refines_partial {q : Nat} (h1 : .make q ∈ os) (h2 : .destroy q ∉ os) :
    Queue.run (env q) n (os.flatMap (QOp.calls q)) Queue.init = some ⟨s.events q, s.processed q⟩ := by
  have i : PInv env n os s := by simpa using run_pinv (init_pinv env n) hp hr
  exact i.live q ((i.alive_iff q).2 ⟨h1, h2⟩)

/-- Without copies of queues, no operation uses or deletes a deleted event: an operation on an existing queue is undefined only if it is
a flush that is undefined because of the values of the events (C72). -/
theorem C104_defined_partial {o : QOp} (ho : o.Proper os) (r : String) :
    s.step env n o = .ub r ↔ ∃ q, o = .flush q ∧ Queue.flush (env q) n ⟨s.events q, s.processed q⟩ = .ub r := by
  have i : PInv env n os s := by simpa using run_pinv (init_pinv env n) hp hr
  constructor
  · intro h
    have := step_pinv i ho
    rw [h] at this
    exact this
  · rintro ⟨q, rfl, h⟩
    have ha := (i.alive_iff q).2 ho
    have := flush_spec (env q) n i.inv ha
    rw [h] at this
    simp only [step, ha, if_true]
    exact this

/-- Exactly which events one notification leaks: those that it supersedes. -/
theorem C104_notify_leaks {q : Nat} (h1 : .make q ∈ os) (h2 : .destroy q ∉ os) (e : Event) :
    ∃ t, s.step env n (.notify q e) = .ok () t ∧
      ∀ p, Leaked t p ↔ Leaked s p ∨ (p ∈ s.queues q ∧ ∃ x, s.cell p = some x ∧ x.mergeable e = true) := by
  have i : PInv env n os s := by simpa using run_pinv (init_pinv env n) hp hr
  have ha := (i.alive_iff q).2 ⟨h1, h2⟩
  obtain ⟨t, k1, -, -, -, -, -, -, k2⟩ := notify_spec i.inv ha e
  refine ⟨t, by simp only [step, ha, if_true]; exact k1, fun p => ?_⟩
  rw [k2]
  simp [superseded, Option.any_eq_true]

/-- Exactly which events the destructor leaks: all that are still in the queue. -/
theorem C104_destroy_leaks {q : Nat} (h1 : .make q ∈ os) (h2 : .destroy q ∉ os) :
    ∃ t, s.step env n (.destroy q) = .ok () t ∧ ∀ p, Leaked t p ↔ Leaked s p ∨ p ∈ s.queues q := by
  have i : PInv env n os s := by simpa using run_pinv (init_pinv env n) hp hr
  have ha := (i.alive_iff q).2 ⟨h1, h2⟩
  refine ⟨_, by simp only [step, ha, if_true]; rfl, fun p => ?_⟩
  constructor
  · rintro ⟨k1, k2⟩
    by_cases hx : p ∈ s.queues q
    · exact .inr hx
    · refine .inl ⟨k1, fun r hrr => ?_⟩
      have := k2 r
      simp only [setQueue, setLife] at this
      split at this
      · rename_i hy; exact hx (hy ▸ hrr)
      · exact this hrr
  · rintro (⟨k1, k2⟩ | k)
    · refine ⟨k1, fun r hrr => ?_⟩
      simp only [setQueue, setLife] at hrr
      split at hrr
      · cases hrr
      · exact k2 r hrr
    · refine ⟨i.inv.live q p k, fun r hrr => ?_⟩
      simp only [setQueue, setLife] at hrr
      split at hrr
      · cases hrr
      · rename_i hx; exact hx (i.inv.disj r q p hrr k)

/-- A flush whose `process` causes no event that supersedes another one leaks nothing, also if `process` throws; if it returns, the
queue is empty and what it pointed to is deleted. -/
theorem C104_flush_clean_partial {q : Nat} (h1 : .make q ∈ os) (h2 : .destroy q ∉ os)
    (he : ∀ l, ∀ e ∈ (env q l).1, ∀ x, Event.mergeable x e = false) :
    (∀ t, s.step env n (.flush q) = .ok () t → t.queues q = [] ∧ (∀ p ∈ s.queues q, t.cell p = none) ∧ ∀ p, Leaked t p ↔ Leaked s p) ∧
    ∀ x t, s.step env n (.flush q) = .throw x t → ∀ p, Leaked t p ↔ Leaked s p := by
  have i : PInv env n os s := by simpa using run_pinv (init_pinv env n) hp hr
  have ha := (i.alive_iff q).2 ⟨h1, h2⟩
  have hk := flush_spec (env q) n i.inv ha
  simp only [step, ha, if_true]
  constructor
  · intro t ht
    revert hk
    cases hf : Queue.flush (env q) n ⟨s.events q, s.processed q⟩ with
    | ub r => intro hk; rw [hk] at ht; cases ht
    | throw x Q => rintro ⟨u, hk, -⟩; rw [hk] at ht; cases ht
    | ok _ Q =>
      rintro ⟨u, hk, k2, k3, k4⟩
      rw [hk] at ht
      cases ht
      have hempty : Q.events = [] := flush_ok_empty hf
      have hq : t.queues q = [] := by
        rw [← k3] at hempty
        simp only [events] at hempty
        cases hl : t.queues q with
        | nil => rfl
        | cons p l =>
          have hlv := k2.inv.live q p (by rw [hl]; simp)
          rw [hl, List.filterMap_cons] at hempty
          cases hc : t.cell p with
          | none => exact absurd hc hlv
          | some c => rw [hc] at hempty; cases hempty
      refine ⟨hq, fun p hp => ?_, k4 he⟩
      by_contra hc
      have hlk : Leaked t p := by
        refine ⟨hc, fun r hrr => ?_⟩
        by_cases hrq : r = q
        · rw [hrq, hq] at hrr; cases hrr
        · rw [k2.queues r hrq] at hrr
          exact hrq (i.inv.disj r q p hrr hp)
      exact ((k4 he p).1 hlk).2 q hp
  · intro x t ht
    revert hk
    cases hf : Queue.flush (env q) n ⟨s.events q, s.processed q⟩ with
    | ub r => intro hk; rw [hk] at ht; cases ht
    | ok x Q => rintro ⟨u, hk, -⟩; rw [hk] at ht; cases ht
    | throw _ Q =>
      rintro ⟨u, hk, -, -, k4⟩
      rw [hk] at ht
      cases ht
      exact k4 he

/-- What is leaked stays leaked: no continuation of the program deletes it. -/
theorem C104_leaked_forever {os' : List QOp} (hp' : ∀ o ∈ os', o.plain) {t : QW} (ht : run env n os' s = some t) {p : Nat}
    (hl : Leaked s p) : Leaked t p := by
  have i : PInv env n os s := by simpa using run_pinv (init_pinv env n) hp hr
  clear hr hp
  induction os' generalizing os s with
  | nil => simp only [run, Option.some.injEq] at ht; subst ht; exact hl
  | cons o os' ih =>
    have one : ∀ u, run env n [o] s = some u → PInv env n (os ++ [o]) u ∧ Leaked u p := by
      intro u hu
      refine ⟨run_pinv i (by simpa using hp' o (by simp)) hu, ?_⟩
      have hpl := hp' o (by simp)
      simp only [run] at hu
      cases o with
      | copy q r => cases hpl
      | make q =>
        simp only [step] at hu
        by_cases hx : s.life q = .unborn
        · simp only [hx, if_true, Option.some.injEq] at hu
          subst hu
          refine ⟨hl.1, fun r hrr => ?_⟩
          simp only [setQueue, setLife] at hrr
          split at hrr
          · cases hrr
          · exact hl.2 r hrr
        · simp [hx] at hu
      | destroy q =>
        simp only [step] at hu
        by_cases hx : s.life q = .alive
        · simp only [hx, if_true, Option.some.injEq] at hu
          subst hu
          refine ⟨hl.1, fun r hrr => ?_⟩
          simp only [setQueue, setLife] at hrr
          split at hrr
          · cases hrr
          · exact hl.2 r hrr
        · simp [hx] at hu
      | notify q e =>
        simp only [step] at hu
        by_cases hx : s.life q = .alive
        · obtain ⟨v, k1, k2, -⟩ := notify_spec i.inv hx e
          simp only [hx, if_true, k1, Option.some.injEq] at hu
          subst hu
          exact k2.leaked p hl
        · simp [hx] at hu
      | flush q =>
        simp only [step] at hu
        by_cases hx : s.life q = .alive
        · have hk := flush_spec (env q) n i.inv hx
          simp only [hx, if_true] at hu
          revert hk
          cases Queue.flush (env q) n ⟨s.events q, s.processed q⟩ with
          | ub r => intro hk; simp only at hk; simp [hk] at hu
          | ok _ Q =>
            rintro ⟨v, k1, k2, -⟩
            simp only [k1, Option.some.injEq] at hu
            subst hu
            exact k2.leaked p hl
          | throw _ Q =>
            rintro ⟨v, k1, k2, -⟩
            simp only [k1, Option.some.injEq] at hu
            subst hu
            exact k2.leaked p hl
        · simp [hx] at hu
    simp only [run] at ht one
    revert ht one
    cases s.step env n o with
    | ub r => intro ht; cases ht
    | ok _ u =>
      intro ht one
      obtain ⟨k1, k2⟩ := one u rfl
      exact ih (fun o' ho' => hp' o' (by simp [ho'])) ht k2 k1
    | throw _ u =>
      intro ht one
      obtain ⟨k1, k2⟩ := one u rfl
      exact ih (fun o' ho' => hp' o' (by simp [ho'])) ht k2 k1

/-- A copy of a queue that holds an event: after one of them was flushed, flushing the other one or notifying it uses a deleted event. -/
theorem C104_copy_fails {q r : Nat} (h1 : .make q ∈ os) (h2 : .destroy q ∉ os) (h3 : .make r ∉ os) (hq : s.events q ≠ []) {t u : QW}
    (hc : s.step env n (.copy q r) = .ok () t) (hf : t.step env n (.flush q) = .ok () u) (e : Event) :
    u.step env n (.flush r) = .ub "flush: deleted event" ∧ u.step env n (.notify r e) = .ub "notifyGraphEvent: deleted event" := by
  have i : PInv env n os s := by simpa using run_pinv (init_pinv env n) hp hr
  have ha := (i.alive_iff q).2 ⟨h1, h2⟩
  have hu := (i.unborn r).2 h3
  have hqr : r ≠ q := by rintro rfl; exact h3 h1
  simp only [step, ha, hu, ne_eq, not_true_eq_false, if_false, if_true] at hc
  cases hc
  have hlife : ((s.setLife r .alive).setQueue r (s.queues q)).life q = .alive := by simp [setLife, setQueue, Ne.symm hqr, ha]
  simp only [step, hlife, if_true] at hf
  have hqq : ((s.setLife r .alive).setQueue r (s.queues q)).queues q = s.queues q := by simp [setLife, setQueue]
  cases hl : s.queues q with
  | nil => exact absurd (by simp [events, hl]) hq
  | cons p l =>
    have hlv := i.inv.fresh p (i.inv.live q p (by rw [hl]; simp))
    obtain ⟨k1, k2, k3, k5, k4⟩ := flush_gone hf
    have hpn : u.cell p = none := k4 p (by rw [hqq, hl]; rfl) hlv
    have hur : u.queues r = p :: l := by rw [k3 r hqr]; simp [setLife, setQueue, hl]
    have hul : u.life r = .alive := by
      rw [k5]; simp [setLife, setQueue]
    have hn : n ≠ 0 := by
      rintro rfl
      unfold flush at hf
      rw [hqq, hl] at hf
      cases hf
    obtain ⟨m, rfl⟩ := Nat.exists_eq_succ_of_ne_zero hn
    constructor
    · simp only [step, hul, if_true]
      unfold flush
      simp only [hur, hpn]
    · simp only [step, hul, if_true]
      simp [notify, hur, scan, hpn]

/-- Exactly when a program leaks, if `process` causes no event that supersedes another one: when some notification supersedes a queued
event, or some queue is destroyed that is not empty. -/
theorem C104_exact_partial (he : ∀ q l, ∀ e ∈ (env q l).1, ∀ x, Event.mergeable x e = false) :
    (∃ p, Leaked s p) ↔ ∃ os1 o os2 t, os = os1 ++ o :: os2 ∧ run env n os1 init = some t ∧
      ((∃ q e, o = .notify q e ∧ ∃ x ∈ t.events q, x.mergeable e = true) ∨ ∃ q, o = .destroy q ∧ t.events q ≠ []) := by
  have mem_events : ∀ (t : QW) q x, x ∈ t.events q ↔ ∃ p ∈ t.queues q, t.cell p = some x := by
    intro t q x; simp [events, List.mem_filterMap]
  constructor
  · rintro ⟨p, hl⟩
    induction os using List.reverseRecOn generalizing s with
    | nil => simp only [run, Option.some.injEq] at hr; subst hr; exact absurd rfl hl.1
    | append_singleton os o ih =>
      rw [qrun_append] at hr
      cases ht : run env n os init with
      | none => rw [ht] at hr; cases hr
      | some t =>
        rw [ht, Option.bind_some] at hr
        have hp1 : ∀ o ∈ os, o.plain := fun o' ho' => hp o' (by simp [ho'])
        have i : PInv env n os t := by simpa using run_pinv (init_pinv env n) hp1 ht
        have hold : Leaked t p → ∃ os1 o' os2 t', os ++ [o] = os1 ++ o' :: os2 ∧ run env n os1 init = some t' ∧
            ((∃ q e, o' = .notify q e ∧ ∃ x ∈ t'.events q, x.mergeable e = true) ∨ ∃ q, o' = .destroy q ∧ t'.events q ≠ []) := by
          intro hx
          obtain ⟨os1, o', os2, t', rfl, h2, h3⟩ := ih hp1 ht hx
          exact ⟨os1, o', os2 ++ [o], t', by simp, h2, h3⟩
        simp only [run] at hr
        have hpl := hp o (by simp)
        cases o with
        | copy q r => cases hpl
        | make q =>
          simp only [step] at hr
          by_cases hx : t.life q = .unborn
          · simp only [hx, if_true, Option.some.injEq] at hr
            subst hr
            refine hold ⟨hl.1, fun r hrr => ?_⟩
            have := hl.2 r
            simp only [setQueue, setLife] at this
            split at this
            · rename_i hy
              rw [hy, i.inv.dead q (by rw [hx]; simp)] at hrr
              cases hrr
            · exact this hrr
          · simp [hx] at hr
        | destroy q =>
          by_cases hx : t.life q = .alive
          · have hm := (i.alive_iff q).1 hx
            obtain ⟨u, k1, k2⟩ := C104_destroy_leaks hp1 ht hm.1 hm.2
            simp only [k1, Option.some.injEq] at hr
            subst hr
            rcases (k2 p).1 hl with h1 | h1
            · exact hold h1
            · refine ⟨os, .destroy q, [], t, rfl, ht, .inr ⟨q, rfl, ?_⟩⟩
              cases hc : t.cell p with
              | none => exact absurd hc (i.inv.live q p h1)
              | some x => exact List.ne_nil_of_mem ((mem_events t q x).2 ⟨p, h1, hc⟩)
          · simp [step, hx] at hr
        | notify q e =>
          by_cases hx : t.life q = .alive
          · have hm := (i.alive_iff q).1 hx
            obtain ⟨u, k1, k2⟩ := C104_notify_leaks hp1 ht hm.1 hm.2 e
            simp only [k1, Option.some.injEq] at hr
            subst hr
            rcases (k2 p).1 hl with h1 | ⟨h1, x, h2, h3⟩
            · exact hold h1
            · exact ⟨os, .notify q e, [], t, rfl, ht, .inl ⟨q, e, rfl, x, (mem_events t q x).2 ⟨p, h1, h2⟩, h3⟩⟩
          · simp [step, hx] at hr
        | flush q =>
          by_cases hx : t.life q = .alive
          · have hm := (i.alive_iff q).1 hx
            obtain ⟨k1, k2⟩ := C104_flush_clean_partial hp1 ht hm.1 hm.2 (he q)
            cases hs : t.step env n (.flush q) with
            | ub r => simp [hs] at hr
            | ok _ u =>
              simp only [hs, Option.some.injEq] at hr
              subst hr
              exact hold (((k1 _ hs).2.2 p).1 hl)
            | throw x u =>
              simp only [hs, Option.some.injEq] at hr
              subst hr
              exact hold ((k2 _ _ hs p).1 hl)
          · simp [step, hx] at hr
  · rintro ⟨os1, o, os2, t, rfl, ht, h⟩
    have hp1 : ∀ o ∈ os1, o.plain := fun o' ho' => hp o' (by simp [ho'])
    have i : PInv env n os1 t := by simpa using run_pinv (init_pinv env n) hp1 ht
    rw [qrun_append, ht, Option.bind_some, ← List.singleton_append, qrun_append] at hr
    cases hu : run env n [o] t with
    | none => rw [hu] at hr; cases hr
    | some u =>
      rw [hu, Option.bind_some] at hr
      have hlk : ∃ p, Leaked u p := by
        simp only [run] at hu
        rcases h with ⟨q, e, rfl, x, hx, hm⟩ | ⟨q, rfl, hx⟩
        · by_cases ha : t.life q = .alive
          · have hmk := (i.alive_iff q).1 ha
            obtain ⟨v, k1, k2⟩ := C104_notify_leaks hp1 ht hmk.1 hmk.2 e
            simp only [k1, Option.some.injEq] at hu
            subst hu
            obtain ⟨p, h1, h2⟩ := (mem_events t q x).1 hx
            exact ⟨p, (k2 p).2 (.inr ⟨h1, x, h2, hm⟩)⟩
          · simp [step, ha] at hu
        · by_cases ha : t.life q = .alive
          · have hmk := (i.alive_iff q).1 ha
            obtain ⟨v, k1, k2⟩ := C104_destroy_leaks hp1 ht hmk.1 hmk.2
            simp only [k1, Option.some.injEq] at hu
            subst hu
            obtain ⟨x, hx⟩ := List.exists_mem_of_ne_nil _ hx
            obtain ⟨p, h1, -⟩ := (mem_events t q x).1 hx
            exact ⟨p, (k2 p).2 (.inr h1)⟩
          · simp [step, ha] at hu
      obtain ⟨p, hlk⟩ := hlk
      refine ⟨p, C104_leaked_forever (os := os1 ++ [o]) (s := u) ?_ ?_ (fun o' ho' => hp o' (by simp [ho'])) hr hlk⟩
      · intro o' ho'
        rcases List.mem_append.1 ho' with h1 | h1
        · exact hp1 o' h1
        · exact hp o' (by simp at h1; simp [h1])
      · rw [qrun_append, ht]; exact hu
end

/-- nothing happens in `process` -/
def quiet : Nat → QEnv := fun _ _ => ([], false)

/-- a transform that is updated again and again between two calls of `flush` -/
def updates (k : Nat) : List QOp := .make 0 :: List.replicate k (.notify 0 (.edgeModified "a" "b" 0 1)) ++ [.flush 0, .destroy 0]

/-- The leak has no bound: of `k + 1` updates of one transform, `k` are leaked although the queue is flushed before it is destroyed. -/
theorem C104_updates_leak (k : Nat) : ∃ s, run quiet 1 (updates (k + 1)) init = some s ∧ (∀ q, s.life q ≠ .alive) ∧
    ∀ p, Leaked s p ↔ p < k := by
  -- after `j + 1` updates
  have key : ∀ j, ∃ s, run quiet 1 (.make 0 :: List.replicate (j + 1) (.notify 0 (.edgeModified "a" "b" 0 1))) init = some s ∧
      s.cell = (fun p => if p ≤ j then some (.edgeModified "a" "b" 0 1) else none) ∧ s.next = j + 1 ∧
      s.queues = (fun q => if q = 0 then [j] else []) ∧ s.life = (fun q => if q = 0 then .alive else .unborn) := by
    intro j
    induction j with
    | zero =>
      refine ⟨_, rfl, ?_, rfl, ?_, ?_⟩
      · funext p; simp [init, setCell, setQueue, setLife]
      · funext q; simp [init, setCell, setQueue, setLife]
      · funext q; simp [init, setCell, setQueue, setLife]
    | succ j ih =>
      obtain ⟨s, h1, h2, h3, h4, h5⟩ := ih
      rw [List.replicate_succ', ← List.cons_append, qrun_append, h1, Option.bind_some]
      have hst : s.step quiet 1 (.notify 0 (.edgeModified "a" "b" 0 1)) = .ok ()
          { (s.setCell s.next (some (.edgeModified "a" "b" 0 1))).setQueue 0 [s.next] with next := s.next + 1 } := by
        have hm : Event.mergeable (.edgeModified "a" "b" 0 1) (.edgeModified "a" "b" 0 1) = true := by decide
        have hc : Event.cancels (.edgeModified "a" "b" 0 1) (.edgeModified "a" "b" 0 1) = false := by decide
        simp [step, h5, notify, h4, scan, h2, hm, hc]
      refine ⟨_, by simp only [run, hst]; rfl, ?_, ?_, ?_, ?_⟩
      · funext p
        simp only [setCell, setQueue, h2, h3]
        by_cases hp : p = j + 1
        · simp [hp]
        · simp only [hp, if_false]
          congr 1
          simp only [eq_iff_iff]
          omega
      · simp [h3]
      · funext q; simp only [setCell, setQueue, h4, h3]; try (split <;> rfl)
      · exact h5
  obtain ⟨s, h1, h2, h3, h4, h5⟩ := key k
  unfold updates
  rw [qrun_append, h1, Option.bind_some]
  refine ⟨_, by simp [run, step, h5, flush, h4, h2, quiet, arrive, addProcessed, setQueue, setCell]; rfl, ?_, ?_⟩
  · intro q
    simp only [setLife, setQueue]
    split
    · simp
    · rename_i hq; simp [hq]
  · intro p
    constructor
    · rintro ⟨a, -⟩
      simp only [setLife, setQueue, setCell] at a
      by_cases hp : p = k
      · simp [hp] at a
      · simp [hp] at a
        omega
    · intro hp
      have hne : p ≠ k := by omega
      refine ⟨?_, ?_⟩
      · simp [setLife, setQueue, setCell, hne]; omega
      · intro q hq
        simp only [setLife, setQueue] at hq
        split at hq
        · cases hq
        · simp_all

theorem C104_statement_fails : ¬ C104_statement := by
  intro hs
  obtain ⟨s, h1, h2, h3⟩ := C104_updates_leak 1
  exact ((h3 0).2 (by decide)).1 (hs.1 quiet 1 _ s h1 h2 0)

-- C104_updates_leak: three updates, two leaks
example : (run quiet 1 (updates 3) init).map (fun s => (List.range 4).map (fun p => (s.cell p).isSome)) =
    some [true, true, false, false] := by rfl
-- C104_refines_partial, C104_pointers_partial, C104_notify_leaks: two queues; the removal supersedes the announcement of the edge
def twoQueues : List QOp :=
  [.make 0, .make 1, .notify 0 (.frameAdded "a"), .notify 1 (.frameAdded "a"), .notify 0 (.edgeAdded "a" "b" 1),
    .notify 0 (.edgeRemoved "b" "a"), .notify 1 (.itemAdded "a" 7)]
example : (run quiet 9 twoQueues init).map (fun s => (s.queues 0, s.queues 1, s.events 0, s.events 1, (s.cell 2))) =
    some ([0], [1, 3], [.frameAdded "a"], [.frameAdded "a", .itemAdded "a" 7], some (.edgeAdded "a" "b" 1)) := by rfl
-- C104_flush_clean_partial, C104_destroy_leaks: flushing queue 1 frees its events; queue 0 is destroyed with one event
example : (run quiet 9 (twoQueues ++ [.flush 1, .destroy 0, .destroy 1]) init).map (fun s => ((List.range 5).map (fun p => (s.cell p).isSome),
    s.processed 1)) = some ([true, false, true, false, false], [.frameAdded "a", .itemAdded "a" 7]) := by rfl
-- `process` throws at the first event: nothing is deleted or lost, and the next flush goes on
example : (run (fun _ l => ([], l.length == 1)) 9 (twoQueues ++ [.flush 1]) init).map (fun s => (s.queues 1, s.processed 1)) =
      some ([1, 3], [.frameAdded "a"]) ∧
    (run (fun _ l => ([], l.length == 1)) 9 (twoQueues ++ [.flush 1, .flush 1]) init).map (fun s => (s.queues 1, s.cell 1, s.cell 3)) =
      some ([], none, none) := ⟨by rfl, by rfl⟩
-- C104_copy_fails: a copy of queue 1
example : (run quiet 9 (twoQueues ++ [.copy 1 2, .flush 1]) init).isSome = true ∧
    (run quiet 9 (twoQueues ++ [.copy 1 2, .flush 1, .flush 2]) init).isNone = true ∧
    (run quiet 9 (twoQueues ++ [.copy 1 2, .flush 1, .notify 2 (.frameRemoved "a")]) init).isNone = true := ⟨by rfl, by rfl, by rfl⟩
-- C104_defined_partial: `process` removes the edge that it is told about (C72)
example : (run (fun _ _ => ([.frameRemoved "a"], false)) 9 (twoQueues ++ [.flush 1]) init).isNone = true := by rfl

end Verif
