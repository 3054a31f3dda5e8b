import Verif.Props.C104
import Mathlib.Data.Set.Card
/-! # C104: exactly which events one call of `flush` leaks, whatever `process` causes -/

namespace Verif
open QW

private theorem scan_sub {cell : Nat → Option Event} {e : Event} {l : List Nat} : ∀ {b : Bool} {r : List Nat × Bool},
    QW.scan cell e l b = some r → ∀ p ∈ r.1, p ∈ l := by
  induction l with
  | nil => intro b r h; simp only [QW.scan, Option.some.injEq] at h; subst h; simp
  | cons a l ih =>
    intro b r h
    simp only [QW.scan] at h
    split at h
    · cases h
    · split at h
      · exact fun p hp => List.mem_cons_of_mem _ (ih h p hp)
      · obtain ⟨r', h1, rfl⟩ := Option.map_eq_some_iff.1 h
        intro p hp
        rcases List.mem_cons.1 hp with rfl | hp
        · simp
        · exact List.mem_cons_of_mem _ (ih h1 p hp)

/-- what a call leaves of the events: the old ones are as before, the new ones exist, and the queue points to some of both -/
private structure Cells (q : Nat) (s t : QW) : Prop where
  next : s.next ≤ t.next
  old : ∀ p, p < s.next → t.cell p = s.cell p
  new : ∀ p, s.next ≤ p → p < t.next → t.cell p ≠ none
  sub : ∀ p ∈ t.queues q, p ∈ s.queues q ∨ (s.next ≤ p ∧ p < t.next)

private theorem notify_cells {q : Nat} {e : Event} {s t : QW} (h : QW.notify q e s = .ok () t) : Cells q s t := by
  unfold QW.notify at h
  split at h
  · cases h
  · rename_i l hs
    cases h
    exact ⟨Nat.le_refl _, fun _ _ => rfl, fun p h1 h2 => absurd h1 (Nat.not_le.2 h2), fun p hp => Or.inl (scan_sub hs p (by simpa [setQueue] using hp))⟩
  · rename_i l hs
    cases h
    refine ⟨Nat.le_succ _, fun p hp => ?_, fun p h1 h2 => ?_, fun p hp => ?_⟩
    · simp only [setQueue, setCell]; rw [if_neg (by omega)]
    · have : p = s.next := by
        have h2 : p < s.next + 1 := h2
        omega
      simp [setQueue, setCell, this]
    · simp only [setQueue, setCell, if_true, List.mem_append, List.mem_singleton] at hp
      rcases hp with hp | rfl
      · exact Or.inl (scan_sub hs p hp)
      · exact Or.inr ⟨Nat.le_refl _, Nat.lt_succ_self _⟩

private theorem arrive_cells {q : Nat} {cur : Event} {es : List Event} : ∀ {s t : QW}, QW.arrive q cur es s = .ok () t → Cells q s t := by
  induction es with
  | nil => intro s t h; cases h; exact ⟨Nat.le_refl _, fun _ _ => rfl, fun p h1 h2 => absurd h1 (Nat.not_le.2 h2), fun p hp => Or.inl hp⟩
  | cons e es ih =>
    intro s t h
    unfold QW.arrive at h
    split at h
    · cases h
    · split at h
      · rename_i u hu
        have a := notify_cells hu
        have b := ih h
        have a1 := a.next
        have b1 := b.next
        refine ⟨Nat.le_trans a1 b1, fun p hp => (b.old p (by omega)).trans (a.old p hp), fun p h1 h2 => ?_, fun p hp => ?_⟩
        · by_cases h3 : p < u.next
          · rw [b.old p h3]; exact a.new p h1 h3
          · exact b.new p (by omega) h2
        · rcases b.sub p hp with h1 | ⟨h1, h2⟩
          · rcases a.sub p h1 with h1 | ⟨h1, h2⟩
            · exact Or.inl h1
            · exact Or.inr ⟨h1, by omega⟩
          · exact Or.inr ⟨by omega, h2⟩
      · cases h
      · cases h

/-- `l` are the events that one call of `flush` has processed and deleted -/
private structure Freed (q : Nat) (s t : QW) (l : List (Nat × Event)) : Prop where
  nodup : (l.map Prod.fst).Nodup
  gone : ∀ x ∈ l, t.cell x.1 = none
  origin : ∀ x ∈ l, (x.1 ∈ s.queues q ∧ s.cell x.1 = some x.2) ∨ (s.next ≤ x.1 ∧ x.1 < t.next)
  next : s.next ≤ t.next
  old : ∀ p, p < s.next → p ∉ l.map Prod.fst → t.cell p = s.cell p
  new : ∀ p, s.next ≤ p → p < t.next → p ∉ l.map Prod.fst → t.cell p ≠ none

private theorem flush_cells {env : QEnv} {q : Nat} {n : Nat} : ∀ {s : QW}, QInv s → s.life q = .alive →
    (∀ t, QW.flush env q n s = .ok () t → ∃ l, t.processed q = s.processed q ++ l.map Prod.snd ∧ Freed q s t l ∧ t.queues q = []) ∧
    (∀ y t, QW.flush env q n s = .throw y t → ∃ l p c, t.processed q = s.processed q ++ l.map Prod.snd ++ [c] ∧ Freed q s t l ∧
      (t.queues q).head? = some p ∧ t.cell p = some c) := by
  have stop : ∀ {s : QW}, Freed q s s [] := fun {s} => ⟨by simp, by simp, by simp, Nat.le_refl _, fun _ _ _ => rfl,
    fun p h1 h2 => absurd h1 (Nat.not_le.2 h2)⟩
  induction n with
  | zero =>
    intro s h hq
    unfold QW.flush
    cases hl : s.queues q with
    | nil => exact ⟨fun t ht => by cases ht; exact ⟨[], by simp, stop, hl⟩, fun y t ht => by cases ht⟩
    | cons p l => exact ⟨fun t ht => (by cases ht), fun y t ht => (by cases ht)⟩
  | succ n ih =>
    intro s h hq
    unfold QW.flush
    cases hl : s.queues q with
    | nil => exact ⟨fun t ht => by cases ht; exact ⟨[], by simp, stop, hl⟩, fun y t ht => by cases ht⟩
    | cons p l =>
      simp only
      have hpq : p ∈ s.queues q := by rw [hl]; simp
      cases hc : s.cell p with
      | none => exact absurd hc (h.live q p hpq)
      | some c =>
        simp only
        have hpn : p < s.next := h.fresh p (by rw [hc]; simp)
        have h0 : QInv (s.addProcessed q c) := addProcessed_inv h q c
        have := arrive_spec (q := q) (p := p) (cur := c) (env (s.processed q ++ [c])).1 h0 hq hl hc
        revert this
        cases Queue.arrive c (env (s.processed q ++ [c])).1 ((s.addProcessed q c).events q) with
        | none => intro this; simp only at this; rw [this]; exact ⟨fun t ht => (by cases ht), fun y t ht => (by cases ht)⟩
        | some L =>
          rintro ⟨u, k1, k2, -, k4, ⟨l', k5⟩, k6, -⟩
          have cu : Cells q (s.addProcessed q c) u := arrive_cells k1
          have a1 : s.next ≤ u.next := cu.next
          have hpr : u.processed q = s.processed q ++ [c] := by rw [k4]; simp [addProcessed]
          simp only [k1]
          cases (env (s.processed q ++ [c])).2 with
          | true =>
            simp only [if_true]
            refine ⟨fun t ht => (by cases ht), fun y t ht => ?_⟩
            cases ht
            exact ⟨[], p, c, by simp [hpr], ⟨by simp, by simp, by simp, a1, fun x hx _ => cu.old x hx, fun x h1 h2 _ => cu.new x h1 h2⟩,
              by rw [k5]; rfl, k6⟩
          | false =>
            simp only [Bool.false_eq_true, if_false]
            rw [show (u.queues q).tail = l' by rw [k5]; rfl]
            obtain ⟨j1, -, -⟩ := pop_keeps k2.inv (by rw [k2.life]; exact hq) k5
            have key : ∀ {t : QW} {m : List (Nat × Event)}, Freed q ((u.setQueue q l').setCell p none) t m → Freed q s t ((p, c) :: m) := by
              intro t m f
              have b1 : u.next ≤ t.next := f.next
              have cell' : ∀ x, x ≠ p → ((u.setQueue q l').setCell p none).cell x = u.cell x := fun x hx => by simp [setCell, setQueue, hx]
              have pm : p ∉ m.map Prod.fst := by
                intro hp
                obtain ⟨x, hx, e⟩ := List.mem_map.1 hp
                rcases f.origin x hx with ⟨-, h1⟩ | ⟨h1, -⟩
                · rw [e] at h1; simp [setCell] at h1
                · have h1 : u.next ≤ x.1 := h1
                  rw [e] at h1
                  omega
              refine ⟨?_, ?_, ?_, Nat.le_trans a1 b1, ?_, ?_⟩
              · rw [List.map_cons, List.nodup_cons]; exact ⟨pm, f.nodup⟩
              · intro x hx
                rcases List.mem_cons.1 hx with rfl | hx
                · have h1 : p < ((u.setQueue q l').setCell p none).next := Nat.lt_of_lt_of_le hpn a1
                  rw [f.old p h1 pm]; simp [setCell]
                · exact f.gone x hx
              · intro x hx
                rcases List.mem_cons.1 hx with rfl | hx
                · exact Or.inl ⟨hpq, hc⟩
                · rcases f.origin x hx with ⟨h1, h2⟩ | ⟨h1, h2⟩
                  · have hxp : x.1 ≠ p := fun e => pm (List.mem_map.2 ⟨x, hx, e⟩)
                    rw [cell' _ hxp] at h2
                    have h1 : x.1 ∈ u.queues q := by
                      simp only [setCell, setQueue, if_true] at h1
                      rw [k5]; simp [h1]
                    rcases cu.sub _ h1 with h3 | ⟨h3, h4⟩
                    · have h3 : x.1 ∈ s.queues q := h3
                      rw [cu.old _ (h.fresh _ (h.live q _ h3))] at h2
                      exact Or.inl ⟨h3, h2⟩
                    · exact Or.inr ⟨h3, Nat.lt_of_lt_of_le h4 b1⟩
                  · exact Or.inr ⟨Nat.le_trans a1 h1, h2⟩
              · intro x hx hm
                rw [List.map_cons, List.mem_cons, not_or] at hm
                rw [f.old x (Nat.lt_of_lt_of_le hx a1) hm.2, cell' x hm.1, cu.old x hx]; rfl
              · intro x h1 h2 hm
                rw [List.map_cons, List.mem_cons, not_or] at hm
                by_cases h3 : x < u.next
                · rw [f.old x h3 hm.2, cell' x hm.1]; exact cu.new x h1 h3
                · exact f.new x (Nat.le_of_not_lt h3) h2 hm.2
            obtain ⟨i1, i2⟩ := ih (s := (u.setQueue q l').setCell p none) j1.inv (by rw [j1.life, k2.life]; exact hq)
            constructor
            · intro t ht
              obtain ⟨m, e1, e2, e3⟩ := i1 t ht
              refine ⟨(p, c) :: m, ?_, key e2, e3⟩
              rw [e1, show ((u.setQueue q l').setCell p none).processed q = _ from hpr]; simp
            · intro y t ht
              obtain ⟨m, p', c', e1, e2, e3⟩ := i2 y t ht
              refine ⟨(p, c) :: m, p', c', ?_, key e2, e3⟩
              rw [e1, show ((u.setQueue q l').setCell p none).processed q = _ from hpr]; simp

private theorem flush_keeps {env : QEnv} {q n : Nat} {s : QW} (i : QInv s) (ha : s.life q = .alive) :
    ∀ t, (QW.flush env q n s = .ok () t ∨ ∃ y, QW.flush env q n s = .throw y t) → Keeps q s t := by
  have hk := flush_spec env n i ha
  intro t ht
  revert hk
  cases Queue.flush env n ⟨s.events q, s.processed q⟩ with
  | ub r => intro hk; simp [hk] at ht
  | ok _ Q => rintro ⟨u, hk, k2, -⟩; simp [hk] at ht; rw [← ht]; exact k2
  | throw x Q => rintro ⟨u, hk, k2, -⟩; simp [hk] at ht; rw [← ht]; exact k2

private theorem leaked_iff {q : Nat} {s t : QW} {l : List (Nat × Event)} (i : QInv s) (k : Keeps q s t) (f : Freed q s t l) (p : Nat) : Leaked t p ↔
    Leaked s p ∨ ((p ∈ s.queues q ∨ (s.next ≤ p ∧ p < t.next)) ∧ p ∉ l.map Prod.fst ∧ p ∉ t.queues q) := by
  constructor
  · rintro ⟨a1, a2⟩
    have hm : p ∉ l.map Prod.fst := by
      intro hm
      obtain ⟨x, hx, rfl⟩ := List.mem_map.1 hm
      exact a1 (f.gone x hx)
    have hn := k.inv.fresh p a1
    by_cases hs : p < s.next
    · rw [f.old p hs hm] at a1
      by_cases hq' : p ∈ s.queues q
      · exact Or.inr ⟨Or.inl hq', hm, a2 q⟩
      · refine Or.inl ⟨a1, fun r hr => ?_⟩
        by_cases hrq : r = q
        · subst hrq; exact hq' hr
        · exact a2 r (by rw [k.queues r hrq]; exact hr)
    · exact Or.inr ⟨Or.inr ⟨Nat.le_of_not_lt hs, hn⟩, hm, a2 q⟩
  · rintro (h | ⟨h, hm, hq'⟩)
    · exact k.leaked p h
    · have other : ∀ r, p ∈ t.queues r → r = q := by
        intro r hr
        by_contra hrq
        rw [k.queues r hrq] at hr
        rcases h with h | ⟨h, -⟩
        · exact hrq (i.disj r q p hr h)
        · exact absurd (i.fresh p (i.live r p hr)) (Nat.not_lt.2 h)
      refine ⟨?_, fun r hr => hq' (other r hr ▸ hr)⟩
      rcases h with h | ⟨h3, h4⟩
      · have := i.live q p h
        rw [f.old p (i.fresh p this) hm]; exact this
      · exact f.new p h3 h4 hm

variable {env : Nat → QEnv} {n : Nat} {os : List QOp} {s : QW}

/-- Exactly which events a call of `flush` leaks, whatever `process` causes: of the events that were in the queue and of those that were stored during
the call, it processes some, each one once, and deletes these; if it returns, all others are leaked.
If `process` throws, the event that it was called for stays in the queue, and of the others exactly those are leaked that are not in the queue any more. -/
theorem C104_flush_leaks (hp : ∀ o ∈ os, o.plain) (hr : QW.run env n os QW.init = some s) {q : Nat} (h1 : .make q ∈ os) (h2 : .destroy q ∉ os) :
    (∀ t, s.step env n (.flush q) = .ok () t → ∃ l : List (Nat × Event),
      t.processed q = s.processed q ++ l.map Prod.snd ∧ (l.map Prod.fst).Nodup ∧
      (∀ x ∈ l, t.cell x.1 = none ∧ ((x.1 ∈ s.queues q ∧ s.cell x.1 = some x.2) ∨ (s.next ≤ x.1 ∧ x.1 < t.next))) ∧
      ∀ p, Leaked t p ↔ Leaked s p ∨ ((p ∈ s.queues q ∨ (s.next ≤ p ∧ p < t.next)) ∧ p ∉ l.map Prod.fst)) ∧
    (∀ y t, s.step env n (.flush q) = .throw y t → ∃ (l : List (Nat × Event)) (p0 : Nat) (c : Event),
      t.processed q = s.processed q ++ l.map Prod.snd ++ [c] ∧ (t.queues q).head? = some p0 ∧ t.cell p0 = some c ∧ (l.map Prod.fst).Nodup ∧
      (∀ x ∈ l, t.cell x.1 = none ∧ ((x.1 ∈ s.queues q ∧ s.cell x.1 = some x.2) ∨ (s.next ≤ x.1 ∧ x.1 < t.next))) ∧
      ∀ p, Leaked t p ↔ Leaked s p ∨ ((p ∈ s.queues q ∨ (s.next ≤ p ∧ p < t.next)) ∧ p ∉ l.map Prod.fst ∧ p ∉ t.queues q)) := by
  have i : PInv env n os s := by simpa using run_pinv (init_pinv env n) hp hr
  have ha := (i.alive_iff q).2 ⟨h1, h2⟩
  obtain ⟨f1, f2⟩ := flush_cells (env := env q) (n := n) i.inv ha
  have keeps := flush_keeps (n := n) (env := env q) i.inv ha
  simp only [QW.step, ha, if_true]
  constructor
  · intro t ht
    obtain ⟨l, e1, e2, e3⟩ := f1 t ht
    refine ⟨l, e1, e2.nodup, fun x hx => ⟨e2.gone x hx, e2.origin x hx⟩, fun p => ?_⟩
    rw [leaked_iff i.inv (keeps t (Or.inl ht)) e2 p, e3]
    simp
  · intro y t ht
    obtain ⟨l, p0, c, e1, e2, e3, e4⟩ := f2 y t ht
    exact ⟨l, p0, c, e1, e3, e4, e2.nodup, fun x hx => ⟨e2.gone x hx, e2.origin x hx⟩, leaked_iff i.inv (keeps t (Or.inr ⟨y, ht⟩)) e2⟩

/-- `process` updates a transform twice when it is told about a frame: of the four events that were stored (addresses 0 to 3) two are processed and deleted,
the queued update 1 and the first update 2 of `process` are superseded and leaked -/
example : let env : Nat → QEnv := fun _ l => (if l.length = 1 then [.edgeModified "a" "b" 0 1, .edgeModified "a" "b" 0 1] else [], false)
    (QW.run env 9 [.make 0, .notify 0 (.frameAdded "c"), .notify 0 (.edgeModified "a" "b" 0 1), .flush 0] QW.init).map
      (fun s => (s.processed 0, s.next, (List.range 4).map (fun p => (s.cell p).isSome), s.queues 0)) =
    some ([.frameAdded "c", .edgeModified "a" "b" 0 1], 4, [false, true, true, false], []) := by rfl

/-- the same `process` throws: the frame stays in the queue, the superseded updates are leaked all the same -/
example : let env : Nat → QEnv := fun _ l => (if l.length = 1 then [.edgeModified "a" "b" 0 1, .edgeModified "a" "b" 0 1] else [], true)
    (QW.run env 9 [.make 0, .notify 0 (.frameAdded "c"), .notify 0 (.edgeModified "a" "b" 0 1), .flush 0] QW.init).map
      (fun s => (s.processed 0, s.next, (List.range 4).map (fun p => (s.cell p).isSome), s.queues 0)) =
    some ([.frameAdded "c"], 4, [true, true, true, true], [0, 3]) := by rfl


/-- where every stored event is: the processed ones are deleted, the others are not -/
private structure Balance (H : Prop) (s : QW) (fr : Nat → List (Nat × Event)) : Prop where
  proc : ∀ q, ((fr q).map Prod.snd).Sublist (s.processed q)
  eq : H → ∀ q, s.processed q = (fr q).map Prod.snd
  nodup : ∀ q, ((fr q).map Prod.fst).Nodup
  disj : ∀ q r p, p ∈ (fr q).map Prod.fst → p ∈ (fr r).map Prod.fst → q = r
  lt : ∀ q, ∀ p ∈ (fr q).map Prod.fst, p < s.next
  gone : ∀ p, p < s.next → (s.cell p = none ↔ ∃ q, p ∈ (fr q).map Prod.fst)

private theorem Balance.notify {H : Prop} {s t : QW} {fr : Nat → List (Nat × Event)} (b : Balance H s fr) {q : Nat} (c : Cells q s t)
    (hpr : t.processed = s.processed) : Balance H t fr := by
  refine ⟨fun r => by rw [hpr]; exact b.proc r, fun h r => by rw [hpr]; exact b.eq h r, b.nodup, b.disj, fun r p hp => Nat.lt_of_lt_of_le (b.lt r p hp) c.next, fun p hp => ?_⟩
  by_cases h : p < s.next
  · rw [c.old p h]; exact b.gone p h
  · refine ⟨fun h' => absurd h' (c.new p (Nat.le_of_not_lt h) hp), ?_⟩
    rintro ⟨r, hr⟩
    exact absurd (b.lt r p hr) h

private theorem Balance.flush {H : Prop} {s t : QW} {fr : Nat → List (Nat × Event)} (b : Balance H s fr) {q : Nat} {l : List (Nat × Event)} {m : List Event} (i : QInv s) (f : Freed q s t l)
    (hpr : t.processed q = s.processed q ++ l.map Prod.snd ++ m) (hm : H → m = []) (hot : ∀ r, r ≠ q → t.processed r = s.processed r) :
    Balance H t (fun r => if r = q then fr q ++ l else fr r) := by
  have fresh : ∀ p ∈ l.map Prod.fst, ∀ r, p ∉ (fr r).map Prod.fst := by
    intro p hp r hr
    obtain ⟨x, hx, rfl⟩ := List.mem_map.1 hp
    have h1 := b.lt r _ hr
    have h2 := (b.gone _ h1).2 ⟨r, hr⟩
    rcases f.origin x hx with ⟨-, h⟩ | ⟨h, -⟩
    · rw [h2] at h; cases h
    · omega
  have mem : ∀ r p, p ∈ (if r = q then fr q ++ l else fr r).map Prod.fst ↔ p ∈ (fr r).map Prod.fst ∨ (r = q ∧ p ∈ l.map Prod.fst) := by
    intro r p
    by_cases hr : r = q
    · subst hr; simp only [if_true, List.map_append, List.mem_append, true_and]
    · simp only [hr, if_false, false_and, or_false]
  refine ⟨fun r => ?_, fun hH r => ?_, fun r => ?_, fun r r' p h1 h2 => ?_, fun r p hp => ?_, fun p hp => ?_⟩
  · by_cases hr : r = q
    · subst hr
      simp only [if_true, List.map_append, hpr]
      exact ((b.proc r).append_right _).trans (List.sublist_append_left _ _)
    · simp only [hr, if_false, hot r hr]; exact b.proc r
  · by_cases hr : r = q
    · subst hr; simp only [if_true, List.map_append, hpr, hm hH, List.append_nil, b.eq hH]
    · simp only [hr, if_false, hot r hr, b.eq hH]
  · by_cases hr : r = q
    · subst hr
      simp only [if_true, List.map_append]
      rw [List.nodup_append']
      exact ⟨b.nodup r, f.nodup, fun p h1 h2 => fresh p h2 r h1⟩
    · simp only [hr, if_false]; exact b.nodup r
  · rcases (mem r p).1 h1 with h1 | ⟨h1, h1'⟩ <;> rcases (mem r' p).1 h2 with h2 | ⟨h2, h2'⟩
    · exact b.disj r r' p h1 h2
    · exact absurd h1 (fresh p h2' r)
    · exact absurd h2 (fresh p h1' r')
    · exact h1.trans h2.symm
  · rcases (mem r p).1 hp with h | ⟨-, h⟩
    · exact Nat.lt_of_lt_of_le (b.lt r p h) f.next
    · obtain ⟨x, hx, rfl⟩ := List.mem_map.1 h
      rcases f.origin x hx with ⟨h1, -⟩ | ⟨-, h1⟩
      · exact Nat.lt_of_lt_of_le (i.fresh _ (i.live q _ h1)) f.next
      · exact h1
  · constructor
    · intro hc
      by_cases hm : p ∈ l.map Prod.fst
      · exact ⟨q, (mem q p).2 (Or.inr ⟨rfl, hm⟩)⟩
      · by_cases hs : p < s.next
        · rw [f.old p hs hm] at hc
          obtain ⟨r, hr⟩ := (b.gone p hs).1 hc
          exact ⟨r, (mem r p).2 (Or.inl hr)⟩
        · exact absurd hc (f.new p (Nat.le_of_not_lt hs) hp hm)
    · rintro ⟨r, hr⟩
      by_cases hm : p ∈ l.map Prod.fst
      · obtain ⟨x, hx, rfl⟩ := List.mem_map.1 hm
        exact f.gone x hx
      · rcases (mem r p).1 hr with h | ⟨-, h⟩
        · rw [f.old p (b.lt r p h) hm]
          exact (b.gone p (b.lt r p h)).2 ⟨r, h⟩
        · exact absurd h hm

private theorem flush_no_throw {env : QEnv} (he : ∀ l, (env l).2 = false) {q : Nat} {n : Nat} : ∀ {s t : QW} {y : Exn}, QW.flush env q n s ≠ .throw y t := by
  have arr : ∀ {cur : Event} {es : List Event} {s t : QW} {y : Exn}, QW.arrive q cur es s ≠ .throw y t := by
    intro cur es
    induction es with
    | nil => intro s t y h; cases h
    | cons e es ih =>
      intro s t y h
      unfold QW.arrive at h
      split at h
      · cases h
      · split at h
        · exact ih h
        · rename_i hx; exact notify_no_throw hx
        · cases h
  induction n with
  | zero =>
    intro s t y h
    unfold QW.flush at h
    split at h <;> cases h
  | succ n ih =>
    intro s t y h
    unfold QW.flush at h
    split at h
    · cases h
    · dsimp only at h
      split at h
      · cases h
      · split at h
        · cases h
        · rename_i hx; exact arr hx
        · rw [he] at h
          simp only [Bool.false_eq_true, if_false] at h
          exact ih h

/-- The balance of a whole program without copies of queues, whatever `process` causes, also if it throws: every event that was stored
is in exactly one place. Either it was processed by one queue and is deleted; or it is in one queue; or it is leaked.
The deleted events are among the processed ones, in this order, and they are all of them if `process` does not throw (after an exception it is called again
for the same event).
Missing compared to C104: copies of queues (`C104_copy_fails`). -/
theorem C104_balance_partial (hp : ∀ o ∈ os, o.plain) (hr : QW.run env n os QW.init = some s) :
    ∃ fr : Nat → List (Nat × Event), (∀ q, ((fr q).map Prod.snd).Sublist (s.processed q)) ∧
      ((∀ q l, (env q l).2 = false) → ∀ q, s.processed q = (fr q).map Prod.snd) ∧
      (∀ q, ((fr q).map Prod.fst).Nodup) ∧ (∀ q r p, p ∈ (fr q).map Prod.fst → p ∈ (fr r).map Prod.fst → q = r) ∧
      (∀ p, p < s.next ↔ (∃ q, p ∈ (fr q).map Prod.fst) ∨ (∃ q, p ∈ s.queues q) ∨ Leaked s p) ∧
      ∀ p, ¬ ((∃ q, p ∈ (fr q).map Prod.fst) ∧ ((∃ q, p ∈ s.queues q) ∨ Leaked s p)) ∧ ¬ ((∃ q, p ∈ s.queues q) ∧ Leaked s p) := by
  have bal : ∀ (os' : List QOp) {os : List QOp} {s t : QW} {fr : Nat → List (Nat × Event)}, (∀ o ∈ os', o.plain) → PInv env n os s →
      Balance (∀ q l, (env q l).2 = false) s fr → QW.run env n os' s = some t → ∃ fr', Balance (∀ q l, (env q l).2 = false) t fr' := by
    intro os'
    induction os' with
    | nil => intro os s t fr _ _ b h; cases h; exact ⟨fr, b⟩
    | cons o os' ih =>
      intro os s t fr hp i b h
      have ho := hp o (by simp)
      have key : ∀ u, (s.step env n o = .ok () u ∨ ∃ y, s.step env n o = .throw y u) → ∃ fr', Balance (∀ q l, (env q l).2 = false) u fr' := by
        intro u hs
        cases o with
        | copy q r => exact absurd ho (by simp [QOp.plain])
        | make q =>
          simp only [QW.step] at hs
          split at hs <;> rcases hs with hs | ⟨y, hs⟩ <;> cases hs
          exact ⟨fr, b.proc, b.eq, b.nodup, b.disj, b.lt, b.gone⟩
        | destroy q =>
          simp only [QW.step] at hs
          split at hs <;> rcases hs with hs | ⟨y, hs⟩ <;> cases hs
          exact ⟨fr, b.proc, b.eq, b.nodup, b.disj, b.lt, b.gone⟩
        | notify q e =>
          simp only [QW.step] at hs
          split at hs
          · rename_i ha
            obtain ⟨t', k1, -, -, k4, -⟩ := notify_spec i.inv ha e
            rcases hs with hs | ⟨y, hs⟩
            · rw [hs] at k1
              cases k1
              exact ⟨fr, b.notify (notify_cells hs) k4⟩
            · exact absurd hs notify_no_throw
          · rcases hs with hs | ⟨y, hs⟩ <;> cases hs
        | flush q =>
          simp only [QW.step] at hs
          split at hs
          · rename_i ha
            have hk := flush_spec (env q) n i.inv ha
            have hot : ∀ r, r ≠ q → u.processed r = s.processed r := by
              revert hk
              cases Queue.flush (env q) n ⟨s.events q, s.processed q⟩ with
              | ub r => intro hk; rcases hs with hs | ⟨y, hs⟩ <;> (rw [hk] at hs; cases hs)
              | ok _ Q => rintro ⟨v, hk, k2, -⟩; rcases hs with hs | ⟨y, hs⟩ <;> (rw [hk] at hs; cases hs); exact k2.proc
              | throw x Q => rintro ⟨v, hk, k2, -⟩; rcases hs with hs | ⟨y, hs⟩ <;> (rw [hk] at hs; cases hs); exact k2.proc
            rcases hs with hs | ⟨y, hs⟩
            · obtain ⟨l, e1, e2, -⟩ := (flush_cells (env := env q) (n := n) i.inv ha).1 u hs
              exact ⟨_, b.flush (m := []) i.inv e2 (by rw [e1, List.append_nil]) (fun _ => rfl) hot⟩
            · obtain ⟨l, p, c, e1, e2, -⟩ := (flush_cells (env := env q) (n := n) i.inv ha).2 y u hs
              exact ⟨_, b.flush i.inv e2 e1 (fun hH => absurd hs (flush_no_throw (hH q))) hot⟩
          · rcases hs with hs | ⟨y, hs⟩ <;> cases hs
      have next : ∀ u, QW.run env n [o] s = some u → PInv env n (os ++ [o]) u := fun u h1 =>
        run_pinv i (by intro o' ho'; rw [List.mem_singleton.1 ho']; exact ho) h1
      cases hs : s.step env n o with
      | ub r => simp [QW.run, hs] at h
      | throw y u =>
        obtain ⟨fr', b'⟩ := key u (Or.inr ⟨y, hs⟩)
        have i' := next u (by simp [QW.run, hs])
        simp only [QW.run, hs] at h
        exact ih (fun o' ho' => hp o' (by simp [ho'])) i' b' h
      | ok _ u =>
        obtain ⟨fr', b'⟩ := key u (Or.inl hs)
        have i' := next u (by simp [QW.run, hs])
        simp only [QW.run, hs] at h
        exact ih (fun o' ho' => hp o' (by simp [ho'])) i' b' h
  obtain ⟨fr, b⟩ := bal os (fr := fun _ => []) hp (init_pinv env n) ⟨by simp, by simp [QW.init], by simp, by simp, by simp, by simp [QW.init]⟩ hr
  have i : PInv env n os s := by simpa using run_pinv (init_pinv env n) hp hr
  refine ⟨fr, b.proc, b.eq, b.nodup, b.disj, fun p => ⟨fun h => ?_, ?_⟩, fun p => ⟨?_, ?_⟩⟩
  · by_cases hc : s.cell p = none
    · exact Or.inl ((b.gone p h).1 hc)
    · by_cases hq : ∃ q, p ∈ s.queues q
      · exact Or.inr (Or.inl hq)
      · exact Or.inr (Or.inr ⟨hc, fun q hq' => hq ⟨q, hq'⟩⟩)
  · rintro (⟨q, h⟩ | ⟨q, h⟩ | h)
    · exact b.lt q p h
    · exact i.inv.fresh p (i.inv.live q p h)
    · exact i.inv.fresh p h.1
  · rintro ⟨⟨q, h⟩, h'⟩
    have hc := (b.gone p (b.lt q p h)).2 ⟨q, h⟩
    rcases h' with ⟨r, hr⟩ | hl
    · exact i.inv.live r p hr hc
    · exact hl.1 hc
  · rintro ⟨⟨q, h⟩, h'⟩
    exact h'.2 q h

/-- two queues and the same `process`: of seven stored events, four are processed, one is still queued, two are leaked -/
example : let env : Nat → QEnv := fun _ l => (if l.length = 1 then [.edgeModified "a" "b" 0 1, .edgeModified "a" "b" 0 1] else [], false)
    (QW.run env 9 [.make 0, .make 1, .notify 0 (.frameAdded "c"), .notify 1 (.frameAdded "d"), .flush 0, .flush 1, .notify 0 (.frameAdded "e")] QW.init).map
      (fun s => (s.processed 0, s.processed 1, s.next, (List.range 7).map (fun p => (s.cell p).isSome), s.queues 0, s.queues 1)) =
    some ([.frameAdded "c", .edgeModified "a" "b" 0 1], [.frameAdded "d", .edgeModified "a" "b" 0 1], 7,
      [false, false, true, false, true, false, true], [6], []) := by rfl

/-- `process` throws at the first call: the frame is processed twice and deleted once; the superseded update is leaked -/
example : let env : Nat → QEnv := fun _ l => (if l.length = 1 then [.edgeModified "a" "b" 0 1, .edgeModified "a" "b" 0 1] else [], l.length == 1)
    (QW.run env 9 [.make 0, .notify 0 (.frameAdded "c"), .flush 0, .flush 0] QW.init).map
      (fun s => (s.processed 0, s.next, (List.range 3).map (fun p => (s.cell p).isSome), s.queues 0)) =
    some ([.frameAdded "c", .frameAdded "c", .edgeModified "a" "b" 0 1], 3, [false, true, false], []) := by rfl

private theorem leak_count {q : Nat} {s t : QW} {l : List (Nat × Event)} (i : QInv s) (k : Keeps q s t) (f : Freed q s t l)
    (key : ∀ p, Leaked t p ↔ Leaked s p ∨ ((p ∈ s.queues q ∨ (s.next ≤ p ∧ p < t.next)) ∧ p ∉ l.map Prod.fst ∧ p ∉ t.queues q)) :
    Set.ncard {p | Leaked t p ∧ ¬ Leaked s p} + l.length + (t.queues q).length = (s.queues q).length + (t.next - s.next) := by
  have hX : (s.queues q ++ List.range' s.next (t.next - s.next)).Nodup := by
    rw [List.nodup_append']
    refine ⟨i.nodup q, List.nodup_range', fun p h1 h2 => ?_⟩
    have := i.fresh p (i.live q p h1)
    have := (List.mem_range'_1.1 h2).1
    omega
  have hY : (l.map Prod.fst ++ t.queues q).Nodup := by
    rw [List.nodup_append']
    refine ⟨f.nodup, k.inv.nodup q, fun p h1 h2 => ?_⟩
    obtain ⟨x, hx, rfl⟩ := List.mem_map.1 h1
    exact k.inv.live q _ h2 (f.gone x hx)
  have memX : ∀ p, p ∈ s.queues q ++ List.range' s.next (t.next - s.next) ↔ p ∈ s.queues q ∨ (s.next ≤ p ∧ p < t.next) := by
    intro p
    have := f.next
    rw [List.mem_append, List.mem_range'_1, Nat.add_sub_cancel' this]
  have hsub : (l.map Prod.fst ++ t.queues q).toFinset ⊆ (s.queues q ++ List.range' s.next (t.next - s.next)).toFinset := by
    intro p hp
    rw [List.mem_toFinset] at hp ⊢
    rw [memX]
    rcases List.mem_append.1 hp with h | h
    · obtain ⟨x, hx, rfl⟩ := List.mem_map.1 h
      rcases f.origin x hx with h | h
      · exact Or.inl h.1
      · exact Or.inr h
    · have hc := k.inv.live q p h
      by_cases hn : p < s.next
      · have hm : p ∉ l.map Prod.fst := by
          intro hm
          obtain ⟨x, hx, rfl⟩ := List.mem_map.1 hm
          exact hc (f.gone x hx)
        rw [f.old p hn hm] at hc
        by_contra hq
        have : Leaked s p := by
          refine ⟨hc, fun r hr => ?_⟩
          by_cases hrq : r = q
          · subst hrq; exact hq (Or.inl hr)
          · rw [← k.queues r hrq] at hr
            exact hrq (k.inv.disj r q p hr h)
        exact (k.leaked p this).2 q h
      · exact Or.inr ⟨Nat.le_of_not_lt hn, k.inv.fresh p hc⟩
  have hset : {p | Leaked t p ∧ ¬ Leaked s p} =
      (((s.queues q ++ List.range' s.next (t.next - s.next)).toFinset \ (l.map Prod.fst ++ t.queues q).toFinset : Finset Nat) : Set Nat) := by
    ext p
    simp only [Set.mem_ofPred_eq, Finset.coe_sdiff, Set.mem_sdiff, Finset.mem_coe, List.mem_toFinset]
    rw [memX, List.mem_append, not_or, key]
    constructor
    · rintro ⟨h | h, h'⟩
      · exact absurd h h'
      · exact h
    · intro h
      refine ⟨Or.inr h, fun hl => ?_⟩
      rcases h.1 with h1 | ⟨h1, -⟩
      · exact hl.2 q h1
      · exact absurd (i.fresh p hl.1) (Nat.not_lt.2 h1)
  have hcard := Finset.card_sdiff_add_card_eq_card hsub
  rw [List.toFinset_card_of_nodup hX, List.toFinset_card_of_nodup hY] at hcard
  rw [hset, Set.ncard_coe_finset]
  simp only [List.length_append, List.length_map, List.length_range'] at hcard
  omega

/-- How many events a call of `flush` leaks, whatever `process` causes: together with the events that it processes they are as many as the events that the
queue held and that were stored during the call.  If `process` throws, the last processed event and the rest of the queue are still there. -/
theorem C104_flush_leak_count (hp : ∀ o ∈ os, o.plain) (hr : QW.run env n os QW.init = some s) {q : Nat} (h1 : .make q ∈ os) (h2 : .destroy q ∉ os) :
    (∀ t, s.step env n (.flush q) = .ok () t →
      Set.ncard {p | Leaked t p ∧ ¬ Leaked s p} + (t.processed q).length = (s.processed q).length + (s.queues q).length + (t.next - s.next)) ∧
    (∀ y t, s.step env n (.flush q) = .throw y t →
      Set.ncard {p | Leaked t p ∧ ¬ Leaked s p} + (t.processed q).length + (t.queues q).length =
        (s.processed q).length + 1 + (s.queues q).length + (t.next - s.next)) := by
  have i : PInv env n os s := by simpa using run_pinv (init_pinv env n) hp hr
  have ha := (i.alive_iff q).2 ⟨h1, h2⟩
  obtain ⟨f1, f2⟩ := flush_cells (env := env q) (n := n) i.inv ha
  have keeps := flush_keeps (n := n) (env := env q) i.inv ha
  simp only [QW.step, ha, if_true]
  constructor
  · intro t ht
    obtain ⟨l, e1, e2, e3⟩ := f1 t ht
    have k := keeps t (Or.inl ht)
    have := leak_count i.inv k e2 (leaked_iff i.inv k e2)
    rw [e1, List.length_append, List.length_map]
    rw [e3, List.length_nil] at this
    omega
  · intro y t ht
    obtain ⟨l, p0, c, e1, e2, -⟩ := f2 y t ht
    have k := keeps t (Or.inr ⟨y, ht⟩)
    have := leak_count i.inv k e2 (leaked_iff i.inv k e2)
    rw [e1]
    simp only [List.length_append, List.length_map, List.length_singleton]
    omega

/-- the queue of the example above holds two events, two more are stored during the call, two are processed: two are leaked -/
example : let env : Nat → QEnv := fun _ l => (if l.length = 1 then [.edgeModified "a" "b" 0 1, .edgeModified "a" "b" 0 1] else [], false)
    ∃ s t : QW, QW.run env 9 [.make 0, .notify 0 (.frameAdded "c"), .notify 0 (.edgeModified "a" "b" 0 1)] QW.init = some s ∧
      s.step env 9 (.flush 0) = .ok () t ∧ (s.queues 0).length = 2 ∧ s.next = 2 ∧ t.next = 4 ∧ (t.processed 0).length = 2 ∧
      {p | Leaked t p ∧ ¬ Leaked s p}.ncard = 2 := by
  refine ⟨_, _, rfl, rfl, rfl, rfl, rfl, rfl, ?_⟩
  have := (C104_flush_leak_count (os := [.make 0, .notify 0 (.frameAdded "c"), .notify 0 (.edgeModified "a" "b" 0 1)])
    (env := fun _ l => (if l.length = 1 then [.edgeModified "a" "b" 0 1, .edgeModified "a" "b" 0 1] else [], false)) (n := 9) (q := 0)
    (by simp [QOp.plain]) rfl (by simp) (by simp)).1 _ rfl
  exact Nat.add_right_cancel this

end Verif
